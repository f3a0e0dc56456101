import Verif.Model.Basic

/-!
# Lemmas about checked `u32` arithmetic
-/

namespace Btf

theorem ofNat_toNat_lt {n : Nat} (h : n < 2 ^ 32) : (UInt32.ofNat n).toNat = n := by
  simp [UInt32.toNat_ofNat']; omega

theorem u32CheckedAdd_eq_some {a b c : UInt32} :
    u32CheckedAdd a b = some c ↔ c.toNat = a.toNat + b.toNat := by
  unfold u32CheckedAdd
  have := c.toNat_lt
  split
  · rename_i h
    constructor
    · intro h'; cases h'; simp [UInt32.toNat_add]; omega
    · intro h'; congr 1; apply UInt32.toNat_inj.1; simp [UInt32.toNat_add]; omega
  · constructor
    · intro h'; cases h'
    · intro; omega

theorem u32CheckedAdd_eq_none {a b : UInt32} :
    u32CheckedAdd a b = none ↔ 2 ^ 32 ≤ a.toNat + b.toNat := by
  unfold u32CheckedAdd; split <;> simp <;> omega

theorem u32CheckedMul_eq_some {a b c : UInt32} :
    u32CheckedMul a b = some c ↔ c.toNat = a.toNat * b.toNat := by
  unfold u32CheckedMul
  have := c.toNat_lt
  split
  · rename_i h
    constructor
    · intro h'; cases h'; simp [UInt32.toNat_mul]; omega
    · intro h'; congr 1; apply UInt32.toNat_inj.1; simp [UInt32.toNat_mul]; omega
  · constructor
    · intro h'; cases h'
    · intro; omega

theorem u32CheckedMul_eq_none {a b : UInt32} :
    u32CheckedMul a b = none ↔ 2 ^ 32 ≤ a.toNat * b.toNat := by
  unfold u32CheckedMul; split <;> simp <;> omega

end Btf

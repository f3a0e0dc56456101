import Verif.Proofs.U32
import Verif.Model.Offset
import Verif.Spec.Offset

/-!
# Properties C22, C23: offset arithmetic
-/

namespace Btf.Props

open Btf Spec

/-- C22, `Offset + u32`: it succeeds exactly when the left operand is not a bitfield and the exact byte
offset fits; the result then denotes exactly the position `8·n` bits further and is not a bitfield. -/
theorem offset_add_u32_ok (o r : Offset) (n : UInt32) :
    o.addU32 n = .ok r ↔
      ¬ IsBitfield o ∧ bitWidth r = none ∧ bitPos r = bitPos o + 8 * n.toNat := by
  cases o <;> cases r <;> simp [Offset.addU32, okOr, IsBitfield, bitWidth, bitPos, Bind.bind, Res.bind, Pure.pure]
  · rename_i b c
    cases h : u32CheckedAdd b n with
    | none => rw [u32CheckedAdd_eq_none] at h; have := c.toNat_lt; simp; omega
    | some s =>
      have := u32CheckedAdd_eq_some.1 h
      simp
      constructor
      · rintro rfl; omega
      · intro h'; apply UInt32.toNat_inj.1; omega
  · rename_i b c d
    cases h : u32CheckedAdd b n <;> simp

/-- C22, `Offset + u32`, failures. -/
theorem offset_add_u32_err (o : Offset) (n : UInt32) (e : ErrorKind) :
    o.addU32 n = .err e ↔
      (e = .UnexpectedBitfield ∧ IsBitfield o) ∨
      (e = .InvalidOffset ∧ ¬ IsBitfield o ∧ 2 ^ 32 * 8 ≤ bitPos o + 8 * n.toNat) := by
  cases o <;> simp [Offset.addU32, okOr, IsBitfield, bitWidth, bitPos, Bind.bind, Res.bind, Pure.pure]
  · rename_i b
    cases h : u32CheckedAdd b n with
    | none => rw [u32CheckedAdd_eq_none] at h; simp; grind
    | some s =>
      have := u32CheckedAdd_eq_some.1 h
      have := s.toNat_lt
      simp; grind
  · grind

/-- C22, `Offset + Offset`: it succeeds exactly when the left operand is not a bitfield and the exact
sum is representable in the form of the right operand; the result denotes exactly the sum of the two
bit positions, with the width of the right operand. -/
theorem offset_add_ok (a b r : Offset) :
    a.add b = .ok r ↔
      ¬ IsBitfield a ∧ bitWidth r = bitWidth b ∧ bitPos r = bitPos a + bitPos b := by
  cases a <;> cases b <;> cases r <;>
    simp [Offset.add, okOr, IsBitfield, bitWidth, bitPos, Bind.bind, Res.bind, Pure.pure]
  · rename_i a b c
    cases h : u32CheckedAdd a b with
    | none => rw [u32CheckedAdd_eq_none] at h; have := c.toNat_lt; simp; omega
    | some s =>
      have := u32CheckedAdd_eq_some.1 h
      simp
      constructor
      · rintro rfl; omega
      · intro h'; apply UInt32.toNat_inj.1; omega
  · rename_i a b c d
    cases h : u32CheckedAdd a b <;> simp
  · rename_i a b c d
    cases h : u32CheckedMul a 8 with
    | none => simp
    | some m =>
      simp only []
      cases h' : u32CheckedAdd m b <;> simp
  · rename_i a b c d e
    cases h : u32CheckedMul a 8 with
    | none =>
      rw [u32CheckedMul_eq_none] at h; have := d.toNat_lt
      simp at h ⊢
      intro; omega
    | some m =>
      rw [u32CheckedMul_eq_some] at h
      simp at h
      simp only []
      cases h' : u32CheckedAdd m b with
      | none => rw [u32CheckedAdd_eq_none] at h'; have := d.toNat_lt; simp; intro; omega
      | some s =>
        have := u32CheckedAdd_eq_some.1 h'
        simp
        constructor
        · rintro ⟨rfl, rfl⟩; exact ⟨rfl, by omega⟩
        · rintro ⟨rfl, h'⟩; exact ⟨by apply UInt32.toNat_inj.1; omega, rfl⟩

/-- C22, `Offset + Offset`, failures: `UnexpectedBitfield` exactly for a bitfield on the left,
`InvalidOffset` exactly when the exact result does not fit (a byte offset needs its byte count below
2^32, a bit offset needs the bit count below 2^32). -/
theorem offset_add_err (a b : Offset) (e : ErrorKind) :
    a.add b = .err e ↔
      (e = .UnexpectedBitfield ∧ IsBitfield a) ∨
      (e = .InvalidOffset ∧ ¬ IsBitfield a ∧
        (if bitWidth b = none then 2 ^ 32 * 8 else 2 ^ 32) ≤ bitPos a + bitPos b) := by
  cases a <;> cases b <;>
    simp [Offset.add, okOr, IsBitfield, bitWidth, bitPos, Bind.bind, Res.bind, Pure.pure]
  · rename_i a b
    cases h : u32CheckedAdd a b with
    | none => rw [u32CheckedAdd_eq_none] at h; simp; grind
    | some s =>
      have := u32CheckedAdd_eq_some.1 h
      have := s.toNat_lt
      simp; grind
  · rename_i a b c
    cases h : u32CheckedMul a 8 with
    | none =>
      rw [u32CheckedMul_eq_none] at h
      simp at h ⊢
      grind
    | some m =>
      rw [u32CheckedMul_eq_some] at h
      simp at h
      simp only []
      cases h' : u32CheckedAdd m b with
      | none => rw [u32CheckedAdd_eq_none] at h'; simp; grind
      | some s =>
        have := u32CheckedAdd_eq_some.1 h'
        have := s.toNat_lt
        simp; grind
  · grind
  · grind

/-- Adding a list of byte offsets to a start offset, one after the other (as a path does). -/
def addAll (start : Offset) : List UInt32 → Outcome Offset
  | [] => .ok start
  | n :: rest => do
    let o ← start.add (.byteOffset n)
    addAll o rest

/-- C23: adding byte offsets one by one succeeds exactly when the exact total fits in `u32`, and then
gives the exact total; otherwise it fails with `InvalidOffset`. -/
theorem accumulate_exact (start : UInt32) (l : List UInt32) :
    addAll (.byteOffset start) l =
      if start.toNat + (l.map UInt32.toNat).sum < 2 ^ 32 then
        .ok (.byteOffset (UInt32.ofNat (start.toNat + (l.map UInt32.toNat).sum)))
      else .err .InvalidOffset := by
  induction l generalizing start with
  | nil => have := start.toNat_lt; simp [addAll]; grind
  | cons n rest ih =>
    simp only [addAll, Offset.add, okOr, Bind.bind, Res.bind, Pure.pure, List.map_cons, List.sum_cons]
    cases h : u32CheckedAdd start n with
    | none =>
      rw [u32CheckedAdd_eq_none] at h
      simp; omega
    | some s =>
      have := u32CheckedAdd_eq_some.1 h
      simp [ih, this, Nat.add_assoc]

/-- C23: the order of the additions is irrelevant. -/
theorem accumulate_perm (start : UInt32) (l l' : List UInt32) (h : l.Perm l') :
    addAll (.byteOffset start) l = addAll (.byteOffset start) l' := by
  rw [accumulate_exact, accumulate_exact, (h.map UInt32.toNat).sum_nat]

example : (Offset.byteOffset 1).add (.bitOffsetAndSize 7 1) = .ok (.bitOffsetAndSize 15 1) := by decide
example : (Offset.byteOffset 0x80000000).add (.byteOffset 0x80000000) = .err .InvalidOffset := by decide
example : addAll (.byteOffset 1) [2, 3, 4] = .ok (.byteOffset 10) := by decide

/-- C98: two offsets are equal exactly if they denote the same bit position and the same width (and kind). -/
theorem offset_eq_iff (a b : Offset) : a = b ↔ bitPos a = bitPos b ∧ bitWidth a = bitWidth b := by
  constructor
  · rintro rfl; exact ⟨rfl, rfl⟩
  · rintro ⟨h, h'⟩
    cases a <;> cases b <;> simp only [bitPos, bitWidth] at h h'
    · rw [UInt32.toNat_inj.1 (Nat.eq_of_mul_eq_mul_left (by decide) h)]
    · cases h'
    · cases h'
    · cases h'; rw [UInt32.toNat_inj.1 h]

/-- A position that is not a bitfield's. -/
theorem byte_of_pos {a : Offset} (h : ¬ IsBitfield a) : ∃ n : UInt32, a = .byteOffset n := by
  cases a with
  | byteOffset n => exact ⟨n, rfl⟩
  | bitOffsetAndSize => exact absurd (by simp [IsBitfield, bitWidth]) h

/-- C98: how three offsets are grouped does not matter for what the sum is, nor for whether there is one. (The kind of the
error may depend on it.) -/
theorem offset_add_assoc (a b c r : Offset) :
    (∃ s, a.add b = .ok s ∧ s.add c = .ok r) ↔ ∃ s, b.add c = .ok s ∧ a.add s = .ok r := by
  simp only [offset_add_ok]
  constructor
  · rintro ⟨s, ⟨ha, hs, hp⟩, hs', hr, hp'⟩
    have hb : ¬ IsBitfield b := by unfold IsBitfield at hs' ⊢; rwa [← hs]
    obtain ⟨n, rfl⟩ := byte_of_pos ha
    obtain ⟨m, rfl⟩ := byte_of_pos hb
    have hlt : bitPos (.byteOffset m) + bitPos c ≤ bitPos r := by omega
    cases c with
    | byteOffset k =>
      cases r with
      | bitOffsetAndSize => cases hr
      | byteOffset q =>
        have := q.toNat_lt
        simp only [bitPos] at hlt hp' hp
        refine ⟨.byteOffset (UInt32.ofNat (m.toNat + k.toNat)), ⟨hb, rfl, ?_⟩, ha, rfl, ?_⟩ <;>
          simp only [bitPos, UInt32.toNat_ofNat'] <;> omega
    | bitOffsetAndSize k w =>
      cases r with
      | byteOffset => cases hr
      | bitOffsetAndSize q w' =>
        have := q.toNat_lt
        simp only [bitPos] at hlt hp' hp
        refine ⟨.bitOffsetAndSize (UInt32.ofNat (8 * m.toNat + k.toNat)) w, ⟨hb, rfl, ?_⟩, ha, hr, ?_⟩ <;>
          simp only [bitPos, UInt32.toNat_ofNat'] <;> omega
  · rintro ⟨s, ⟨hb, hs, hp⟩, ha, hr, hp'⟩
    obtain ⟨n, rfl⟩ := byte_of_pos ha
    obtain ⟨m, rfl⟩ := byte_of_pos hb
    have hlt : 8 * (n.toNat + m.toNat) ≤ bitPos r := by simp only [bitPos] at hp hp' ⊢; omega
    have hq : n.toNat + m.toNat < 2 ^ 32 := by
      cases r with
      | byteOffset q => have := q.toNat_lt; simp only [bitPos] at hlt; omega
      | bitOffsetAndSize q w => have := q.toNat_lt; simp only [bitPos] at hlt; omega
    refine ⟨.byteOffset (UInt32.ofNat (n.toNat + m.toNat)), ⟨ha, rfl, ?_⟩, by simp [IsBitfield, bitWidth], by rw [hr, hs], ?_⟩ <;>
      simp only [bitPos, UInt32.toNat_ofNat'] at hp hp' ⊢ <;> omega

/-- C98: adding nothing changes nothing. -/
theorem offset_add_zero (a : Offset) :
    (Offset.byteOffset 0).add a = .ok a ∧ (¬ IsBitfield a → a.addU32 0 = .ok a) := by
  refine ⟨(offset_add_ok _ _ _).2 ⟨by simp [IsBitfield, bitWidth], rfl, by simp [bitPos]⟩, fun h =>
    (offset_add_u32_ok _ _ _).2 ⟨h, ?_, by simp⟩⟩
  simpa [IsBitfield] using h

/-- C98: what is inside an object is found at different offsets exactly if it is at different places: the sum determines
either part from the other. -/
theorem offset_add_cancel (a a' b b' r : Offset) (h : a.add b = .ok r) (h' : a'.add b' = .ok r) : a = a' ↔ b = b' := by
  rw [offset_add_ok] at h h'
  obtain ⟨h1, h2, h3⟩ := h
  obtain ⟨k1, k2, k3⟩ := h'
  rw [offset_eq_iff, offset_eq_iff]
  have e1 : bitWidth a = none := by simpa [IsBitfield] using h1
  have e2 : bitWidth a' = none := by simpa [IsBitfield] using k1
  rw [e1, e2, ← h2, ← k2]
  constructor
  · rintro ⟨h, -⟩; exact ⟨by omega, rfl⟩
  · rintro ⟨h, -⟩; exact ⟨by omega, rfl⟩

/-- `offset_eq_iff`: byte 1 is not the bitfield at bit 8, because of its width. -/
example : Offset.byteOffset 1 ≠ .bitOffsetAndSize 8 8 ∧ bitPos (.byteOffset 1) = bitPos (.bitOffsetAndSize 8 8) := by decide
/-- `offset_add_assoc` at the end of the range: both groupings have the sum. -/
example : ∃ s, (Offset.byteOffset 3).add (.bitOffsetAndSize 1 2) = .ok s ∧
    (Offset.byteOffset 0x1FFFFFFC).add s = .ok (.bitOffsetAndSize 0xFFFFFFF9 2) :=
  (offset_add_assoc _ _ _ _).1 ⟨.byteOffset 0x1FFFFFFF, by decide, by decide⟩
/-- The kind of the error depends on the grouping. -/
example : ((Offset.bitOffsetAndSize 0 1).add (.byteOffset 0xFFFFFFFF) >>= (·.add (.byteOffset 1))) = .err .UnexpectedBitfield ∧
    ((Offset.byteOffset 0xFFFFFFFF).add (.byteOffset 1) >>= (Offset.bitOffsetAndSize 0 1).add) = .err .InvalidOffset := by decide
/-- `offset_add_zero`, `offset_add_cancel`. -/
example : (Offset.byteOffset 0).add (.bitOffsetAndSize 7 1) = .ok (.bitOffsetAndSize 7 1) := (offset_add_zero _).1
example (b : Offset) (h : (Offset.byteOffset 1).add b = .ok (.bitOffsetAndSize 15 1)) : .bitOffsetAndSize 7 1 = b :=
  (offset_add_cancel (.byteOffset 1) (.byteOffset 1) _ b _ (by decide) h).1 rfl

end Btf.Props

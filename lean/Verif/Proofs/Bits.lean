import Verif.Spec.Format
import Verif.Model.Parse
import Verif.Proofs.U32

/-!
# Bit fields of words
-/

namespace Btf

open Spec

theorem and_low {w m : UInt32} (n : Nat) (hm : m.toNat = 2 ^ n - 1) : (w &&& m).toNat = w.toNat % 2 ^ n := by
  rw [UInt32.toNat_and, hm, Nat.and_two_pow_sub_one_eq_mod]

theorem and_shift {w m s : UInt32} (i n : Nat) (hs : s.toNat = i) (hi : i < 32) (hm : m.toNat >>> i = 2 ^ n - 1) :
    ((w &&& m) >>> s).toNat = w.toNat / 2 ^ i % 2 ^ n := by
  rw [UInt32.toNat_shiftRight, UInt32.toNat_and, hs, Nat.mod_eq_of_lt hi, Nat.shiftRight_and_distrib, hm,
    Nat.and_two_pow_sub_one_eq_mod, Nat.shiftRight_eq_div_pow]

theorem and_bit {w m : UInt32} (i : Nat) (hm : m.toNat = 2 ^ i) :
    ((w &&& m) != 0) = true ↔ w.toNat / 2 ^ i % 2 = 1 := by
  have h : (w &&& m) ≠ 0 ↔ (w &&& m).toNat ≠ 0 := by
    constructor
    · intro h h'; exact h (UInt32.toNat_inj.1 h')
    · intro h h'; exact h (by rw [h']; rfl)
  have hand : w.toNat &&& 2 ^ i = 2 ^ i * (w.toNat / 2 ^ i % 2) := by
    apply Nat.eq_of_testBit_eq
    intro j
    rw [Nat.testBit_and, Nat.testBit_two_pow]
    by_cases hj : i = j
    · subst hj
      rw [Nat.testBit_two_pow_mul]
      simp [Nat.testBit_eq_decide_div_mod_eq]
    · have hlt : w.toNat / 2 ^ i % 2 < 2 := Nat.mod_lt _ (by decide)
      rw [decide_eq_false hj, Bool.and_false, Nat.testBit_two_pow_mul]
      by_cases hji : j ≥ i
      · have : (w.toNat / 2 ^ i % 2).testBit (j - i) = false :=
          Nat.testBit_lt_two_pow (Nat.lt_of_lt_of_le hlt (by
            have : 2 ^ 1 ≤ 2 ^ (j - i) := Nat.pow_le_pow_right (by decide) (by omega)
            simpa using this))
        rw [this, Bool.and_false]
      · simp [hji]
  rw [bne_iff_ne, h, UInt32.toNat_and, hm, hand]
  have hpos : 0 < 2 ^ i := Nat.two_pow_pos i
  have hlt : w.toNat / 2 ^ i % 2 < 2 := Nat.mod_lt _ (by decide)
  rw [ne_eq, Nat.mul_eq_zero]
  omega

theorem info_vlen (w : UInt32) : (w &&& 0xFFFF).toNat = w.toNat % 2 ^ 16 := and_low 16 rfl

theorem info_kind (w : UInt32) : ((w &&& 0x1F000000) >>> 24).toNat = w.toNat / 2 ^ 24 % 32 :=
  and_shift 24 5 rfl (by decide) (by decide)

theorem info_flag (w : UInt32) : ((w &&& 0x80000000) != 0) = true ↔ w.toNat / 2 ^ 31 = 1 := by
  rw [and_bit 31 rfl]
  have := w.toNat_lt
  omega

theorem int_encoding (w : UInt32) : ((w &&& 0x0F000000) >>> 24).toNat = w.toNat / 2 ^ 24 % 16 :=
  and_shift 24 4 rfl (by decide) (by decide)

theorem int_signed (w : UInt32) : ((((w &&& 0x0F000000) >>> 24) &&& 1) != 0) = true ↔ w.toNat / 2 ^ 24 % 2 = 1 := by
  rw [and_bit 0 rfl, int_encoding]; omega

theorem int_char (w : UInt32) : ((((w &&& 0x0F000000) >>> 24) &&& 2) != 0) = true ↔ w.toNat / 2 ^ 25 % 2 = 1 := by
  rw [and_bit 1 rfl, int_encoding]; omega

theorem int_boolean (w : UInt32) : ((((w &&& 0x0F000000) >>> 24) &&& 4) != 0) = true ↔ w.toNat / 2 ^ 26 % 2 = 1 := by
  rw [and_bit 2 rfl, int_encoding]; omega

theorem int_offset (w : UInt32) : ((w &&& 0x00FF0000) >>> 16).toNat = w.toNat / 2 ^ 16 % 256 :=
  and_shift 16 8 rfl (by decide) (by decide)

theorem int_bits (w : UInt32) : (w &&& 0x000000FF).toNat = w.toNat % 256 := and_low 8 rfl

theorem member_pos (w : UInt32) : (w &&& 0xFFFFFF).toNat = w.toNat % 2 ^ 24 := and_low 24 rfl

theorem member_width (w : UInt32) : ((w >>> 24) &&& 0xFF).toNat = w.toNat / 2 ^ 24 := by
  have h := and_low (w := w >>> 24) (m := 0xFF) 8 rfl
  rw [h, UInt32.toNat_shiftRight]
  have := w.toNat_lt
  show w.toNat >>> 24 % 2 ^ 8 = _
  rw [Nat.shiftRight_eq_div_pow]
  omega

theorem u32_mod8 (w : UInt32) : w % 8 = 0 ↔ 8 ∣ w.toNat := by
  constructor
  · intro h
    have := congrArg UInt32.toNat h
    rw [UInt32.toNat_mod] at this
    exact Nat.dvd_of_mod_eq_zero this
  · intro h
    apply UInt32.toNat_inj.1
    rw [UInt32.toNat_mod]
    exact Nat.mod_eq_zero_of_dvd h

theorem u32_div8 (w : UInt32) : (w / 8).toNat = w.toNat / 8 := by rw [UInt32.toNat_div]; rfl

theorem toInt32_toInt (w : UInt32) : w.toInt32.toInt = twosComplement 32 w.toNat := by
  have := w.toNat_lt
  have h : w.toInt32.toInt = w.toBitVec.toInt := rfl
  rw [h, BitVec.toInt_eq_toNat_cond]
  have h2 : w.toBitVec.toNat = w.toNat := rfl
  rw [h2]
  unfold twosComplement
  split <;> split <;> omega

theorem toInt64_toInt (w : UInt64) : w.toInt64.toInt = twosComplement 64 w.toNat := by
  have := w.toNat_lt
  have h : w.toInt64.toInt = w.toBitVec.toInt := rfl
  rw [h, BitVec.toInt_eq_toNat_cond]
  have h2 : w.toBitVec.toNat = w.toNat := rfl
  rw [h2]
  unfold twosComplement
  split <;> split <;> omega

/-- The decoding of member offsets is as documented. -/
theorem memberOffset_ok {kf : Bool} {raw : UInt32} {o : Offset} :
    memberOffset kf raw = .ok o ↔ MemberOffset kf raw o := by
  cases kf with
  | false =>
    unfold memberOffset MemberOffset
    simp only [u32_mod8]
    by_cases h : 8 ∣ raw.toNat
    · rw [if_pos h]
      have h8 := u32_div8 raw
      cases o with
      | byteOffset b =>
        simp only [Res.ok.injEq, Offset.byteOffset.injEq, bitPos, bitWidth, and_true]
        rw [← UInt32.toNat_inj]
        omega
      | bitOffsetAndSize b s => simp [bitWidth]
    · rw [if_neg h]
      cases o with
      | byteOffset b => simp only [bitPos, bitWidth, and_true]; exact ⟨fun h' => (by cases h'), fun h' => absurd ⟨_, h'.symm⟩ h⟩
      | bitOffsetAndSize b s => simp [bitWidth]
  | true =>
    unfold memberOffset MemberOffset
    simp only [u32_mod8]
    have h1 := member_pos raw
    have h2 := member_width raw
    have h3 : (raw >>> 24 &&& 255 = 0) ↔ raw.toNat / 2 ^ 24 = 0 := by
      rw [← h2]
      constructor
      · intro h; rw [h]; rfl
      · intro h; exact UInt32.toNat_inj.1 h
    have h8 := u32_div8 (raw &&& 0xFFFFFF)
    simp only [h3, h1]
    rw [h1] at h8
    by_cases h : raw.toNat / 2 ^ 24 = 0 ∧ 8 ∣ raw.toNat % 2 ^ 24
    · rw [if_pos h]
      cases o with
      | byteOffset b =>
        simp only [Res.ok.injEq, Offset.byteOffset.injEq, bitPos, bitWidth]
        rw [← UInt32.toNat_inj]
        omega
      | bitOffsetAndSize b s =>
        simp only [Res.ok.injEq, bitPos, bitWidth, reduceCtorEq, false_iff, ne_eq]
        rintro ⟨-, hs, hs' | hs'⟩
        · exact hs' (UInt32.toNat_inj.1 (by rw [hs]; exact h.1))
        · exact hs' h.2
    · rw [if_neg h]
      cases o with
      | byteOffset b =>
        simp only [Res.ok.injEq, bitPos, bitWidth, reduceCtorEq, false_iff]
        rintro ⟨hb, hs⟩
        exact h ⟨hs, by omega⟩
      | bitOffsetAndSize b s =>
        simp only [Res.ok.injEq, Offset.bitOffsetAndSize.injEq, bitPos, bitWidth]
        rw [← UInt32.toNat_inj, ← UInt32.toNat_inj, h1, h2]
        constructor
        · rintro ⟨hb, hs⟩
          refine ⟨hb.symm, hs.symm, ?_⟩
          by_cases h0 : s = 0
          · right; intro h'; subst h0; exact h ⟨hs, h'⟩
          · exact .inl h0
        · rintro ⟨hb, hs, -⟩; exact ⟨hb.symm, hs.symm⟩

theorem memberOffset_returns (kf : Bool) (raw : UInt32) :
    (∃ o, memberOffset kf raw = .ok o) ∨ ∃ k, memberOffset kf raw = .err k := by
  unfold memberOffset; cases kf <;> simp only [] <;> split <;> simp

theorem memberOffset_err {kf : Bool} {raw : UInt32} {k : LoadReason} :
    memberOffset kf raw = .err k ↔ kf = false ∧ ¬ 8 ∣ raw.toNat ∧ k = .unaligned := by
  unfold memberOffset
  cases kf <;> simp only [u32_mod8]
  · by_cases h : 8 ∣ raw.toNat
    · simp [h]
    · simp [h, eq_comm]
  · split <;> simp

end Btf

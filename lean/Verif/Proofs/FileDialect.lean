import Verif.Proofs.FileFlaw

/-!
# The documented format and the format as read by the crate
-/

namespace Btf

open Spec

section
variable {f : List UInt8} {e : Endianness} {fh : FileHeader} {pos : Nat}

theorem intOf_little_append (as bs : List UInt8) :
    intOf .little (as ++ bs) = intOf .little as + 256 ^ as.length * intOf .little bs := by
  induction as with
  | nil => simp [intOf]
  | cons a as ih =>
    have h1 : intOf .little (a :: as ++ bs) = a.toNat + 256 * intOf .little (as ++ bs) := rfl
    have h2 : intOf .little (a :: as) = a.toNat + 256 * intOf .little as := rfl
    rw [h1, h2, ih, List.length_cons, pow_succ]; ring

theorem intOf_big_append (as bs : List UInt8) :
    intOf .big (as ++ bs) = intOf .big as * 256 ^ bs.length + intOf .big bs := by
  have key : ∀ (bs : List UInt8) (acc : Nat), bs.foldl (fun acc b => 256 * acc + b.toNat) acc =
      acc * 256 ^ bs.length + intOf .big bs := by
    intro bs
    induction bs with
    | nil => intro acc; simp [intOf]
    | cons b bs ih =>
      intro acc
      have : intOf .big (b :: bs) = bs.foldl (fun acc b => 256 * acc + b.toNat) (256 * 0 + b.toNat) := rfl
      rw [this, List.foldl_cons, ih, ih, List.length_cons, pow_succ]; ring
  have : intOf .big (as ++ bs) = bs.foldl (fun acc b => 256 * acc + b.toNat) (intOf .big as) := by
    unfold intOf; rw [List.foldl_append]
  rw [this, key]

theorem take8 : (f.drop pos).take 8 = (f.drop pos).take 4 ++ (f.drop (pos + 4)).take 4 := by
  rw [show (8 : Nat) = 4 + 4 from rfl, List.take_add, List.drop_drop]

/-- In little-endian files both dialects agree on 64-bit values. -/
theorem wide_little {v : Nat} : WideAt .documented f .little pos v ↔ WideAt .crate f .little pos v := by
  unfold WideAt IntAt
  simp only []
  constructor
  · rintro ⟨lo, hi, hlo, hhi, rfl⟩
    refine ⟨by have := hhi.1; omega, ?_⟩
    have hl : ((f.drop pos).take 4).length = 4 := by rw [List.length_take_of_le]; simp; have := hlo.1; omega
    rw [take8, intOf_little_append, hl, hlo.2, hhi.2]; rfl
  · rintro ⟨h1, rfl⟩
    obtain ⟨lo, hlo⟩ := word_exists (e := .little) (by omega : pos + 4 ≤ f.length)
    obtain ⟨hi, hhi⟩ := word_exists (e := .little) (by omega : pos + 4 + 4 ≤ f.length)
    refine ⟨lo, hi, hlo, hhi, ?_⟩
    have hl : ((f.drop pos).take 4).length = 4 := by rw [List.length_take_of_le]; simp; omega
    rw [take8, intOf_little_append, hl, hlo.2, hhi.2]; rfl

/-- In big-endian files the crate exchanges the two words. -/
theorem wide_big {lo hi : UInt32} (hlo : Word f .big pos lo) (hhi : Word f .big (pos + 4) hi) :
    WideAt .documented f .big pos (lo.toNat + 2 ^ 32 * hi.toNat) ∧
    WideAt .crate f .big pos (hi.toNat + 2 ^ 32 * lo.toNat) := by
  refine ⟨⟨lo, hi, hlo, hhi, rfl⟩, by have := hhi.1; omega, ?_⟩
  have hl : ((f.drop (pos + 4)).take 4).length = 4 := by rw [List.length_take_of_le]; simp; have := hhi.1; omega
  rw [take8, intOf_big_append, hl, hlo.2, hhi.2, Nat.add_comm, Nat.mul_comm]; rfl

theorem body_dialect {th : Header} {v : TypeVariant} (h : e = .little ∨ th.kind ≠ .Enum64) :
    Body .documented f e fh th pos v ↔ Body .crate f e fh th pos v := by
  cases v with
  | enum64 hd d =>
    unfold Body
    by_cases hk : th.kind = .Enum64
    · rcases h with rfl | h
      · unfold Enum64Body Enumerator64At
        simp only [wide_little]
      · exact absurd hk h
    · constructor <;> (rintro ⟨-, h', -⟩; exact absurd h' hk)
  | _ => exact Iff.rfl

/-- The header of a type, as stored in it. -/
def headerOf : TypeVariant → Option Header
  | .void => none
  | .int h _ | .typedef h _ | .enum h _ | .ptr h _ | .const h _ | .volatile h _ | .array h _ | .funcProto h _
  | .struct h _ | .union h _ | .fwd h _ | .var h _ | .enum64 h _ | .func h _ | .float h _ | .restrict h _
  | .dataSec h _ | .typeTag h _ | .declTag h _ => some h

theorem body_header {dl : Dialect} {th : Header} {v : TypeVariant} (h : Body dl f e fh th pos v) :
    headerOf v = some th := by
  cases v with
  | void => exact h.elim
  | _ => exact congrArg some h.1

/-- 64-bit enumerations occur. -/
def isEnum64 : TypeVariant → Bool
  | .enum64 _ _ => true
  | _ => false

theorem body_isEnum64 {dl : Dialect} {th : Header} {v : TypeVariant} (h : Body dl f e fh th pos v) :
    isEnum64 v = true ↔ th.kind = .Enum64 := by
  cases v with
  | void => exact h.elim
  | _ => rw [h.2.1]; simp [isEnum64]

theorem body_array {dl : Dialect} {th : Header} {v : TypeVariant} (h : Body dl f e fh th pos v)
    (hk : th.kind = .Array) : ∃ d, v = .array th d := by
  cases v with
  | void => exact h.elim
  | array hd d => exact ⟨d, by rw [h.1]⟩
  | _ => rw [h.2.1] at hk; cases hk

theorem boundedSize_of_not_array {dl : Dialect} {k : Kind} {n : Nat} (h : k ≠ .Array) : boundedSize dl k n = bodySize k n := by
  cases dl <;> cases k <;> first | rfl | exact absurd rfl h

theorem records_documented {vs : List TypeVariant} {pos n : Nat} (h : Records .crate f e fh pos vs n)
    (hn : n ≤ typeEnd fh) (he : e = .little ∨ ∀ v ∈ vs, isEnum64 v = false) : Records .documented f e fh pos vs n := by
  induction h with
  | nil => exact .nil
  | cons h1 h2 ih =>
    obtain ⟨th, hh, hb, hle, hnext⟩ := h1
    have := records_next h2
    refine .cons ⟨th, hh, (body_dialect ?_).2 hb, ?_, hnext⟩ (ih hn (he.imp_right fun h v hv => h v (List.mem_cons_of_mem _ hv)))
    · refine he.imp_right fun h hk => ?_
      have := h _ (List.mem_cons_self ..)
      rw [(body_isEnum64 hb).2 hk] at this; cases this
    · have : boundedSize .documented th.kind th.vlen = bodySize th.kind th.vlen := by cases th.kind <;> rfl
      omega

theorem records_crate {vs : List TypeVariant} {pos n : Nat} (h : Records .documented f e fh pos vs n)
    (ha : ∀ th d, .array th d ∈ vs → th.vlen = 0) (he : e = .little ∨ ∀ v ∈ vs, isEnum64 v = false) :
    Records .crate f e fh pos vs n := by
  induction h with
  | nil => exact .nil
  | cons h1 h2 ih =>
    obtain ⟨th, hh, hb, hle, hnext⟩ := h1
    refine .cons ⟨th, hh, (body_dialect ?_).1 hb, ?_, hnext⟩ (ih (fun th d h => ha th d (List.mem_cons_of_mem _ h))
      (he.imp_right fun h v hv => h v (List.mem_cons_of_mem _ hv)))
    · refine he.imp_right fun h hk => ?_
      have := h _ (List.mem_cons_self ..)
      rw [(body_isEnum64 hb).2 hk] at this; cases this
    · by_cases hk : th.kind = .Array
      · obtain ⟨d, rfl⟩ := body_array hb hk
        have := ha th d (List.mem_cons_self ..)
        rw [hk] at hle ⊢
        rw [this] at hle ⊢
        simp only [boundedSize, bodySize] at hle ⊢; omega
      · rw [boundedSize_of_not_array hk] at hle ⊢; exact hle

/-- The records end inside the section, unless the last one is an array. -/
theorem records_end {vs : List TypeVariant} {pos n : Nat} (h : Records .crate f e fh pos vs n) (hpos : pos ≤ typeEnd fh)
    (hlast : ∀ th d, vs.getLast? ≠ some (.array th d)) : n ≤ typeEnd fh := by
  induction h with
  | nil => exact hpos
  | @cons pos v mid vs next h1 h2 ih =>
    cases h2 with
    | nil =>
      obtain ⟨th, hh, hb, hle, hnext⟩ := h1
      by_cases hk : th.kind = .Array
      · obtain ⟨d, rfl⟩ := body_array hb hk
        exact absurd rfl (hlast th d)
      · rw [boundedSize_of_not_array hk] at hle
        omega
    | cons h3 h4 =>
      refine ih ?_ ?_
      · have := record_next h3; omega
      · intro th d
        have := hlast th d
        rwa [List.getLast?_cons_cons] at this

/-- Every record needs at least 12 bytes. -/
theorem records_count {dl : Dialect} {vs : List TypeVariant} {pos n : Nat} (h : Records dl f e fh pos vs n) :
    12 * vs.length ≤ typeEnd fh - pos := by
  induction h with
  | nil => simp
  | cons h1 _ ih => have := record_next h1; rw [List.length_cons]; omega

theorem records_append {dl : Dialect} {vs ws : List TypeVariant} {pos mid n : Nat} (h : Records dl f e fh pos vs mid)
    (h' : Records dl f e fh mid ws n) : Records dl f e fh pos (vs ++ ws) n := by
  induction h with
  | nil => exact h'
  | cons h1 _ ih => exact .cons h1 (ih h')

/-- Record `i` and what comes before it. -/
theorem records_get {dl : Dialect} {vs : List TypeVariant} {pos n : Nat} (h : Records dl f e fh pos vs n) (i : Nat)
    {v : TypeVariant} (hv : vs[i]? = some v) :
    ∃ p m, Records dl f e fh pos (vs.take i) p ∧ RecordAt dl f e fh p v m ∧ Records dl f e fh m (vs.drop (i + 1)) n := by
  induction h generalizing i with
  | nil => simp at hv
  | cons h1 h2 ih =>
    cases i with
    | zero => cases hv; exact ⟨_, _, .nil, h1, h2⟩
    | succ i =>
      obtain ⟨p, m, h3, h4, h5⟩ := ih i hv
      exact ⟨p, m, .cons h1 h3, h4, h5⟩

end

end Btf

import Verif.Props.CGrow
import Verif.Props.CSame

/-!
# Property C123: types without pointers
-/

namespace Btf.Props

open Btf Spec CTypes TypeInformation

mutual
theorem align_portable (p q : Nat) : ∀ S : CSource, S.hasPointer = false → S.align p = S.align q
  | .scalar _ _, _ => rfl
  | .pointer _, h => by simp [CSource.hasPointer] at h
  | .array _ t, h => by
    rw [CSource.hasPointer] at h
    rw [CSource.align, CSource.align, align_portable p q t h]
  | .record _ _ ms, h => by
    rw [CSource.hasPointer] at h
    rw [CSource.align, CSource.align, align_portable_fields p q ms h]
  | .renamed _ t, h => by
    rw [CSource.hasPointer] at h
    rw [CSource.align, CSource.align, align_portable p q t h]

theorem align_portable_fields (p q : Nat) : ∀ ms : CFields, ms.hasPointer = false → ms.align p = ms.align q
  | .nil, _ => rfl
  | .cons _ _ t rest, h => by
    rw [CFields.hasPointer, Bool.or_eq_false_iff] at h
    rw [CFields.align, CFields.align, align_portable p q t h.1, align_portable_fields p q rest h.2]
end

mutual
theorem size_portable (p q : Nat) : ∀ S : CSource, S.hasPointer = false → S.size p = S.size q
  | .scalar _ _, _ => rfl
  | .pointer _, h => by simp [CSource.hasPointer] at h
  | .array _ t, h => by
    rw [CSource.hasPointer] at h
    rw [CSource.size, CSource.size, size_portable p q t h]
  | .record _ _ ms, h => by
    rw [CSource.hasPointer] at h
    rw [CSource.size, CSource.size, align_portable_fields p q ms h, finish_portable p q 0 ms h, widest_portable p q ms h]
  | .renamed _ t, h => by
    rw [CSource.hasPointer] at h
    rw [CSource.size, CSource.size, size_portable p q t h]

theorem finish_portable (p q : Nat) : ∀ (place : Nat) (ms : CFields), ms.hasPointer = false → ms.finish p place = ms.finish q place
  | _, .nil, _ => rfl
  | place, .cons _ width t rest, h => by
    rw [CFields.hasPointer, Bool.or_eq_false_iff] at h
    rw [CFields.finish, CFields.finish, align_portable p q t h.1, size_portable p q t h.1, finish_portable p q _ rest h.2]

theorem widest_portable (p q : Nat) : ∀ ms : CFields, ms.hasPointer = false → ms.widest p = ms.widest q
  | .nil, _ => rfl
  | .cons _ width t rest, h => by
    rw [CFields.hasPointer, Bool.or_eq_false_iff] at h
    rw [CFields.widest, CFields.widest, size_portable p q t h.1, widest_portable p q rest h.2]
end

mutual
theorem offset_portable (p q : Nat) : ∀ (S : CSource) (cs : List PathComponent), S.hasPointer = false → S.offset p cs = S.offset q cs
  | S, [], _ => by rw [offset_empty, offset_empty]
  | .scalar _ _, _ :: _, _ => by simp [CSource.offset]
  | .pointer _, _ :: _, _ => by simp [CSource.offset]
  | .array _ _, .name _ :: _, _ => by simp [CSource.offset]
  | .array n t, .index i :: cs, h => by
    rw [CSource.hasPointer] at h
    rw [CSource.offset, CSource.offset, offset_portable p q t cs h, size_portable p q t h]
  | .record _ _ _, .index _ :: _, _ => by simp [CSource.offset]
  | .record u _ ms, .name x :: cs, h => by
    rw [CSource.hasPointer] at h
    rw [CSource.offset, CSource.offset, offset_portable_fields p q u 0 ms x cs h]
  | .renamed _ t, c :: cs, h => by
    rw [CSource.hasPointer] at h
    rw [CSource.offset, CSource.offset, offset_portable p q t (c :: cs) h]

theorem offset_portable_fields (p q : Nat) (u : Bool) : ∀ (place : Nat) (ms : CFields) (x : Str) (cs : List PathComponent),
    ms.hasPointer = false → ms.offset p u place x cs = ms.offset q u place x cs
  | _, .nil, _, _, _ => by simp [CFields.offset]
  | place, .cons name width t rest, x, cs, h => by
    rw [CFields.hasPointer, Bool.or_eq_false_iff] at h
    rw [offset_cons, offset_cons, align_portable p q t h.1, size_portable p q t h.1, offset_portable p q t _ h.1,
      offset_portable_fields p q u _ rest x cs h.2, offset_portable p q t cs h.1]
end

mutual
theorem found_portable (p : Nat) : ∀ (S : CSource) (cs : List PathComponent) (y : Placed), S.hasPointer = false →
    S.offset p cs = some y → y.type.hasPointer = false
  | S, [], y, h, hy => by
    rw [offset_empty, Option.some.injEq] at hy
    subst hy
    exact h
  | .scalar _ _, _ :: _, _, _, hy => by simp [CSource.offset] at hy
  | .pointer _, _ :: _, _, _, hy => by simp [CSource.offset] at hy
  | .array _ _, .name _ :: _, _, _, hy => by simp [CSource.offset] at hy
  | .array n t, .index i :: cs, y, h, hy => by
    rw [CSource.hasPointer] at h
    rw [CSource.offset] at hy
    split at hy
    · obtain ⟨z, hz, rfl⟩ := Option.map_eq_some_iff.1 hy
      exact found_portable p t cs z h hz
    · simp at hy
  | .record _ _ _, .index _ :: _, _, _, hy => by simp [CSource.offset] at hy
  | .record u _ ms, .name x :: cs, y, h, hy => by
    rw [CSource.hasPointer] at h
    rw [CSource.offset] at hy
    exact found_portable_fields p u 0 ms x cs y h hy
  | .renamed _ t, c :: cs, y, h, hy => by
    rw [CSource.hasPointer] at h
    rw [CSource.offset] at hy
    exact found_portable p t (c :: cs) y h hy

theorem found_portable_fields (p : Nat) (u : Bool) : ∀ (place : Nat) (ms : CFields) (x : Str) (cs : List PathComponent) (y : Placed),
    ms.hasPointer = false → ms.offset p u place x cs = some y → y.type.hasPointer = false
  | _, .nil, _, _, _, _, hy => by simp [CFields.offset] at hy
  | place, .cons name width t rest, x, cs, y, h, hy => by
    rw [CFields.hasPointer, Bool.or_eq_false_iff] at h
    rw [offset_cons] at hy
    split at hy
    · split at hy
      · rename_i z hz
        rw [Option.some.injEq] at hy
        subst hy
        exact found_portable p t _ z h.1 hz
      · exact found_portable_fields p u _ rest x cs y h.2 hy
    · split at hy
      · split at hy
        · obtain ⟨z, hz, rfl⟩ := Option.map_eq_some_iff.1 hy
          exact found_portable p t cs z h.1 hz
        · split at hy
          · rw [Option.some.injEq] at hy
            subst hy
            exact h.1
          · simp at hy
      · exact found_portable_fields p u _ rest x cs y h.2 hy
end

/-- C123: a type without pointers has the same layout for all sizes of pointers: all answers are the same in the files for two targets. -/
theorem c_portable {cfg cfg' : Cfg} (hc : cfg.usizeMod = cfg'.usizeMod) {ti ti' : TypeInformation} {p q : Nat} {t t' : UInt32} {S : CSource}
    (hS : S.hasPointer = false) (h : LaidOut cfg ti p t S) (h' : LaidOut cfg' ti' q t' S) : SameAnswers cfg cfg' ti ti' t t' := by
  obtain ⟨h1, h2, h3, -⟩ := h
  obtain ⟨h1', h2', h3', -⟩ := h'
  refine ⟨fun r => by rw [h1, h1', size_portable p q S hS], fun s => ?_⟩
  by_cases hs : ∃ cs, AcceptedPath cfg.usizeMod (str s) cs
  · obtain ⟨cs, hs⟩ := hs
    obtain ⟨g1, g2⟩ := h2 s cs hs
    obtain ⟨g1', g2'⟩ := h2' s cs (hc ▸ hs)
    have he := offset_portable p q S cs hS
    cases hx : S.offset p cs with
    | none => exact .inl ⟨_, (g2 hx _).2 rfl, (g2' (he ▸ hx) _).2 rfl⟩
    | some x =>
      obtain ⟨w, o, k1, k2, k3, k4, -⟩ := g1 x hx
      obtain ⟨w', o', k1', k2', k3', k4', -⟩ := g1' x (he ▸ hx)
      have : o = o' := offset_eq (k2.trans k2'.symm) (k3.trans k3'.symm)
      subst this
      exact .inr ⟨o, w, w', (k1 _).2 rfl, (k1' _).2 rfl,
        fun r => by rw [k4, k4', size_portable p q x.type (found_portable p S cs x hS hx)]⟩
  · have hs1 : ∀ cs, ¬ AcceptedPath cfg.usizeMod (str s) cs := fun cs h => hs ⟨cs, h⟩
    exact .inl ⟨_, (h3 s hs1 _).2 rfl, (h3' s (hc ▸ hs1) _).2 rfl⟩

/-- With pointers it is not so: the second pointer of an array is at byte 8 on one target, and at byte 4 on the other. -/
theorem not_portable : (CSource.array 2 (.pointer 0)).offset 8 [.index 1] = some ⟨.pointer 0, 64, none⟩ ∧
    (CSource.array 2 (.pointer 0)).offset 4 [.index 1] = some ⟨.pointer 0, 32, none⟩ := ⟨rfl, rfl⟩

/-! ### Example -/

/-- `struct s { char a; int b[2]; };` -/
def portableType : CSource := .record false [115] (.cons [97] none (.scalar 1 1) (.cons [98] none (.array 2 (.scalar 4 4)) .nil))

theorem portable_legal (p : Nat) : portableType.Legal p := by
  have h := header_spelled.2.2.2.2.2.2.2.2.2
  have h1 : ∃ k, 1 = 2 ^ k := ⟨0, rfl⟩
  have h4 : ∃ k, 4 = 2 ^ k := ⟨2, rfl⟩
  simp [portableType, CSource.Legal, CFields.Legal, CSource.names, CFields.names, CSource.size, CFields.finish, CSource.align,
    CFields.align, CFields.number, CFields.hasWidth, roundUp, memberStart, memberBits, h, h1, h4]

theorem portable_one : OneSource [portableType] := by
  have key : ∀ S ∈ sourceParts [portableType], S.label = [] ∨ S = portableType := by
    simp [sourceParts, portableType, CSource.parts, CFields.parts, CSource.label]
  intro S hS S' hS' hl hne
  rcases key S hS with h | rfl
  · exact absurd h hne
  · rcases key S' hS' with h | rfl
    · exact absurd (hl.trans h) hne
    · rfl

/-- The struct in a file for a big-endian target of 64 bits and in a file for a little-endian one of 32 bits; it has 12 bytes in both. -/
example : ∃ ti ti' t t', TypeInformation.new Samples.dbg (Samples.buffer (encode .big (sourceProgram 8 [] [portableType] []))) = .ok ti ∧
    TypeInformation.new Samples.rel (Samples.buffer (encode .little (sourceProgram 4 qstrFunction [portableType] []))) = .ok ti' ∧
    ti.idOf (str "s") = some t ∧ ti'.idOf (str "s") = some t' ∧
    SizeOf Samples.dbg ti t (.ok 12) ∧ SameAnswers Samples.dbg Samples.rel ti ti' t t' := by
  have hone : (str "s") = [115] := by decide +kernel
  obtain ⟨ti, h1, -, h2⟩ := c_layout (cfg := Samples.dbg) (e := .big) 8 (by decide) [] [] [portableType]
    (by simpa using portable_legal 8) portable_one (by simp) (.inr (by simp)) (by decide +kernel)
    (Examples.serves _ (by decide +kernel)) (Examples.fits _)
  obtain ⟨ti', h1', -, h2'⟩ := c_layout (cfg := Samples.rel) (e := .little) 4 (by decide) qstrFunction [] [portableType]
    (by simpa using portable_legal 4) portable_one (by simpa using qstrFunction_good) (.inl rfl) (by decide +kernel)
    (Examples.serves _ (by decide +kernel)) (Examples.fits _)
  obtain ⟨t, g1, g2⟩ := h2 "s" s_ident (by decide +kernel) (by simp) portableType
    (by simp [sourceParts, portableType, CSource.parts]) hone.symm
  obtain ⟨t', g1', g2'⟩ := h2' "s" s_ident (by decide +kernel) (by simp) portableType
    (by simp [sourceParts, portableType, CSource.parts]) hone.symm
  exact ⟨ti, ti', t, t', h1, h1', g1, g1', (g2.1 _).2 (by decide +kernel), c_portable (cfg := Samples.dbg) (cfg' := Samples.rel) rfl rfl g2 g2'⟩

end Btf.Props

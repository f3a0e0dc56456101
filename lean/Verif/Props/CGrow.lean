import Verif.Props.CLayoutRuns

/-!
# Property C122: structs that grow
-/

namespace Btf.Props

open Btf Spec CTypes TypeInformation

theorem append_offset {p : Nat} (u : Bool) (more : CFields) : ∀ (place : Nat) (ms : CFields) (x : Str) (cs : List PathComponent)
    (y : Placed), ms.offset p u place x cs = some y → (ms.append more).offset p u place x cs = some y
  | _, .nil, _, _, _, h => by simp [CFields.offset] at h
  | place, .cons name width t rest, x, cs, y, h => by
    rw [offset_cons] at h
    rw [CFields.append, offset_cons]
    split at h
    · rename_i hn
      rw [if_pos hn]
      split at h
      · exact h
      · exact append_offset u more _ rest x cs y h
    · rename_i hn
      rw [if_neg hn]
      split at h
      · rename_i hx
        rw [if_pos hx]
        exact h
      · rename_i hx
        rw [if_neg hx]
        exact append_offset u more _ rest x cs y h

theorem core_offset (p : Nat) (c : PathComponent) (cs : List PathComponent) :
    ∀ S : CSource, S.core.offset p (c :: cs) = S.offset p (c :: cs)
  | .scalar _ _ => rfl
  | .pointer _ => rfl
  | .array _ _ => rfl
  | .record _ _ _ => rfl
  | .renamed _ t => by rw [CSource.core, CSource.offset, core_offset p c cs t]

theorem offset_empty (p : Nat) (S : CSource) : S.offset p [] = some ⟨S, 0, none⟩ := by cases S <;> rfl

/-- C122: a struct or union to which members have been added at the end, in another file: every path that led somewhere leads to the same
place; and what is there has the same size, unless it is the whole. -/
theorem c_grow {cfg cfg' : Cfg} (hc : cfg.usizeMod = cfg'.usizeMod) {ti ti' : TypeInformation} {p : Nat} {t t' : UInt32} {S S' : CSource}
    {u : Bool} {tag tag' : Name} {ms more : CFields} (hS : S.core = .record u tag ms) (hS' : S'.core = .record u tag' (ms.append more))
    (h : LaidOut cfg ti p t S) (h' : LaidOut cfg' ti' p t' S') (s : String) (v : UInt32) (o : Offset)
    (hx : OffsetOf cfg ti t (str s) (.ok (v, o))) : ∃ v', OffsetOf cfg' ti' t' (str s) (.ok (v', o)) ∧
      ((∃ c cs, AcceptedPath cfg.usizeMod (str s) (c :: cs)) → ∀ r, SizeOf cfg ti v r ↔ SizeOf cfg' ti' v' r) := by
  by_cases hs : ∃ cs, AcceptedPath cfg.usizeMod (str s) cs
  · obtain ⟨cs, hs⟩ := hs
    obtain ⟨g1, g2⟩ := h.2.1 s cs hs
    obtain ⟨g1', -⟩ := h'.2.1 s cs (hc ▸ hs)
    cases cs with
    | nil =>
      obtain ⟨w, q, k1, k2, k3, -⟩ := g1 _ (offset_empty p S)
      obtain ⟨w', q', k1', k2', k3', -⟩ := g1' _ (offset_empty p S')
      have e := (k1 _).1 hx
      rw [Res.ok.injEq, Prod.mk.injEq] at e
      obtain ⟨rfl, rfl⟩ := e
      have : o = q' := offset_eq (k2.trans k2'.symm) (k3.trans k3'.symm)
      subst this
      refine ⟨w', (k1' _).2 rfl, fun ⟨c, cs, hcs⟩ => ?_⟩
      exact absurd (accepted_unique (utf8Like_str s) hs hcs) (by simp)
    | cons c cs =>
      cases hy : S.offset p (c :: cs) with
      | none => exact absurd ((g2 hy _).1 hx) (by simp)
      | some y =>
        have hy' : S'.offset p (c :: cs) = some y := by
          rw [← core_offset, hS] at hy
          rw [← core_offset, hS']
          cases c with
          | index i => simp [CSource.offset] at hy
          | name x =>
            rw [CSource.offset] at hy ⊢
            exact append_offset u more 0 ms x cs y hy
        obtain ⟨w, q, k1, k2, k3, k4, -⟩ := g1 y hy
        obtain ⟨w', q', k1', k2', k3', k4', -⟩ := g1' y hy'
        have e := (k1 _).1 hx
        rw [Res.ok.injEq, Prod.mk.injEq] at e
        obtain ⟨rfl, rfl⟩ := e
        have : o = q' := offset_eq (k2.trans k2'.symm) (k3.trans k3'.symm)
        subst this
        exact ⟨w', (k1' _).2 rfl, fun _ r => by rw [k4, k4']⟩
  · have := (h.2.2.1 s (fun cs hcs => hs ⟨cs, hcs⟩) _).1 hx
    exact absurd this (by simp)

/-! ### Example -/

/-- `paddedType` with a member more: `long h;`. -/
def grownType : CSource := .record false [115] (.cons [97] none (.scalar 1 1) (.cons [98] none (.scalar 4 4)
  (.cons [] none (.record false [] (.cons [99] none (.scalar 2 2) (.cons [100] none (.array 3 (.scalar 1 1)) .nil)))
  (.cons [101] none (.pointer 0) (.cons [102] (some 3) (.scalar 4 4) (.cons [103] (some 30) (.scalar 4 4)
  (.cons [104] none (.scalar 8 8) .nil)))))))

theorem grown_legal : grownType.Legal 8 := by
  have h := header_spelled.2.2.2.2.2.2.2.2.2
  have h1 : ∃ k, 1 = 2 ^ k := ⟨0, rfl⟩
  have h2 : ∃ k, 2 = 2 ^ k := ⟨1, rfl⟩
  have h4 : ∃ k, 4 = 2 ^ k := ⟨2, rfl⟩
  have h8 : ∃ k, 8 = 2 ^ k := ⟨3, rfl⟩
  simp [grownType, CSource.Legal, CFields.Legal, CSource.names, CFields.names, CSource.size, CFields.finish, CSource.align,
    CFields.align, CFields.number, CFields.hasWidth, CSource.isScalar, roundUp, memberStart, memberBits, h, h1, h2, h4, h8]

theorem grown_one : OneSource [grownType] := by
  have key : ∀ S ∈ sourceParts [grownType], S.label = [] ∨ S = grownType := by
    simp [sourceParts, grownType, CSource.parts, CFields.parts, CSource.label]
  intro S hS S' hS' hl hne
  rcases key S hS with h | rfl
  · exact absurd h hne
  · rcases key S' hS' with h | rfl
    · exact absurd (hl.trans h) hne
    · rfl

/-- The struct has 32 bytes in the one file and 40 in the other; what is found in the first is found at the same places in the second. -/
example : ∃ ti ti' t t', TypeInformation.new Samples.dbg (Samples.buffer (encode .big (sourceProgram 8 [] [paddedType] []))) = .ok ti ∧
    TypeInformation.new Samples.rel (Samples.buffer (encode .little (sourceProgram 8 qstrFunction [grownType] []))) = .ok ti' ∧
    ti.idOf (str "s") = some t ∧ ti'.idOf (str "s") = some t' ∧
    (∀ r, SizeOf Samples.dbg ti t r ↔ r = .ok 32) ∧ (∀ r, SizeOf Samples.rel ti' t' r ↔ r = .ok 40) ∧
    ∀ (s : String) (v : UInt32) (o : Offset), OffsetOf Samples.dbg ti t (str s) (.ok (v, o)) →
      ∃ v', OffsetOf Samples.rel ti' t' (str s) (.ok (v', o)) := by
  have hone : (str "s") = [115] := by decide +kernel
  obtain ⟨ti, h1, -, h2⟩ := c_layout (cfg := Samples.dbg) (e := .big) 8 (by decide) [] [] [paddedType]
    (by simpa using padded_legal) padded_one (by simp) (.inr (by simp)) (by decide +kernel)
    (Examples.serves _ (by decide +kernel)) (Examples.fits _)
  obtain ⟨ti', h1', -, h2'⟩ := c_layout (cfg := Samples.rel) (e := .little) 8 (by decide) qstrFunction [] [grownType]
    (by simpa using grown_legal) grown_one (by simpa using qstrFunction_good) (.inl rfl) (by decide +kernel)
    (Examples.serves _ (by decide +kernel)) (Examples.fits _)
  obtain ⟨t, g1, g2⟩ := h2 "s" s_ident (by decide +kernel) (by simp) paddedType
    (by simp [sourceParts, paddedType, CSource.parts]) hone.symm
  obtain ⟨t', g1', g2'⟩ := h2' "s" s_ident (by decide +kernel) (by simp) grownType
    (by simp [sourceParts, grownType, CSource.parts]) hone.symm
  have hsize : grownType.size 8 = 40 := by decide +kernel
  refine ⟨ti, ti', t, t', h1, h1', g1, g1', padded_size ▸ g2.1, hsize ▸ g2'.1, fun s v o hx => ?_⟩
  obtain ⟨v', k, -⟩ := c_grow (cfg := Samples.dbg) (cfg' := Samples.rel) rfl (S := paddedType) (S' := grownType) (more := .cons [104] none (.scalar 8 8) .nil) rfl rfl g2 g2' s v o hx
  exact ⟨v', k⟩

end Btf.Props

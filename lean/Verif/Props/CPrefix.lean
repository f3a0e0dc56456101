import Verif.Props.CPortable

/-!
# Property C124: structs that begin alike
-/

namespace Btf.Props

open Btf Spec CTypes TypeInformation

theorem roundUp_zero (a : Nat) : roundUp 0 a = 0 := by
  unfold roundUp
  rcases Nat.eq_zero_or_pos a with rfl | h
  · simp
  · rw [Nat.div_eq_of_lt (by omega), Nat.zero_mul]

theorem first_start (u : Bool) (align size : Nat) : memberStart u 0 none align size = 0 := by
  cases u <;> simp [memberStart, roundUp_zero]

theorem shift_zero (x : Placed) : x.shift 0 = x := by cases x; simp [Placed.shift]

/-- Two types, two texts: if by the rules both lead to the same, then `offset_of` answers the same offset, and what is there has the same
size. -/
theorem same_place {cfg cfg' : Cfg} {ti ti' : TypeInformation} {p : Nat} {t t' : UInt32} {S S' : CSource}
    (h : LaidOut cfg ti p t S) (h' : LaidOut cfg' ti' p t' S') {s s' : String} {cs cs' : List PathComponent}
    (hs : AcceptedPath cfg.usizeMod (str s) cs) (hs' : AcceptedPath cfg'.usizeMod (str s') cs')
    {y : Placed} (hy : S.offset p cs = some y) (hy' : S'.offset p cs' = some y) :
    ∃ v v' o, (∀ r, OffsetOf cfg ti t (str s) r ↔ r = .ok (v, o)) ∧ (∀ r, OffsetOf cfg' ti' t' (str s') r ↔ r = .ok (v', o)) ∧
      ∀ r, SizeOf cfg ti v r ↔ SizeOf cfg' ti' v' r := by
  obtain ⟨v, o, k1, k2, k3, k4, -⟩ := (h.2.1 s cs hs).1 y hy
  obtain ⟨v', o', k1', k2', k3', k4', -⟩ := (h'.2.1 s' cs' hs').1 y hy'
  have : o = o' := offset_eq (k2.trans k2'.symm) (k3.trans k3'.symm)
  subst this
  exact ⟨v, v', o, k1, k1', fun r => by rw [k4, k4']⟩

theorem ok_of_answer {cfg : Cfg} {ti : TypeInformation} {p : Nat} {t : UInt32} {S : CSource} (h : LaidOut cfg ti p t S) {s : String}
    {v : UInt32} {o : Offset} (hx : OffsetOf cfg ti t (str s) (.ok (v, o))) :
    ∃ cs y, AcceptedPath cfg.usizeMod (str s) cs ∧ S.offset p cs = some y := by
  by_cases hs : ∃ cs, AcceptedPath cfg.usizeMod (str s) cs
  · obtain ⟨cs, hs⟩ := hs
    cases hy : S.offset p cs with
    | none => exact absurd (((h.2.1 s cs hs).2 hy _).1 hx) (by simp)
    | some y => exact ⟨cs, y, hs, hy⟩
  · exact absurd ((h.2.2.1 s (fun cs hcs => hs ⟨cs, hcs⟩) _).1 hx) (by simp)

/-- C124: two structs (or two unions) that begin with the same members: every path that begins with one of these leads to the same place
in both. -/
theorem c_common {cfg cfg' : Cfg} (hc : cfg.usizeMod = cfg'.usizeMod) {ti ti' : TypeInformation} {p : Nat} {t t' : UInt32} {S S' : CSource}
    {u : Bool} {tag tag' : Name} {ms a b : CFields} (hS : S.core = .record u tag (ms.append a)) (hS' : S'.core = .record u tag' (ms.append b))
    (h : LaidOut cfg ti p t S) (h' : LaidOut cfg' ti' p t' S') (s : String) (x : Str) (cs : List PathComponent)
    (hs : AcceptedPath cfg.usizeMod (str s) (.name x :: cs)) (hx : (CSource.record u [] ms).offset p (.name x :: cs) ≠ none) :
    ∃ v v' o, (∀ r, OffsetOf cfg ti t (str s) r ↔ r = .ok (v, o)) ∧ (∀ r, OffsetOf cfg' ti' t' (str s) r ↔ r = .ok (v', o)) ∧
      ∀ r, SizeOf cfg ti v r ↔ SizeOf cfg' ti' v' r := by
  obtain ⟨y, hy⟩ := Option.ne_none_iff_exists'.1 hx
  rw [CSource.offset] at hy
  refine same_place h h' hs (hc ▸ hs) (y := y) ?_ ?_
  · rw [← core_offset, hS, CSource.offset]
    exact append_offset u a 0 ms x cs y hy
  · rw [← core_offset, hS', CSource.offset]
    exact append_offset u b 0 ms x cs y hy

/-- C124: a struct or union that begins with a member of the type `B`: what is found in a `B` is found at the same place in the member,
by the path with the name of the member before it. -/
theorem c_base {cfg cfg' : Cfg} {ti ti' : TypeInformation} {p : Nat} {t t' : UInt32} {B S' : CSource}
    {u : Bool} {tag x : Name} {more : CFields} (hS' : S'.core = .record u tag (.cons x none B more)) (hne : x ≠ [])
    (h : LaidOut cfg ti p t B) (h' : LaidOut cfg' ti' p t' S') (s s' : String) (cs : List PathComponent)
    (hs : AcceptedPath cfg.usizeMod (str s) cs) (hs' : AcceptedPath cfg'.usizeMod (str s') (.name x :: cs)) :
    (∃ e, OffsetOf cfg ti t (str s) (.err e) ∧ OffsetOf cfg' ti' t' (str s') (.err e)) ∨
    ∃ v v' o, OffsetOf cfg ti t (str s) (.ok (v, o)) ∧ OffsetOf cfg' ti' t' (str s') (.ok (v', o)) ∧
      ∀ r, SizeOf cfg ti v r ↔ SizeOf cfg' ti' v' r := by
  have he : S'.offset p (.name x :: cs) = B.offset p cs := by
    rw [← core_offset, hS', CSource.offset, offset_cons, if_neg hne, if_pos rfl, first_start]
    cases B.offset p cs <;> simp [shift_zero]
  cases hy : B.offset p cs with
  | none => exact .inl ⟨_, ((h.2.1 s cs hs).2 hy _).2 rfl, ((h'.2.1 s' _ hs').2 (he.trans hy) _).2 rfl⟩
  | some y =>
    obtain ⟨v, v', o, k1, k2, k3⟩ := same_place h h' hs hs' hy (he.trans hy)
    exact .inr ⟨v, v', o, (k1 _).2 rfl, (k2 _).2 rfl, k3⟩

/-- C124: if the member has no name, by the same path. -/
theorem c_base_unnamed {cfg cfg' : Cfg} (hc : cfg.usizeMod = cfg'.usizeMod) {ti ti' : TypeInformation} {p : Nat} {t t' : UInt32}
    {B S' : CSource} {u : Bool} {tag : Name} {more : CFields} (hS' : S'.core = .record u tag (.cons [] none B more))
    (h : LaidOut cfg ti p t B) (h' : LaidOut cfg' ti' p t' S') (s : String) (x : Str) (cs : List PathComponent)
    (hs : AcceptedPath cfg.usizeMod (str s) (.name x :: cs)) (v : UInt32) (o : Offset) (hx : OffsetOf cfg ti t (str s) (.ok (v, o))) :
    ∃ v', OffsetOf cfg' ti' t' (str s) (.ok (v', o)) ∧ ∀ r, SizeOf cfg ti v r ↔ SizeOf cfg' ti' v' r := by
  obtain ⟨cs', y, hcs, hy⟩ := ok_of_answer h hx
  cases accepted_unique (utf8Like_str s) hs hcs
  have he : S'.offset p (.name x :: cs) = some y := by
    rw [← core_offset, hS', CSource.offset, offset_cons, if_pos rfl, hy, first_start]
    simp [shift_zero]
  obtain ⟨w, v', q, k1, k2, k3⟩ := same_place h h' hs (hc ▸ hs) hy he
  have e := (k1 _).1 hx
  rw [Res.ok.injEq, Prod.mk.injEq] at e
  obtain ⟨rfl, rfl⟩ := e
  exact ⟨v', (k2 _).2 rfl, k3⟩

/-! ### Example -/

/-- `struct t { struct s x; long c; };` with the struct of C123. -/
def derivedType : CSource := .record false [116] (.cons [120] none portableType (.cons [99] none (.scalar 8 8) .nil))

theorem derived_legal : derivedType.Legal 8 := by
  have h := header_spelled.2.2.2.2.2.2.2.2.2
  have h1 : ∃ k, 1 = 2 ^ k := ⟨0, rfl⟩
  have h4 : ∃ k, 4 = 2 ^ k := ⟨2, rfl⟩
  have h8 : ∃ k, 8 = 2 ^ k := ⟨3, rfl⟩
  simp [derivedType, portableType, CSource.Legal, CFields.Legal, CSource.names, CFields.names, CSource.size, CFields.finish, CSource.align,
    CFields.align, CFields.number, CFields.hasWidth, roundUp, memberStart, memberBits, h, h1, h4, h8]

theorem derived_one : OneSource [derivedType] := by
  have key : ∀ S ∈ sourceParts [derivedType], S.label = [] ∨ S = derivedType ∨ S = portableType := by
    simp [sourceParts, derivedType, portableType, CSource.parts, CFields.parts, CSource.label]
  intro S hS S' hS' hl hne
  rcases key S hS with h | rfl | rfl
  · exact absurd h hne
  · rcases key S' hS' with h | rfl | rfl
    · exact absurd (hl.trans h) hne
    · rfl
    · simp [derivedType, portableType, CSource.label] at hl
  · rcases key S' hS' with h | rfl | rfl
    · exact absurd (hl.trans h) hne
    · simp [derivedType, portableType, CSource.label] at hl
    · rfl

theorem t_ident : Ident "t" := by
  refine ⟨?_, by decide +kernel⟩
  rw [show str "t" = [116] by decide +kernel]
  exact .mk _ _ (by simp [NameStart, Letter]) fun c hc => by simp at hc

/-- `b[1]` of `struct s` is at byte 8; so `x.b[1]` of `struct t` is, too. -/
example : ∃ ti t t' v v', TypeInformation.new Samples.dbg (Samples.buffer (encode .big (sourceProgram 8 [] [derivedType] []))) = .ok ti ∧
    ti.idOf (str "s") = some t ∧ ti.idOf (str "t") = some t' ∧
    OffsetOf Samples.dbg ti t (str "b[1]") (.ok (v, .byteOffset 8)) ∧ OffsetOf Samples.dbg ti t' (str "x.b[1]") (.ok (v', .byteOffset 8)) := by
  have hone : str "s" = [115] ∧ str "t" = [116] ∧ str "b" = [98] ∧ str "x" = [120] := by decide +kernel
  obtain ⟨ti, h1, -, h2⟩ := c_layout (cfg := Samples.dbg) (e := .big) 8 (by decide) [] [] [derivedType]
    (by simpa using derived_legal) derived_one (by simp) (.inr (by simp)) (by decide +kernel)
    (Examples.serves _ (by decide +kernel)) (Examples.fits _)
  obtain ⟨t, g1, g2⟩ := h2 "s" s_ident (by decide +kernel) (by simp) portableType
    (by simp [sourceParts, derivedType, portableType, CSource.parts, CFields.parts]) hone.1.symm
  obtain ⟨t', g1', g2'⟩ := h2 "t" t_ident (by decide +kernel) (by simp) derivedType
    (by simp [sourceParts, derivedType, portableType, CSource.parts, CFields.parts]) hone.2.1.symm
  have p1 : AcceptedPath Samples.dbg.usizeMod (str "b[1]") [.name (str "b"), .index 1] :=
    (yields_iff Samples.dbg (utf8Like_str _) _).1 (.tok (by rfl) (.tok (by rfl) (.stop rfl)))
  have p2 : AcceptedPath Samples.dbg.usizeMod (str "x.b[1]") [.name (str "x"), .name (str "b"), .index 1] :=
    (yields_iff Samples.dbg (utf8Like_str _) _).1 (.tok (by rfl) (.tok (by rfl) (.tok (by rfl) (.stop rfl))))
  have e1 : portableType.offset 8 [.name (str "b"), .index 1] = some ⟨.scalar 4 4, 64, none⟩ := by rw [hone.2.2.1]; rfl
  obtain ⟨w, q, k1, k2, k3, -⟩ := (g2.2.1 _ _ p1).1 _ e1
  have ho : q = .byteOffset 8 := offset_eq k2 k3
  subst ho
  rcases c_base (x := str "x") (S' := derivedType) (more := .cons [99] none (.scalar 8 8) .nil) (by rw [hone.2.2.2]; rfl) (by rw [hone.2.2.2]; simp)
    g2 g2' "b[1]" "x.b[1]" _ p1 p2 with ⟨e, he, -⟩ | ⟨v, v', o, hv, hv', -⟩
  · exact absurd ((k1 _).1 he) (by simp)
  · have e := (k1 _).1 hv
    rw [Res.ok.injEq, Prod.mk.injEq] at e
    obtain ⟨rfl, rfl⟩ := e
    exact ⟨ti, t, t', _, _, h1, g1, g1', hv, hv'⟩

/-- The members of `struct s` of C121. -/
def commonFields : CFields := .cons [97] none (.scalar 1 1) (.cons [98] none (.scalar 4 4)
  (.cons [] none (.record false [] (.cons [99] none (.scalar 2 2) (.cons [100] none (.array 3 (.scalar 1 1)) .nil)))
  (.cons [101] none (.pointer 0) (.cons [102] (some 3) (.scalar 4 4) (.cons [103] (some 30) (.scalar 4 4) .nil)))))

/-- `struct s` of C121 and C122 begin alike; so `d[2]` is found at the same place in both. -/
example : ∃ ti ti' t t', TypeInformation.new Samples.dbg (Samples.buffer (encode .big (sourceProgram 8 [] [paddedType] []))) = .ok ti ∧
    TypeInformation.new Samples.rel (Samples.buffer (encode .little (sourceProgram 8 qstrFunction [grownType] []))) = .ok ti' ∧
    ti.idOf (str "s") = some t ∧ ti'.idOf (str "s") = some t' ∧
    ∃ v v' o, OffsetOf Samples.dbg ti t (str "d[2]") (.ok (v, o)) ∧ OffsetOf Samples.rel ti' t' (str "d[2]") (.ok (v', o)) := by
  have hone : (str "s") = [115] := by decide +kernel
  obtain ⟨ti, h1, -, h2⟩ := c_layout (cfg := Samples.dbg) (e := .big) 8 (by decide) [] [] [paddedType]
    (by simpa using padded_legal) padded_one (by simp) (.inr (by simp)) (by decide +kernel)
    (Examples.serves _ (by decide +kernel)) (Examples.fits _)
  obtain ⟨ti', h1', -, h2'⟩ := c_layout (cfg := Samples.rel) (e := .little) 8 (by decide) qstrFunction [] [grownType]
    (by simpa using grown_legal) grown_one (by simpa using qstrFunction_good) (.inl rfl) (by decide +kernel)
    (Examples.serves _ (by decide +kernel)) (Examples.fits _)
  obtain ⟨t, g1, g2⟩ := h2 "s" s_ident (by decide +kernel) (by simp) paddedType
    (by simp [sourceParts, paddedType, CSource.parts]) hone.symm
  obtain ⟨t', g1', g2'⟩ := h2' "s" s_ident (by decide +kernel) (by simp) grownType
    (by simp [sourceParts, grownType, CSource.parts]) hone.symm
  have hd : str "d" = [100] := by decide +kernel
  have p1 : AcceptedPath Samples.dbg.usizeMod (str "d[2]") [.name (str "d"), .index 2] :=
    (yields_iff Samples.dbg (utf8Like_str _) _).1 (.tok (by rfl) (.tok (by rfl) (.stop rfl)))
  obtain ⟨v, v', o, k1, k2, -⟩ := c_common (cfg := Samples.dbg) (cfg' := Samples.rel) rfl (S := paddedType) (S' := grownType) (u := false)
    (ms := commonFields) (a := .nil) (b := .cons [104] none (.scalar 8 8) .nil) rfl rfl g2 g2' "d[2]" _ _ p1 (by
      rw [hd, show (CSource.record false [] commonFields).offset 8 [.name [100], .index 2] = some ⟨.scalar 1 1, 96, none⟩ from rfl]; simp)
  exact ⟨ti, ti', t, t', h1, h1', g1, g1', v, v', o, (k1 _).2 rfl, (k2 _).2 rfl⟩

end Btf.Props

import Verif.Props.CTrail

/-!
# Property C120: the same C type in two files
-/

namespace Btf.Props

open Btf Spec CTypes TypeInformation

/-- All questions about `t` in the one file and about `t'` in the other have the same answers: the same size, and for every text the same
error, or the same offset and ids of types with the same size. -/
def SameAnswers (cfg cfg' : Cfg) (ti ti' : TypeInformation) (t t' : UInt32) : Prop :=
  (∀ r, SizeOf cfg ti t r ↔ SizeOf cfg' ti' t' r) ∧
  ∀ s : String, (∃ e, OffsetOf cfg ti t (str s) (.err e) ∧ OffsetOf cfg' ti' t' (str s) (.err e)) ∨
    ∃ o u u', OffsetOf cfg ti t (str s) (.ok (u, o)) ∧ OffsetOf cfg' ti' t' (str s) (.ok (u', o)) ∧
      ∀ r, SizeOf cfg ti u r ↔ SizeOf cfg' ti' u' r

/-- An offset is given by its place and width. -/
theorem offset_eq {o o' : Offset} (h : bitPos o = bitPos o') (hw : (bitWidth o).map UInt32.toNat = (bitWidth o').map UInt32.toNat) :
    o = o' := by
  cases o <;> cases o' <;> simp only [bitPos, bitWidth, Option.map_none, Option.map_some, Option.some.injEq, reduceCtorEq] at h hw
  · congr 1
    exact UInt32.toNat_inj.1 (by omega)
  · congr 1
    · exact UInt32.toNat_inj.1 h
    · exact UInt32.toNat_inj.1 hw

theorem same_answers {cfg cfg' : Cfg} (hc : cfg.usizeMod = cfg'.usizeMod) {ti ti' : TypeInformation} {p : Nat} {t t' : UInt32} {T : CType}
    (h : AnswersFor cfg ti p t T) (h' : AnswersFor cfg' ti' p t' T) : SameAnswers cfg cfg' ti ti' t t' := by
  obtain ⟨h1, h2, h3, -⟩ := h
  obtain ⟨h1', h2', h3', -⟩ := h'
  refine ⟨fun r => by rw [h1, h1'], fun s => ?_⟩
  by_cases hs : ∃ cs, AcceptedPath cfg.usizeMod (str s) cs
  · obtain ⟨cs, hs⟩ := hs
    obtain ⟨g1, g2⟩ := h2 s cs hs
    obtain ⟨g1', g2'⟩ := h2' s cs (hc ▸ hs)
    cases hx : T.reach p cs with
    | none => exact .inl ⟨_, (g2 hx _).2 rfl, (g2' hx _).2 rfl⟩
    | some x =>
      obtain ⟨u, o, k1, k2, k3, k4, -⟩ := g1 x hx
      obtain ⟨u', o', k1', k2', k3', k4', -⟩ := g1' x hx
      have : o = o' := offset_eq (k2.trans k2'.symm) (k3.trans k3'.symm)
      subst this
      exact .inr ⟨o, u, u', (k1 _).2 rfl, (k1' _).2 rfl, fun r => by rw [k4, k4']⟩
  · have hs1 : ∀ cs, ¬ AcceptedPath cfg.usizeMod (str s) cs := fun cs h => hs ⟨cs, h⟩
    exact .inl ⟨_, (h3 s hs1 _).2 rfl, (h3' s (hc ▸ hs1) _).2 rfl⟩

/-- C120: two files, by whatever compilers: if in both all ids with the name stand for the same C type, then both find the name, and all
answers are the same. -/
theorem c_same {cfg cfg' : Cfg} (hc : cfg.usizeMod = cfg'.usizeMod) {R R' : Readable} (hR : Addressable cfg R) (hR' : Addressable cfg' R')
    {ti ti' : TypeInformation} (h : TypeInformation.new cfg R = .ok ti) (h' : TypeInformation.new cfg' R' = .ok ti')
    {p : Nat} (hp : PointerSize ti p) (hp' : PointerSize ti' p) (T : CType) (name : Str) (hv : name ≠ str "void")
    (hex : ∃ u, ti.nameOf u = some name) (hex' : ∃ u, ti'.nameOf u = some name)
    (hall : ∀ u, ti.nameOf u = some name → ∃ S : CType, S.Proper p ∧ S.core = T.core ∧ Represents ti u S)
    (hall' : ∀ u, ti'.nameOf u = some name → ∃ S : CType, S.Proper p ∧ S.core = T.core ∧ Represents ti' u S) :
    ∃ t t', ti.idOf name = some t ∧ ti'.idOf name = some t' ∧ SameAnswers cfg cfg' ti ti' t t' := by
  obtain ⟨t, g1, g2⟩ := c_named hR h hp T name hv hex hall
  obtain ⟨t', g1', g2'⟩ := c_named hR' h' hp' T name hv hex' hall'
  exact ⟨t, t', g1, g1', same_answers hc g2 g2'⟩

/-- C120: two programs, for pointers of the same size, with any header files, and any other declarations before and after them, in
either byte order: for every name which both headers declare with the same meaning, and which is not declared again after the header,
both files find the name, and all answers are the same. -/
theorem c_same_programs {cfg cfg' : Cfg} (hc : cfg.usizeMod = cfg'.usizeMod) {R R' : Readable} {e e' : Endianness} (p : Nat) (hp : p < 2 ^ 29)
    (before after before' after' : List Decl) (Ts Ts' : List CType)
    (hT : ∀ T ∈ Ts, T.Proper p ∧ T.Recordable) (hT' : ∀ T ∈ Ts', T.Proper p ∧ T.Recordable)
    (hone : OneMeaning Ts) (hone' : OneMeaning Ts')
    (hn : ∀ d ∈ before ++ after, Good d ∧ declName d ≠ str "list_head")
    (hn' : ∀ d ∈ before' ++ after', Good d ∧ declName d ≠ str "list_head")
    (he : e = .little ∨ ∀ d ∈ before ++ after, d.isEnum64 = false)
    (he' : e' = .little ∨ ∀ d ∈ before' ++ after', d.isEnum64 = false)
    (hsize : 24 + 4 * (typeWords (amongProgram p before Ts after)).length +
      (stringTable (amongProgram p before Ts after)).length < 2 ^ 32)
    (hsize' : 24 + 4 * (typeWords (amongProgram p before' Ts' after')).length +
      (stringTable (amongProgram p before' Ts' after')).length < 2 ^ 32)
    (hS : Serves cfg R (encode e (amongProgram p before Ts after)))
    (hS' : Serves cfg' R' (encode e' (amongProgram p before' Ts' after')))
    (ht : FitsTarget cfg (encode e (amongProgram p before Ts after)))
    (ht' : FitsTarget cfg' (encode e' (amongProgram p before' Ts' after'))) :
    ∃ ti ti', TypeInformation.new cfg R = .ok ti ∧ TypeInformation.new cfg' R' = .ok ti' ∧
      ∀ name : String, Ident name → str name ≠ str "void" → str name ∉ after.map declName → str name ∉ after'.map declName →
        ∀ S ∈ headerParts Ts, ∀ S' ∈ headerParts Ts', S.label = str name → S'.label = str name → S.core = S'.core →
          ∃ t t', ti.idOf (str name) = some t ∧ ti'.idOf (str name) = some t' ∧ SameAnswers cfg cfg' ti ti' t t' := by
  obtain ⟨ti, h1, -, -, -, h2⟩ := c_among (cfg := cfg) p hp before after Ts hT hone hn he hsize hS ht
  obtain ⟨ti', h1', -, -, -, h2'⟩ := c_among (cfg := cfg') p hp before' after' Ts' hT' hone' hn' he' hsize' hS' ht'
  refine ⟨ti, ti', h1, h1', fun name hid hv hno hno' S hS S' hS' hl hl' hcore => ?_⟩
  obtain ⟨t, g1, g2, -⟩ := (h2 name hid hv).2.1 hno S hS hl
  obtain ⟨t', g1', g2', -⟩ := (h2' name hid hv).2.1 hno' S' hS' hl'
  exact ⟨t, t', g1, g1', same_answers hc g2 (answers_core hcore.symm g2')⟩

/-! ### Examples -/

/-- `c_same_programs`: `struct qstr` in a header of its own, big-endian, and after other types, with a function before, little-endian. -/
example : ∃ ti ti' t t', TypeInformation.new Samples.dbg (Samples.buffer (encode .big (amongProgram 8 [] [qstrType] []))) = .ok ti ∧
    TypeInformation.new Samples.rel (Samples.buffer (encode .little (amongProgram 8 qstrFunction someHeader []))) = .ok ti' ∧
    ti.idOf (str "qstr") = some t ∧ ti'.idOf (str "qstr") = some t' ∧ SameAnswers Samples.dbg Samples.rel ti ti' t t' := by
  obtain ⟨ti, ti', h1, h2, h3⟩ := c_same_programs (cfg := Samples.dbg) (cfg' := Samples.rel) (e := .big) (e' := .little) rfl 8 (by decide)
    [] [] qstrFunction [] [qstrType] someHeader qstr_proper someHeader_proper qstr_one someHeader_one (by simp)
    (by simpa using qstrFunction_good) (.inr (by simp)) (.inl rfl) (by decide +kernel) (by decide +kernel)
    (Examples.serves _ (by decide +kernel)) (Examples.serves _ (by decide +kernel)) (Examples.fits _) (Examples.fits _)
  obtain ⟨t, t', g⟩ := h3 "qstr" qstr_ident (by decide +kernel) (by simp) (by simp) qstrType qstr_part qstrType
    (by rw [headerParts, List.mem_flatMap]; exact ⟨qstrType, by simp [someHeader], self_part _⟩) rfl rfl rfl
  exact ⟨ti, ti', t, t', h1, h2, g⟩

/-- `c_same`: the declarations of C115, in both byte orders. -/
example : ∃ ti ti' t t', TypeInformation.new Samples.dbg (Samples.buffer (encode .big commonDecls)) = .ok ti ∧
    TypeInformation.new Samples.dbg (Samples.buffer (encode .little commonDecls)) = .ok ti' ∧
    ti.idOf [115] = some t ∧ ti'.idOf [115] = some t' ∧ SameAnswers Samples.dbg Samples.dbg ti ti' t t' := by
  obtain ⟨ti, h1, hp, hex, hall⟩ := common_read .big (by decide +kernel)
  obtain ⟨ti', h1', hp', hex', hall'⟩ := common_read .little (by decide +kernel)
  obtain ⟨t, t', g⟩ := c_same rfl (.inl rfl) (.inl rfl) h1 h1' hp hp' commonType [115] (by decide +kernel) hex hex' hall hall'
  exact ⟨ti, ti', t, t', h1, h1', g⟩

end Btf.Props

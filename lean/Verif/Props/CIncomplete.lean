import Verif.Spec.CIncomplete
import Verif.Props.CModule

/-!
# Property C117: incomplete types
-/

namespace Btf.Props

open Btf Spec CTypes TypeInformation

/-- What one can expect of an id that stands for an incomplete type: it has the name, but no size, no members and no elements, and is
not a pointer. -/
def AnswersIncomplete (cfg : Cfg) (ti : TypeInformation) (t : UInt32) (name : Name) : Prop :=
  ti.nameOf t = nameStr name ∧
  (∀ r, SizeOf cfg ti t r ↔ r = .err .NotSized) ∧
  (∀ r, OffsetOf cfg ti t (str "") r ↔ r = .ok (t, .byteOffset 0)) ∧
  (∀ s : String, s ≠ "" → ∀ r, OffsetOf cfg ti t (str s) r ↔ r = .err .InvalidTypePath) ∧
  ∀ r, PointeeOf ti t r ↔ r = .err .InvalidTypeID

theorem fwd_answers {cfg : Cfg} {ti : TypeInformation} {vs : List TypeVariant} (hh : Holds ti vs) {t : UInt32} {name : Name}
    {v : TypeVariant} (hv : ti.fromId t = some v) (hs : Says (.fwd name 0) v) : AnswersIncomplete cfg ti t name := by
  cases v <;> first | exact hs.elim | skip
  rename_i h d
  have hd : d = ⟨nameStr name, 0⟩ := hs
  subst hd
  refine ⟨?_, fun r => ?_, offset_of_empty cfg ti t, fun s hne r => ?_, fun r => ?_⟩
  · rw [hh.nameOf, ← hh.fromId, hv]
    rfl
  · have hret := (size_of_not_sized_iff cfg ti t).2 ⟨t, _, .refl, hv, trivial⟩
    exact ⟨fun h => (sizeOf_mono cfg ti t).returns_unique h hret, fun h => h ▸ hret⟩
  · have hvoid : ti.fromId 0 = some .void := by
      rw [hh.fromId]
      rfl
    have hret := offset_of_scalar cfg ti t .void s hne ⟨0, .step hv rfl .refl, hvoid, rfl⟩ (by simp [IsAggregate])
    exact ⟨fun h => offset_of_deterministic cfg ti t s _ _ h hret, fun h => h ▸ hret⟩
  · have hret := (pointee_tid_err_iff ti t .InvalidTypeID).2 ⟨rfl, t, .refl, fun v' hv' => by
      rw [hv] at hv'
      cases hv'
      exact ⟨rfl, id⟩⟩
    exact ⟨fun h => (pointeeTid_mono ti t).returns_unique h hret, fun h => h ▸ hret⟩

theorem incompleteProgram_names (p : Nat) (before : List Name) (Ts : List CType) (after : List Name) :
    (incompleteProgram p before Ts after).map declName =
      str "list_head" :: (before ++ (headerParts Ts).map CType.label ++ after) := by
  have h : ∀ names : List Name, (incomplete names).map declName = names := fun names => by
    rw [incomplete, List.map_map]
    exact List.map_id' names
  rw [incompleteProgram, List.map_cons, List.map_append, List.map_append, declareAll_names, h, h]
  rfl

theorem incompleteProgram_good {p : Nat} {before after : List Name} {Ts : List CType} (hT : ∀ T ∈ Ts, T.Proper p ∧ T.Recordable)
    (hn : ∀ name ∈ before ++ after, (0 : UInt8) ∉ name) :
    ∀ d ∈ incompleteProgram p before Ts after, Good d ∧ d.isEnum64 = false := by
  have h : ∀ names : List Name, (∀ name ∈ names, (0 : UInt8) ∉ name) → ∀ d ∈ incomplete names, Good d ∧ d.isEnum64 = false := by
    intro names hn d hd
    rw [incomplete, List.mem_map] at hd
    obtain ⟨name, h1, rfl⟩ := hd
    exact ⟨hn name h1, rfl⟩
  intro d hd
  rw [incompleteProgram] at hd
  rcases List.mem_cons.1 hd with rfl | hd
  · exact ⟨⟨by decide, by decide, by simp⟩, rfl⟩
  · rw [List.mem_append, List.mem_append] at hd
    rcases hd with (hd | hd) | hd
    · exact h before (fun name h => hn name (by simp [h])) d hd
    · exact ⟨(declareAll_good Ts _ hT d hd).1, (declareAll_good Ts _ hT d hd).2.1⟩
    · exact h after (fun name h => hn name (by simp [h])) d hd

/-- The types answer, whatever ids they have. -/
theorem stand_answers_from {cfg : Cfg} {ti : TypeInformation} {p k : Nat} {Ts : List CType}
    (hT : ∀ T ∈ Ts, T.Proper p ∧ T.Recordable) (hptr : PointerSize ti p) (hstand : StandFor ti k (headerParts Ts)) (i : Nat)
    (hi : i < (headerParts Ts).length) : AnswersFor cfg ti p (UInt32.ofNat (k + i + 1)) (headerParts Ts)[i] := by
  refine represents_answers hptr ?_ (hstand i hi)
  obtain ⟨T, h1, h2⟩ := List.mem_flatMap.1 (List.getElem_mem hi)
  exact parts_proper T (hT T h1).1 _ h2

/-- C117: a header file with incomplete types, their records before or after the others: the file is accepted; every record of an
incomplete type answers as such, and every type of the header as in C, whatever ids they have. A name that is declared with the
header's types and not after them has the meaning it has there; a name in a record after them is that of an incomplete type, also if
the header says what it means; and so is a name that is only in a record before them. -/
theorem c_incomplete {cfg : Cfg} {R : Readable} {e : Endianness} (p : Nat) (hp : p < 2 ^ 29) (before after : List Name)
    (Ts : List CType) (hT : ∀ T ∈ Ts, T.Proper p ∧ T.Recordable) (hone : OneMeaning Ts)
    (hn : ∀ name ∈ before ++ after, (0 : UInt8) ∉ name ∧ name ≠ str "list_head")
    (hsize : 24 + 4 * (typeWords (incompleteProgram p before Ts after)).length +
      (stringTable (incompleteProgram p before Ts after)).length < 2 ^ 32)
    (hS : Serves cfg R (encode e (incompleteProgram p before Ts after)))
    (ht : FitsTarget cfg (encode e (incompleteProgram p before Ts after))) :
    ∃ ti, TypeInformation.new cfg R = .ok ti ∧
      (∀ i (h : i < before.length), AnswersIncomplete cfg ti (UInt32.ofNat (i + 2)) before[i]) ∧
      (∀ i (h : i < (headerParts Ts).length), AnswersFor cfg ti p (UInt32.ofNat (before.length + i + 2)) (headerParts Ts)[i]) ∧
      (∀ i (h : i < after.length),
        AnswersIncomplete cfg ti (UInt32.ofNat (before.length + (headerParts Ts).length + i + 2)) after[i]) ∧
      ∀ name : String, Ident name → str name ≠ str "void" →
        (str name ∈ after → ∃ t, ti.idOf (str name) = some t ∧ AnswersIncomplete cfg ti t (str name)) ∧
        (str name ∉ after → ∀ S ∈ headerParts Ts, S.label = str name → ∃ t, ti.idOf (str name) = some t ∧ AnswersFor cfg ti p t S) ∧
        (str name ∉ after → (∀ S ∈ headerParts Ts, S.label ≠ str name) → str name ∈ before →
          ∃ t, ti.idOf (str name) = some t ∧ AnswersIncomplete cfg ti t (str name)) ∧
        (str name ∉ before ++ after → (∀ S ∈ headerParts Ts, S.label ≠ str name) → str name ≠ str "list_head" →
          ti.idOf (str name) = none) := by
  have hall := incompleteProgram_good (p := p) hT fun name h => (hn name h).1
  obtain ⟨ti, vs, h1, hh, hs⟩ := round_trip (fun d hd => (hall d hd).1) hsize (.inr fun d hd => (hall d hd).2) hS ht
  have hlen := decodes_length (encode_decodes hsize e fun d hd => (hall d hd).1)
  rw [List.length_map] at hlen
  obtain ⟨h4, hnone⟩ := declared_id_of hh hs (by omega)
  have hnames := incompleteProgram_names p before Ts after
  generalize hds : incompleteProgram p before Ts after = ds at *
  have hcount : ds.length = 1 + before.length + (headerParts Ts).length + after.length := by
    have := congrArg List.length hnames
    simp only [List.length_map, List.length_cons, List.length_append] at this
    omega
  have hdecl : Declared ti 0 ds := by
    intro i hi
    have hl := hs.length_eq
    have hi' : (UInt32.ofNat (i + 1)).toNat = i + 1 := UInt32.toNat_ofNat_of_lt' (by rw [UInt32.size]; omega)
    refine ⟨vs[i]'(hl ▸ hi), ?_, (List.forall₂_iff_get.1 hs).2 i hi (hl ▸ hi)⟩
    rw [hh.fromId, Nat.zero_add, hi', typeAt]
    simp
  have hname : ∀ i (hi : i < ds.length), some (declName ds[i]) =
      (str "list_head" :: (before ++ (headerParts Ts).map CType.label ++ after))[i]? := by
    intro i hi
    rw [← hnames, List.getElem?_map, List.getElem?_eq_getElem hi]
    rfl
  have hfind : ∀ name : String, Ident name → str name ≠ str "void" → ∀ j (hj : j < ds.length), declName ds[j] = str name →
      ∃ i, ∃ hi : i < ds.length, j ≤ i ∧ declName ds[i] = str name ∧ ti.idOf (str name) = some (UInt32.ofNat (i + 1)) := by
    intro name h2 h3 j hj h5
    obtain ⟨i, hi, ⟨hi', hlab⟩, hlast⟩ := last_such (n := ds.length)
      (P := fun i => ∃ h : i < ds.length, declName ds[i] = str name) ⟨j, hj, hj, h5⟩
    refine ⟨i, hi, ?_, hlab, h4 i hi name h2 h3 hlab fun k hk hlt heq => hlast k hk hlt ⟨hk, heq⟩⟩
    rcases Nat.lt_or_ge i j with h | h
    · exact absurd ⟨hj, h5⟩ (hlast j hj h)
    · exact h
  have hregion : ∀ i (hi : i < ds.length), i ≠ 0 →
      (∃ h : i - 1 < before.length, declName ds[i] = before[i - 1]) ∨
      (∃ h : i - 1 - before.length < (headerParts Ts).length, before.length ≤ i - 1 ∧
        declName ds[i] = (headerParts Ts)[i - 1 - before.length].label) ∨
      ∃ h : i - 1 - before.length - (headerParts Ts).length < after.length, before.length + (headerParts Ts).length ≤ i - 1 ∧
        declName ds[i] = after[i - 1 - before.length - (headerParts Ts).length] := by
    intro i hi h0
    obtain ⟨i, rfl⟩ := Nat.exists_eq_succ_of_ne_zero h0
    have h := hname (i + 1) hi
    rw [List.getElem?_cons_succ] at h
    simp only [Nat.succ_eq_add_one, Nat.add_sub_cancel]
    rcases Nat.lt_or_ge i before.length with hb | hb
    · rw [List.append_assoc, List.getElem?_append_left hb, List.getElem?_eq_getElem hb] at h
      exact .inl ⟨hb, Option.some.inj h⟩
    · rw [List.append_assoc, List.getElem?_append_right hb] at h
      rcases Nat.lt_or_ge (i - before.length) (headerParts Ts).length with hm | hm
      · rw [List.getElem?_append_left (by simpa using hm), List.getElem?_map, List.getElem?_eq_getElem hm] at h
        exact .inr (.inl ⟨hm, hb, Option.some.inj h⟩)
      · rw [List.getElem?_append_right (by simpa using hm), List.length_map, List.getElem?_eq_getElem (by omega)] at h
        exact .inr (.inr ⟨by omega, by omega, Option.some.inj h⟩)
  have hlabel_ne : ∀ S ∈ headerParts Ts, S.label ≠ str "list_head" := by
    intro S hS'
    have hm := List.mem_map_of_mem (f := CType.label) hS'
    rw [← declareAll_names Ts 0] at hm
    obtain ⟨d, g1, g2⟩ := List.mem_map.1 hm
    rw [← g2]
    exact (declareAll_good Ts 0 hT d g1).2.2
  have hptr : PointerSize ti p := by
    obtain ⟨v, hv, hsays⟩ := hdecl 0 (by omega)
    have h0 : ds[0]'(by omega) = .struct (str "list_head") (UInt32.ofNat (2 * p)) [] := by
      simp only [← hds]
      rfl
    rw [h0] at hsays
    have hid := h4 0 (by omega) "list_head" list_head_name (by decide) (by rw [h0]; rfl) ?_
    · cases v <;> first | exact hsays.elim | skip
      rename_i hd d
      refine ⟨_, hd, d, hid, hv, ?_⟩
      rw [show d.size = (UInt32.ofNat (2 * p)).toNat from hsays.2.1, UInt32.toNat_ofNat_of_lt' (by simp [UInt32.size]; omega)]
      omega
    · intro j hj hlt
      rcases hregion j hj (by omega) with ⟨h, h5⟩ | ⟨h, -, h5⟩ | ⟨h, -, h5⟩ <;> rw [h5]
      · exact (hn _ (by simp)).2
      · exact hlabel_ne _ (List.getElem_mem _)
      · exact (hn _ (by simp)).2
  have hinc : ∀ (names : List Name) (k : Nat), Declared ti k (incomplete names) → ∀ i (h : i < names.length),
      AnswersIncomplete cfg ti (UInt32.ofNat (k + i + 1)) names[i] := by
    intro names k h i hi
    obtain ⟨v, g1, g2⟩ := h i (by simpa [incomplete] using hi)
    refine fwd_answers hh g1 ?_
    simpa [incomplete] using g2
  rw [← hds, incompleteProgram, ← List.singleton_append] at hdecl
  have hd1 := declared_right hdecl
  have hlb : (incomplete before).length = before.length := List.length_map ..
  have hlm : (declareAll (1 + before.length) Ts).length = (headerParts Ts).length := by
    have := congrArg List.length (declareAll_names Ts (1 + before.length))
    rwa [List.length_map, List.length_map] at this
  have hbefore : ∀ i (h : i < before.length), AnswersIncomplete cfg ti (UInt32.ofNat (i + 2)) before[i] := by
    intro i hi
    have := hinc before _ (declared_left (declared_left hd1)) i hi
    rwa [show 0 + [Decl.struct (str "list_head") (UInt32.ofNat (2 * p)) []].length + i + 1 = i + 2 by simp; omega] at this
  have hmid : ∀ i (h : i < (headerParts Ts).length),
      AnswersFor cfg ti p (UInt32.ofNat (before.length + i + 2)) (headerParts Ts)[i] := by
    intro i hi
    have hd := declared_right (declared_left hd1)
    rw [hlb, show 0 + [Decl.struct (str "list_head") (UInt32.ofNat (2 * p)) []].length = 1 from rfl] at hd
    have := stand_answers_from (cfg := cfg) hT hptr (stand_all Ts _ hd) i hi
    rwa [show 1 + before.length + i + 1 = before.length + i + 2 by omega] at this
  have hafter : ∀ i (h : i < after.length),
      AnswersIncomplete cfg ti (UInt32.ofNat (before.length + (headerParts Ts).length + i + 2)) after[i] := by
    intro i hi
    have hd := declared_right hd1
    rw [List.length_append, hlb, hlm, show 0 + [Decl.struct (str "list_head") (UInt32.ofNat (2 * p)) []].length = 1 from rfl] at hd
    have := hinc after _ hd i hi
    rwa [show 1 + (before.length + (headerParts Ts).length) + i + 1 = before.length + (headerParts Ts).length + i + 2 by omega] at this
  refine ⟨ti, h1, hbefore, hmid, hafter, fun name h2 h3 => ⟨fun ha => ?_, fun ha S hS' hlabel => ?_, fun ha hno hb => ?_,
    fun hab hno hl => hnone name h2 h3 fun d hd heq => ?_⟩⟩
  · obtain ⟨j, hj, h5⟩ := List.mem_iff_getElem.1 ha
    obtain ⟨i, hi, hle, h6, h7⟩ := hfind name h2 h3 (before.length + (headerParts Ts).length + j + 1) (by omega) (by
      apply Option.some.inj
      rw [hname, List.getElem?_cons_succ, List.append_assoc, List.getElem?_append_right (by omega),
        List.getElem?_append_right (by rw [List.length_map]; omega), List.length_map, ← h5, List.getElem?_eq_some_iff]
      exact ⟨by omega, by congr 1; omega⟩)
    refine ⟨_, h7, ?_⟩
    rcases hregion i hi (by omega) with ⟨h, -⟩ | ⟨h, -⟩ | ⟨h, hge, h8⟩
    · omega
    · omega
    · have := hafter _ h
      rwa [← h8, h6, show before.length + (headerParts Ts).length + (i - 1 - before.length - (headerParts Ts).length) + 2 = i + 1 by omega] at this
  · obtain ⟨j, hj, rfl⟩ := List.mem_iff_getElem.1 hS'
    obtain ⟨i, hi, hle, h6, h7⟩ := hfind name h2 h3 (before.length + j + 1) (by omega) (by
      apply Option.some.inj
      rw [hname, List.getElem?_cons_succ, List.append_assoc, List.getElem?_append_right (by omega),
        List.getElem?_append_left (by simp; omega), ← hlabel, List.getElem?_map,
        show before.length + j - before.length = j by omega, List.getElem?_eq_getElem hj]
      rfl)
    refine ⟨_, h7, ?_⟩
    rcases hregion i hi (by omega) with ⟨h, -⟩ | ⟨h, hge, h8⟩ | ⟨h, -, h8⟩
    · omega
    · have hans := hmid _ h
      rw [show before.length + (i - 1 - before.length) + 2 = i + 1 by omega] at hans
      have hlab := h8.symm.trans h6
      have hne : str name ≠ [] := by
        intro h0
        have := h2.1
        rw [h0] at this
        cases this
      exact answers_core (hone _ (List.getElem_mem h) _ hS' (by rw [hlab, hlabel]) (by rw [hlab]; exact hne)) hans
    · exact absurd (h6 ▸ h8 ▸ List.getElem_mem _) ha
  · obtain ⟨j, hj, h5⟩ := List.mem_iff_getElem.1 hb
    obtain ⟨i, hi, hle, h6, h7⟩ := hfind name h2 h3 (j + 1) (by omega) (by
      apply Option.some.inj
      rw [hname, List.getElem?_cons_succ, List.append_assoc, List.getElem?_append_left hj, ← h5, List.getElem?_eq_getElem hj])
    refine ⟨_, h7, ?_⟩
    rcases hregion i hi (by omega) with ⟨h, h8⟩ | ⟨h, -, h8⟩ | ⟨h, -, h8⟩
    · have := hbefore _ h
      rwa [← h8, h6, show i - 1 + 2 = i + 1 by omega] at this
    · exact absurd (h8.symm.trans h6) (hno _ (List.getElem_mem _))
    · exact absurd (h6 ▸ h8 ▸ List.getElem_mem _) ha
  · have hm := List.mem_map_of_mem (f := declName) hd
    rw [hnames, heq, List.mem_cons, List.mem_append, List.mem_append] at hm
    rcases hm with hm | (hm | hm) | hm
    · exact hl hm
    · exact hab (by simp [hm])
    · obtain ⟨S, g1, g2⟩ := List.mem_map.1 hm
      exact hno S g1 g2
    · exact hab (by simp [hm])

/-! ### Examples -/

theorem file_spelled : str "file" = [102, 105, 108, 101] := by decide +kernel

theorem qstr_ident : Ident "qstr" := by
  refine ⟨?_, by decide +kernel⟩
  rw [header_spelled.1]
  exact .mk _ _ (by simp [NameStart, Letter]) fun c hc => (nameByte_iff c).1
    ((by decide +kernel : ∀ c ∈ ([115, 116, 114] : List UInt8), nameByte c = true) c hc)

theorem file_ident : Ident "file" := by
  refine ⟨?_, by decide +kernel⟩
  rw [file_spelled]
  exact .mk _ _ (by simp [NameStart, Letter]) fun c hc => (nameByte_iff c).1
    ((by decide +kernel : ∀ c ∈ ([105, 108, 101] : List UInt8), nameByte c = true) c hc)

theorem qstr_part : qstrType ∈ headerParts [qstrType] := by
  rw [headerParts, List.mem_flatMap]
  exact ⟨qstrType, by simp, by simp [qstrType, CType.parts]⟩

theorem qstr_proper : ∀ T ∈ [qstrType], T.Proper 8 ∧ T.Recordable := by
  intro T hT
  rw [List.mem_singleton] at hT
  exact someHeader_proper T (by simp [hT, someHeader])

theorem qstr_one : OneMeaning [qstrType] := fun S hS S' hS' =>
  someHeader_one S (List.mem_flatMap.2 ⟨qstrType, by simp [someHeader], by simpa [headerParts] using hS⟩)
    S' (List.mem_flatMap.2 ⟨qstrType, by simp [someHeader], by simpa [headerParts] using hS'⟩)

/-- `struct qstr; struct file; struct qstr { .. };`: `qstr` is complete, `file` is not. -/
example : ∃ ti t u, TypeInformation.new Samples.dbg
      (Samples.buffer (encode .little (incompleteProgram 8 [str "qstr", str "file"] [qstrType] []))) = .ok ti ∧
    ti.idOf (str "qstr") = some t ∧ (∀ r, SizeOf Samples.dbg ti t r ↔ r = .ok 16) ∧
    ti.idOf (str "file") = some u ∧ ∀ r, SizeOf Samples.dbg ti u r ↔ r = .err .NotSized := by
  obtain ⟨h1, h2, h3, h4, h5, h6, h7, h8, h9, h10⟩ := header_spelled
  obtain ⟨ti, g1, -, -, -, g2⟩ := c_incomplete (cfg := Samples.dbg) (e := .little) 8 (by decide) [str "qstr", str "file"] [] [qstrType]
    qstr_proper qstr_one (by simp [h1, h10, file_spelled]) (by decide +kernel) (Examples.serves _ (by decide +kernel)) (Examples.fits _)
  obtain ⟨t, k1, k2, -⟩ := (g2 "qstr" qstr_ident (by decide +kernel)).2.1 (by simp) qstrType qstr_part rfl
  obtain ⟨u, k3, -, k4, -⟩ := (g2 "file" file_ident (by decide +kernel)).2.2.1 (by simp) (by
    simp [headerParts, qstrType, CType.parts, CMembers.parts, CType.label, h1, file_spelled]) (by simp)
  exact ⟨ti, t, u, g1, k1, k2, k3, k4⟩

/-- `struct qstr { .. };`, and the record of `struct qstr;` is after the others: the crate does not find the size of `qstr`. -/
example : ∃ ti t, TypeInformation.new Samples.dbg
      (Samples.buffer (encode .big (incompleteProgram 8 [] [qstrType] [str "qstr"]))) = .ok ti ∧
    ti.idOf (str "qstr") = some t ∧ ∀ r, SizeOf Samples.dbg ti t r ↔ r = .err .NotSized := by
  obtain ⟨h1, h2, h3, h4, h5, h6, h7, h8, h9, h10⟩ := header_spelled
  obtain ⟨ti, g1, -, -, -, g2⟩ := c_incomplete (cfg := Samples.dbg) (e := .big) 8 (by decide) [] [str "qstr"] [qstrType]
    qstr_proper qstr_one (by simp [h1, h10]) (by decide +kernel) (Examples.serves _ (by decide +kernel)) (Examples.fits _)
  obtain ⟨t, k1, -, k2, -⟩ := (g2 "qstr" qstr_ident (by decide +kernel)).1 (by simp)
  exact ⟨ti, t, g1, k1, k2⟩

end Btf.Props

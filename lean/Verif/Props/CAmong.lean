import Verif.Spec.CAmong
import Verif.Props.CIncomplete

/-!
# Property C118: C types among other declarations
-/

namespace Btf.Props

open Btf Spec CTypes TypeInformation

theorem amongProgram_names (p : Nat) (before : List Decl) (Ts : List CType) (after : List Decl) :
    (amongProgram p before Ts after).map declName =
      str "list_head" :: (before.map declName ++ (headerParts Ts).map CType.label ++ after.map declName) := by
  rw [amongProgram, List.map_cons, List.map_append, List.map_append, declareAll_names]
  rfl

theorem amongProgram_good {p : Nat} {before after : List Decl} {Ts : List CType} (hT : ∀ T ∈ Ts, T.Proper p ∧ T.Recordable)
    (hn : ∀ d ∈ before ++ after, Good d) : ∀ d ∈ amongProgram p before Ts after, Good d := by
  intro d hd
  rw [amongProgram] at hd
  rcases List.mem_cons.1 hd with rfl | hd
  · exact ⟨by decide, by decide, by simp⟩
  · rw [List.mem_append, List.mem_append] at hd
    rcases hd with (hd | hd) | hd
    · exact hn d (by simp [hd])
    · exact (declareAll_good Ts _ hT d hd).1
    · exact hn d (by simp [hd])

theorem amongProgram_enum64 {p : Nat} {before after : List Decl} {Ts : List CType} (hT : ∀ T ∈ Ts, T.Proper p ∧ T.Recordable)
    (hn : ∀ d ∈ before ++ after, d.isEnum64 = false) : ∀ d ∈ amongProgram p before Ts after, d.isEnum64 = false := by
  intro d hd
  rw [amongProgram] at hd
  rcases List.mem_cons.1 hd with rfl | hd
  · rfl
  · rw [List.mem_append, List.mem_append] at hd
    rcases hd with (hd | hd) | hd
    · exact hn d (by simp [hd])
    · exact (declareAll_good Ts _ hT d hd).2.1
    · exact hn d (by simp [hd])

/-- C118: a header file among any other declarations: all of them are read as declared; the types of the header file answer as in C.
All names are in one place: the last declaration with a name, of whatever kind, is what `id_of` finds. So a name of the header has the
meaning of C unless a declaration after it, of a function, say, has the same name. -/
theorem c_among {cfg : Cfg} {R : Readable} {e : Endianness} (p : Nat) (hp : p < 2 ^ 29) (before after : List Decl)
    (Ts : List CType) (hT : ∀ T ∈ Ts, T.Proper p ∧ T.Recordable) (hone : OneMeaning Ts)
    (hn : ∀ d ∈ before ++ after, Good d ∧ declName d ≠ str "list_head")
    (he : e = .little ∨ ∀ d ∈ before ++ after, d.isEnum64 = false)
    (hsize : 24 + 4 * (typeWords (amongProgram p before Ts after)).length +
      (stringTable (amongProgram p before Ts after)).length < 2 ^ 32)
    (hS : Serves cfg R (encode e (amongProgram p before Ts after)))
    (ht : FitsTarget cfg (encode e (amongProgram p before Ts after))) :
    ∃ ti, TypeInformation.new cfg R = .ok ti ∧
      (∀ i (h : i < before.length), ∃ v, ti.fromId (UInt32.ofNat (i + 2)) = some v ∧ Says before[i] v) ∧
      (∀ i (h : i < (headerParts Ts).length), AnswersFor cfg ti p (UInt32.ofNat (before.length + i + 2)) (headerParts Ts)[i]) ∧
      (∀ i (h : i < after.length),
        ∃ v, ti.fromId (UInt32.ofNat (before.length + (headerParts Ts).length + i + 2)) = some v ∧ Says after[i] v) ∧
      ∀ name : String, Ident name → str name ≠ str "void" →
        (str name ∈ after.map declName → ∃ i, LastNamed after (str name) i ∧
          ti.idOf (str name) = some (UInt32.ofNat (before.length + (headerParts Ts).length + i + 2))) ∧
        (str name ∉ after.map declName → ∀ S ∈ headerParts Ts, S.label = str name →
          ∃ t, ti.idOf (str name) = some t ∧ AnswersFor cfg ti p t S ∧
            ∃ i, t = UInt32.ofNat (before.length + i + 2) ∧ ((headerParts Ts)[i]?).map CType.label = some (str name)) ∧
        (str name ∉ after.map declName → (∀ S ∈ headerParts Ts, S.label ≠ str name) → str name ∈ before.map declName →
          ∃ i, LastNamed before (str name) i ∧ ti.idOf (str name) = some (UInt32.ofNat (i + 2))) ∧
        (str name ∉ (before ++ after).map declName → (∀ S ∈ headerParts Ts, S.label ≠ str name) → str name ≠ str "list_head" →
          ti.idOf (str name) = none) := by
  have hall := amongProgram_good (p := p) hT fun d h => (hn d h).1
  obtain ⟨ti, vs, h1, hh, hs⟩ := round_trip hall hsize (he.imp id (amongProgram_enum64 hT)) hS ht
  have hlen := decodes_length (encode_decodes hsize e hall)
  rw [List.length_map] at hlen
  obtain ⟨h4, hnone⟩ := declared_id_of hh hs (by omega)
  have hnames := amongProgram_names p before Ts after
  generalize hds : amongProgram p before Ts after = ds at *
  have hcount : ds.length = 1 + before.length + (headerParts Ts).length + after.length := by
    have := congrArg List.length hnames
    simp only [List.length_map, List.length_cons, List.length_append] at this
    omega
  have hdecl : Declared ti 0 ds := by
    intro i hi
    have hl := hs.length_eq
    have hi' : (UInt32.ofNat (i + 1)).toNat = i + 1 := UInt32.toNat_ofNat_of_lt' (by rw [UInt32.size]; omega)
    refine ⟨vs[i]'(hl ▸ hi), ?_, (List.forall₂_iff_get.1 hs).2 i hi (hl ▸ hi)⟩
    rw [hh.fromId, Nat.zero_add, hi', typeAt]
    simp
  have hlm : (declareAll (1 + before.length) Ts).length = (headerParts Ts).length := by
    have := congrArg List.length (declareAll_names Ts (1 + before.length))
    rwa [List.length_map, List.length_map] at this
  have hname : ∀ i (hi : i < ds.length), some (declName ds[i]) =
      (str "list_head" :: (before.map declName ++ (headerParts Ts).map CType.label ++ after.map declName))[i]? := by
    intro i hi
    rw [← hnames, List.getElem?_map, List.getElem?_eq_getElem hi]
    rfl
  have hbef : ∀ i, i < before.length → ∀ hi : i + 1 < ds.length, some (declName ds[i + 1]) = (before.map declName)[i]? := by
    intro i h hi
    rw [hname, List.getElem?_cons_succ, List.append_assoc, List.getElem?_append_left (by simpa using h)]
  have hmidn : ∀ i, i < (headerParts Ts).length → ∀ hi : before.length + i + 1 < ds.length,
      some (declName ds[before.length + i + 1]) = ((headerParts Ts).map CType.label)[i]? := by
    intro i h hi
    rw [hname, List.getElem?_cons_succ, List.append_assoc, List.getElem?_append_right (by simp), List.length_map,
      Nat.add_sub_cancel_left, List.getElem?_append_left (by simpa using h)]
  have haft : ∀ i, i < after.length → ∀ hi : before.length + (headerParts Ts).length + i + 1 < ds.length,
      some (declName ds[before.length + (headerParts Ts).length + i + 1]) = (after.map declName)[i]? := by
    intro i h hi
    rw [hname, List.getElem?_cons_succ, List.getElem?_append_right (by simp)]
    simp
  have hfind : ∀ name : String, Ident name → str name ≠ str "void" → ∀ j (hj : j < ds.length), declName ds[j] = str name →
      ∃ i, ∃ hi : i < ds.length, j ≤ i ∧ declName ds[i] = str name ∧ ti.idOf (str name) = some (UInt32.ofNat (i + 1)) := by
    intro name h2 h3 j hj h5
    obtain ⟨i, hi, ⟨hi', hlab⟩, hlast⟩ := last_such (n := ds.length)
      (P := fun i => ∃ h : i < ds.length, declName ds[i] = str name) ⟨j, hj, hj, h5⟩
    refine ⟨i, hi, ?_, hlab, h4 i hi name h2 h3 hlab fun k hk hlt heq => hlast k hk hlt ⟨hk, heq⟩⟩
    rcases Nat.lt_or_ge i j with h | h
    · exact absurd ⟨hj, h5⟩ (hlast j hj h)
    · exact h
  have hsplit : ∀ i, i < ds.length → i = 0 ∨ (∃ j, j < before.length ∧ i = j + 1) ∨
      (∃ j, j < (headerParts Ts).length ∧ i = before.length + j + 1) ∨
      ∃ j, j < after.length ∧ i = before.length + (headerParts Ts).length + j + 1 := by
    intro i hi
    rcases Nat.lt_or_ge i 1 with h | h
    · exact .inl (by omega)
    rcases Nat.lt_or_ge i (before.length + 1) with h' | h'
    · exact .inr (.inl ⟨i - 1, by omega, by omega⟩)
    rcases Nat.lt_or_ge i (before.length + (headerParts Ts).length + 1) with h'' | h''
    · exact .inr (.inr (.inl ⟨i - 1 - before.length, by omega, by omega⟩))
    · exact .inr (.inr (.inr ⟨i - 1 - before.length - (headerParts Ts).length, by omega, by omega⟩))
  have hlabel_ne : ∀ S ∈ headerParts Ts, S.label ≠ str "list_head" := by
    intro S hS'
    have hm := List.mem_map_of_mem (f := CType.label) hS'
    rw [← declareAll_names Ts 0] at hm
    obtain ⟨d, g1, g2⟩ := List.mem_map.1 hm
    rw [← g2]
    exact (declareAll_good Ts 0 hT d g1).2.2
  have hptr : PointerSize ti p := by
    obtain ⟨v, hv, hsays⟩ := hdecl 0 (by omega)
    have h0 : ds[0]'(by omega) = .struct (str "list_head") (UInt32.ofNat (2 * p)) [] := by
      simp only [← hds]
      rfl
    rw [h0] at hsays
    have hid := h4 0 (by omega) "list_head" list_head_name (by decide) (by rw [h0]; rfl) ?_
    · cases v <;> first | exact hsays.elim | skip
      rename_i hd d
      refine ⟨_, hd, d, hid, hv, ?_⟩
      rw [show d.size = (UInt32.ofNat (2 * p)).toNat from hsays.2.1, UInt32.toNat_ofNat_of_lt' (by simp [UInt32.size]; omega)]
      omega
    · intro j hj hlt heq
      rcases hsplit j hj with rfl | ⟨i, hi, rfl⟩ | ⟨i, hi, rfl⟩ | ⟨i, hi, rfl⟩
      · omega
      · have h := hbef i hi hj
        rw [List.getElem?_map, List.getElem?_eq_getElem hi, heq] at h
        exact (hn before[i] (by simp)).2 (Option.some.inj h).symm
      · have h := hmidn i hi hj
        rw [List.getElem?_map, List.getElem?_eq_getElem hi, heq] at h
        exact hlabel_ne _ (List.getElem_mem hi) (Option.some.inj h).symm
      · have h := haft i hi hj
        rw [List.getElem?_map, List.getElem?_eq_getElem hi, heq] at h
        exact (hn after[i] (by simp)).2 (Option.some.inj h).symm
  rw [← hds, amongProgram, ← List.singleton_append] at hdecl
  have hd1 := declared_right hdecl
  have hbefore : ∀ i (h : i < before.length), ∃ v, ti.fromId (UInt32.ofNat (i + 2)) = some v ∧ Says before[i] v := by
    intro i hi
    have := declared_left (declared_left hd1) i hi
    rwa [show 0 + [Decl.struct (str "list_head") (UInt32.ofNat (2 * p)) []].length + i + 1 = i + 2 by simp; omega] at this
  have hmid : ∀ i (h : i < (headerParts Ts).length),
      AnswersFor cfg ti p (UInt32.ofNat (before.length + i + 2)) (headerParts Ts)[i] := by
    intro i hi
    have hd := declared_right (declared_left hd1)
    rw [show 0 + [Decl.struct (str "list_head") (UInt32.ofNat (2 * p)) []].length = 1 from rfl] at hd
    have := stand_answers_from (cfg := cfg) hT hptr (stand_all Ts _ hd) i hi
    rwa [show 1 + before.length + i + 1 = before.length + i + 2 by omega] at this
  have hafter : ∀ i (h : i < after.length),
      ∃ v, ti.fromId (UInt32.ofNat (before.length + (headerParts Ts).length + i + 2)) = some v ∧ Says after[i] v := by
    intro i hi
    have := declared_right hd1 i hi
    rwa [List.length_append, hlm, show 0 + [Decl.struct (str "list_head") (UInt32.ofNat (2 * p)) []].length = 1 from rfl,
      show 1 + (before.length + (headerParts Ts).length) + i + 1 = before.length + (headerParts Ts).length + i + 2 by omega] at this
  have hin : ∀ (l : List Decl) (name : Name), name ∈ l.map declName →
      ∃ i, i < l.length ∧ LastNamed l name i := by
    intro l name hm
    obtain ⟨d, g1, g2⟩ := List.mem_map.1 hm
    obtain ⟨j, hj, rfl⟩ := List.mem_iff_getElem.1 g1
    obtain ⟨i, hi, ⟨hi', hlab⟩, hlast⟩ := last_such (n := l.length)
      (P := fun i => ∃ h : i < l.length, declName l[i] = name) ⟨j, hj, hj, g2⟩
    refine ⟨i, hi, ⟨l[i], List.getElem?_eq_getElem hi, hlab⟩, fun k d hk hd heq => ?_⟩
    obtain ⟨g3, g4⟩ := List.getElem?_eq_some_iff.1 hd
    exact hlast k g3 hk ⟨g3, by rw [g4]; exact heq⟩
  have hnamed : ∀ {l : List Decl} {i : Nat} {name : Name}, some name = (l.map declName)[i]? → ∃ d, l[i]? = some d ∧ declName d = name := by
    intro l i name h
    rw [List.getElem?_map] at h
    exact Option.map_eq_some_iff.1 h.symm
  have hmem : ∀ {l : List Decl} {i : Nat} {name : Name}, some name = (l.map declName)[i]? → name ∈ l.map declName :=
    fun h => List.mem_of_getElem? h.symm
  refine ⟨ti, h1, hbefore, hmid, hafter, fun name h2 h3 => ⟨fun ha => ?_, fun ha S hS' hlabel => ?_, fun ha hno hb => ?_,
    fun hab hno hl => hnone name h2 h3 fun d hd heq => ?_⟩⟩
  · obtain ⟨j, hj, ⟨d, g1, g2⟩, hlast⟩ := hin after _ ha
    have hj' : before.length + (headerParts Ts).length + j + 1 < ds.length := by omega
    have g3 := haft j hj hj'
    rw [List.getElem?_map, g1, Option.map_some, g2] at g3
    obtain ⟨i, hi, hle, h6, h7⟩ := hfind name h2 h3 _ hj' (Option.some.inj g3)
    rcases hsplit i hi with rfl | ⟨k, hk, rfl⟩ | ⟨k, hk, rfl⟩ | ⟨k, hk, rfl⟩
    · omega
    · omega
    · omega
    · have g4 := haft k hk hi
      rw [h6] at g4
      obtain ⟨d', g5, g6⟩ := hnamed g4
      have hkj : k = j := by
        rcases Nat.lt_or_ge j k with h | h
        · exact absurd g6 (hlast k d' h g5)
        · omega
      subst hkj
      exact ⟨k, ⟨⟨d, g1, g2⟩, hlast⟩, h7⟩
  · obtain ⟨j, hj, rfl⟩ := List.mem_iff_getElem.1 hS'
    have hj' : before.length + j + 1 < ds.length := by omega
    have g3 := hmidn j hj hj'
    rw [List.getElem?_map, List.getElem?_eq_getElem hj, Option.map_some, hlabel] at g3
    obtain ⟨i, hi, hle, h6, h7⟩ := hfind name h2 h3 _ hj' (Option.some.inj g3)
    refine ⟨_, h7, ?_⟩
    rcases hsplit i hi with rfl | ⟨k, hk, rfl⟩ | ⟨k, hk, rfl⟩ | ⟨k, hk, rfl⟩
    · omega
    · omega
    · have g4 := hmidn k hk hi
      rw [List.getElem?_map, List.getElem?_eq_getElem hk, h6] at g4
      have hlab : (headerParts Ts)[k].label = str name := (Option.some.inj g4).symm
      have hne : str name ≠ [] := by
        intro h0
        have := h2.1
        rw [h0] at this
        cases this
      exact ⟨answers_core (hone _ (List.getElem_mem hk) _ hS' (by rw [hlab, hlabel]) (by rw [hlab]; exact hne)) (hmid k hk), k, rfl,
        by rw [List.getElem?_eq_getElem hk, Option.map_some, hlab]⟩
    · have g4 := haft k hk hi
      rw [h6] at g4
      exact absurd (hmem g4) ha
  · obtain ⟨j, hj, ⟨d, g1, g2⟩, hlast⟩ := hin before _ hb
    have hj' : j + 1 < ds.length := by omega
    have g3 := hbef j hj hj'
    rw [List.getElem?_map, g1, Option.map_some, g2] at g3
    obtain ⟨i, hi, hle, h6, h7⟩ := hfind name h2 h3 _ hj' (Option.some.inj g3)
    rcases hsplit i hi with rfl | ⟨k, hk, rfl⟩ | ⟨k, hk, rfl⟩ | ⟨k, hk, rfl⟩
    · omega
    · have g4 := hbef k hk hi
      rw [h6] at g4
      obtain ⟨d', g5, g6⟩ := hnamed g4
      have hkj : k = j := by
        rcases Nat.lt_or_ge j k with h | h
        · exact absurd g6 (hlast k d' h g5)
        · omega
      subst hkj
      exact ⟨k, ⟨⟨d, g1, g2⟩, hlast⟩, h7⟩
    · have g4 := hmidn k hk hi
      rw [List.getElem?_map, List.getElem?_eq_getElem hk, h6] at g4
      exact absurd (Option.some.inj g4).symm (hno _ (List.getElem_mem hk))
    · have g4 := haft k hk hi
      rw [h6] at g4
      exact absurd (hmem g4) ha
  · have hm := List.mem_map_of_mem (f := declName) hd
    rw [hnames, heq, List.mem_cons, List.mem_append, List.mem_append] at hm
    rw [List.map_append, List.mem_append] at hab
    rcases hm with hm | (hm | hm) | hm
    · exact hl hm
    · exact hab (.inl hm)
    · obtain ⟨S, g1, g2⟩ := List.mem_map.1 hm
      exact hno S g1 g2
    · exact hab (.inr hm)

/-! ### Examples -/

/-- A function `void qstr(void)`. -/
def qstrFunction : List Decl := [.funcProto 0 [], .func (str "qstr") 2]

theorem qstrFunction_good : ∀ d ∈ qstrFunction, Good d ∧ declName d ≠ str "list_head" := by
  have h1 := header_spelled.1
  have h10 := header_spelled.2.2.2.2.2.2.2.2.2
  simp [qstrFunction, Good, declName, h1, h10]

/-- A function with the name before `struct qstr`: the struct is found. -/
example : ∃ ti t, TypeInformation.new Samples.dbg
      (Samples.buffer (encode .little (amongProgram 8 qstrFunction [qstrType] []))) = .ok ti ∧
    ti.idOf (str "qstr") = some t ∧ ∀ r, SizeOf Samples.dbg ti t r ↔ r = .ok 16 := by
  obtain ⟨ti, g1, -, -, -, g2⟩ := c_among (cfg := Samples.dbg) (e := .little) 8 (by decide) qstrFunction [] [qstrType]
    qstr_proper qstr_one (by simpa using qstrFunction_good) (.inl rfl) (by decide +kernel) (Examples.serves _ (by decide +kernel))
    (Examples.fits _)
  obtain ⟨t, k1, ⟨k2, -⟩, -⟩ := (g2 "qstr" qstr_ident (by decide +kernel)).2.1 (by simp) qstrType qstr_part rfl
  exact ⟨ti, t, g1, k1, k2⟩

/-- The function after the struct: the function is found. -/
example : ∃ ti t, TypeInformation.new Samples.dbg
      (Samples.buffer (encode .big (amongProgram 8 [] [qstrType] qstrFunction))) = .ok ti ∧
    ti.idOf (str "qstr") = some t ∧ ∀ r, SizeOf Samples.dbg ti t r ↔ r = .err .NotSized := by
  obtain ⟨ti, g1, -, -, g3, g2⟩ := c_among (cfg := Samples.dbg) (e := .big) 8 (by decide) [] qstrFunction [qstrType]
    qstr_proper qstr_one (by simpa using qstrFunction_good) (.inr (by simp [qstrFunction, Decl.isEnum64])) (by decide +kernel)
    (Examples.serves _ (by decide +kernel)) (Examples.fits _)
  obtain ⟨i, ⟨⟨d, k1, k2⟩, -⟩, k3⟩ := (g2 "qstr" qstr_ident (by decide +kernel)).1 (by simp [qstrFunction, declName])
  have hi : i = 1 := by
    rcases i with _ | _ | i
    · simp only [qstrFunction, List.getElem?_cons_zero, Option.some.injEq] at k1
      subst k1
      rw [header_spelled.1] at k2
      simp [declName] at k2
    · rfl
    · simp [qstrFunction] at k1
  subst hi
  obtain ⟨v, k4, k5⟩ := g3 1 (by simp [qstrFunction])
  cases v <;> first | exact k5.elim | skip
  have hret := (size_of_not_sized_iff Samples.dbg ti _).2 ⟨_, _, .refl, k4, trivial⟩
  exact ⟨ti, _, g1, k3, fun r => ⟨fun h => (sizeOf_mono Samples.dbg ti _).returns_unique h hret, fun h => h ▸ hret⟩⟩

end Btf.Props

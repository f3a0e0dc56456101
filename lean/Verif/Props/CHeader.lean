import Verif.Spec.CHeader
import Verif.Props.CTypes

/-!
# C112: header files
-/

namespace Btf.Props

open Btf Spec CTypes TypeInformation

/-- What one can expect of an id that stands for the type: the answers of `size_of` and `offset_of` are those of `sizeof` and
`offsetof`, and the id in the answer has the right size again, and `pointee_tid` gives the target if it is a pointer; a text that is
not a path gives `InvalidTypePath`. -/
def AnswersFor (cfg : Cfg) (ti : TypeInformation) (p : Nat) (t : UInt32) (T : CType) : Prop :=
  (∀ r, SizeOf cfg ti t r ↔ r = .ok (T.size p)) ∧
  (∀ (s : String) (cs : List PathComponent), AcceptedPath cfg.usizeMod (str s) cs →
    (∀ x, T.reach p cs = some x → ∃ u o, (∀ r, OffsetOf cfg ti t (str s) r ↔ r = .ok (u, o)) ∧
      bitPos o = x.bits ∧ (bitWidth o).map UInt32.toNat = x.width ∧ (∀ r, SizeOf cfg ti u r ↔ r = .ok (x.type.size p)) ∧
      ∀ r, PointeeOf ti u r ↔ r = x.type.target.elim (.err .InvalidTypeID) .ok) ∧
    (T.reach p cs = none → ∀ r, OffsetOf cfg ti t (str s) r ↔ r = .err .InvalidTypePath)) ∧
  (∀ s : String, (∀ cs, ¬ AcceptedPath cfg.usizeMod (str s) cs) → ∀ r, OffsetOf cfg ti t (str s) r ↔ r = .err .InvalidTypePath) ∧
  ∀ r, PointeeOf ti t r ↔ r = T.target.elim (.err .InvalidTypeID) .ok

mutual
theorem declare_names : ∀ (T : CType) (k : Nat), (T.declare k).map declName = T.parts.map CType.label
  | .scalar s, k => rfl
  | .pointer _, k => rfl
  | .array n T, k => by
    rw [CType.declare, CType.parts, List.map_append, List.map_append, declare_names T k]
    rfl
  | .record u tag s ms, k => by
    rw [CType.declare, CType.parts, List.map_append, List.map_append, declareMembers_names ms k]
    cases u <;> rfl
  | .renamed how T, k => by
    rw [CType.declare, CType.parts, List.map_append, List.map_append, declare_names T k]
    cases how <;> rfl

theorem declareMembers_names : ∀ (ms : CMembers) (k : Nat), (ms.declare k).map declName = ms.parts.map CType.label
  | .nil, k => rfl
  | .cons _ _ _ T rest, k => by
    rw [CMembers.declare, CMembers.parts, List.map_append, List.map_append, declare_names T k, declareMembers_names rest]
end

theorem declareAll_names : ∀ (Ts : List CType) (k : Nat), (declareAll k Ts).map declName = (headerParts Ts).map CType.label
  | [], k => rfl
  | T :: Ts, k => by
    rw [declareAll, List.map_append, declare_names, declareAll_names Ts, show headerParts (T :: Ts) = T.parts ++ headerParts Ts from List.flatMap_cons, List.map_append]

theorem cparts_length (T : CType) : T.parts.length = T.count := by
  have := congrArg List.length (declare_names T 0)
  rw [List.length_map, List.length_map, declare_length] at this
  exact this.symm

theorem cpartsMembers_length (ms : CMembers) : ms.parts.length = ms.count := by
  have := congrArg List.length (declareMembers_names ms 0)
  rw [List.length_map, List.length_map, declareMembers_length] at this
  exact this.symm

/-- The ids after `k` stand for these types. -/
def StandFor (ti : TypeInformation) (k : Nat) (Ts : List CType) : Prop :=
  ∀ i (h : i < Ts.length), Represents ti (UInt32.ofNat (k + i + 1)) Ts[i]

theorem standFor_append {ti : TypeInformation} {k : Nat} {as bs : List CType} (ha : StandFor ti k as)
    (hb : StandFor ti (k + as.length) bs) : StandFor ti k (as ++ bs) := by
  intro i h
  rw [List.getElem_append]
  split
  · exact ha i _
  · rename_i hi
    have := hb (i - as.length) (by rw [List.length_append] at h; omega)
    rwa [show k + as.length + (i - as.length) + 1 = k + i + 1 by omega] at this

theorem standFor_one {ti : TypeInformation} {k : Nat} {T : CType} (h : Represents ti (UInt32.ofNat (k + 1)) T) :
    StandFor ti k [T] := by
  intro i hi
  have : i = 0 := by simpa using hi
  subst this
  simpa using h

mutual
theorem stand_declare {ti : TypeInformation} : ∀ (T : CType) (k : Nat), Declared ti k (T.declare k) → StandFor ti k T.parts
  | .scalar s, k, h => standFor_one (declared_represents (.scalar s) k h)
  | .pointer w, k, h => standFor_one (declared_represents (.pointer w) k h)
  | .array n T, k, h => by
    have h0 := declared_represents (.array n T) k h
    rw [CType.count, ← cparts_length, ← Nat.add_assoc] at h0
    rw [CType.declare] at h
    rw [CType.parts]
    exact standFor_append (stand_declare T k (declared_left h)) (standFor_one h0)
  | .record u tag s ms, k, h => by
    have h0 := declared_represents (.record u tag s ms) k h
    rw [CType.count, ← cpartsMembers_length, ← Nat.add_assoc] at h0
    rw [CType.declare] at h
    rw [CType.parts]
    exact standFor_append (stand_members ms k (declared_left h)) (standFor_one h0)
  | .renamed how T, k, h => by
    have h0 := declared_represents (.renamed how T) k h
    rw [CType.count, ← cparts_length, ← Nat.add_assoc] at h0
    rw [CType.declare] at h
    rw [CType.parts]
    exact standFor_append (stand_declare T k (declared_left h)) (standFor_one h0)

theorem stand_members {ti : TypeInformation} : ∀ (ms : CMembers) (k : Nat), Declared ti k (ms.declare k) → StandFor ti k ms.parts
  | .nil, k, h => fun i hi => by simp [CMembers.parts] at hi
  | .cons _ _ _ T rest, k, h => by
    rw [CMembers.declare] at h
    rw [CMembers.parts]
    refine standFor_append (stand_declare T k (declared_left h)) (stand_members rest _ ?_)
    have := declared_right h
    rwa [declare_length, ← cparts_length] at this
end

theorem stand_all {ti : TypeInformation} : ∀ (Ts : List CType) (k : Nat), Declared ti k (declareAll k Ts) →
    StandFor ti k (headerParts Ts)
  | [], k, h => fun i hi => by simp [headerParts] at hi
  | T :: Ts, k, h => by
    rw [declareAll] at h
    rw [headerParts, List.flatMap_cons]
    refine standFor_append (stand_declare T k (declared_left h)) (stand_all Ts _ ?_)
    have := declared_right h
    rwa [declare_length, ← cparts_length] at this

mutual
theorem parts_proper {p : Nat} : ∀ (T : CType), T.Proper p → ∀ S ∈ T.parts, S.Proper p
  | .scalar s, h, S, hS => by
    rw [CType.parts, List.mem_singleton] at hS
    exact hS ▸ h
  | .pointer _, h, S, hS => by
    rw [CType.parts, List.mem_singleton] at hS
    exact hS ▸ h
  | .array n T, h, S, hS => by
    rw [CType.parts, List.mem_append, List.mem_singleton] at hS
    rcases hS with hS | rfl
    · rw [CType.Proper] at h
      exact parts_proper T h.1 S hS
    · exact h
  | .record u tag s ms, h, S, hS => by
    rw [CType.parts, List.mem_append, List.mem_singleton] at hS
    rcases hS with hS | rfl
    · rw [CType.Proper] at h
      exact partsMembers_proper ms h.2.1 S hS
    · exact h
  | .renamed how T, h, S, hS => by
    rw [CType.parts, List.mem_append, List.mem_singleton] at hS
    rcases hS with hS | rfl
    · rw [CType.Proper] at h
      exact parts_proper T h S hS
    · exact h

theorem partsMembers_proper {p size : Nat} : ∀ (ms : CMembers), ms.Proper p size → ∀ S ∈ ms.parts, S.Proper p
  | .nil, h, S, hS => by simp [CMembers.parts] at hS
  | .cons _ _ _ T rest, h, S, hS => by
    rw [proper_cons] at h
    rw [CMembers.parts, List.mem_append] at hS
    rcases hS with hS | hS
    · exact parts_proper T h.1 S hS
    · exact partsMembers_proper rest h.2.1 S hS
end

theorem core_size (p : Nat) : ∀ T : CType, T.core.size p = T.size p
  | .scalar _ => rfl
  | .pointer _ => rfl
  | .array _ _ => rfl
  | .record _ _ _ _ => rfl
  | .renamed _ T => by rw [CType.core, CType.size, core_size p T]

theorem core_reach (p : Nat) (c : PathComponent) (cs : List PathComponent) :
    ∀ T : CType, T.core.reach p (c :: cs) = T.reach p (c :: cs)
  | .scalar _ => rfl
  | .pointer _ => rfl
  | .array _ _ => rfl
  | .record _ _ _ _ => rfl
  | .renamed _ T => by rw [CType.core, CType.reach, core_reach p c cs T]

theorem declareAll_good {p : Nat} : ∀ (Ts : List CType) (k : Nat), (∀ T ∈ Ts, T.Proper p ∧ T.Recordable) →
    ∀ d ∈ declareAll k Ts, Good d ∧ d.isEnum64 = false ∧ declName d ≠ str "list_head"
  | [], k, _, d, hd => by simp [declareAll] at hd
  | T :: Ts, k, h, d, hd => by
    rw [declareAll, List.mem_append] at hd
    rcases hd with hd | hd
    · exact declare_good T k (h T (by simp)).1 (h T (by simp)).2 d hd
    · exact declareAll_good Ts _ (fun T hT => h T (by simp [hT])) d hd

theorem headerProgram_good {p : Nat} {Ts : List CType} (h : ∀ T ∈ Ts, T.Proper p ∧ T.Recordable) :
    ∀ d ∈ headerProgram p Ts, Good d ∧ d.isEnum64 = false := by
  intro d hd
  rw [headerProgram] at hd
  rcases List.mem_cons.1 hd with rfl | hd
  · exact ⟨⟨by decide, by decide, by simp⟩, rfl⟩
  · exact ⟨(declareAll_good Ts 1 h d hd).1, (declareAll_good Ts 1 h d hd).2.1⟩

theorem represents_answers {cfg : Cfg} {ti : TypeInformation} {p : Nat} (hp : PointerSize ti p) {T : CType} (hT : T.Proper p)
    {t : UInt32} (hr : Represents ti t T) : AnswersFor cfg ti p t T := by
  refine ⟨c_size_of cfg ti p hp T hT _ hr, fun s cs hs => ?_, c_offset_of_text cfg ti p hp T hT _ hr,
    c_pointee ti T t hr⟩
  obtain ⟨g1, g2⟩ := c_offset_of cfg ti p hp T hT _ hr s cs hs
  refine ⟨fun x hx => ?_, g2⟩
  obtain ⟨u, o, k1, k2, k3, k4⟩ := g1 x hx
  exact ⟨u, o, k1, k3, k4, c_size_of cfg ti p hp x.type (reach_proper T cs x hT hx) u k2, c_pointee ti x.type u k2⟩

theorem reach_nil (p : Nat) (T : CType) : T.reach p [] = some ⟨T, 0, none⟩ := by cases T <;> rfl

theorem core_target : ∀ T : CType, T.core.target = T.target
  | .scalar _ => rfl
  | .pointer _ => rfl
  | .array _ _ => rfl
  | .record _ _ _ _ => rfl
  | .renamed _ T => by rw [CType.core, CType.target, core_target T]

/-- The answers depend on the core only. -/
theorem answers_core {cfg : Cfg} {ti : TypeInformation} {p : Nat} {t : UInt32} {T T' : CType} (hc : T.core = T'.core)
    (h : AnswersFor cfg ti p t T) : AnswersFor cfg ti p t T' := by
  have hsize : T.size p = T'.size p := by rw [← core_size, hc, core_size]
  have htarget : T.target = T'.target := by rw [← core_target, hc, core_target]
  refine ⟨hsize ▸ h.1, fun s cs hs => ?_, h.2.2.1, htarget ▸ h.2.2.2⟩
  obtain ⟨g1, g2⟩ := h.2.1 s cs hs
  cases cs with
  | cons c cs =>
    have hreach : T.reach p (c :: cs) = T'.reach p (c :: cs) := by rw [← core_reach, hc, core_reach]
    rw [← hreach]
    exact ⟨g1, g2⟩
  | nil =>
    rw [reach_nil]
    refine ⟨?_, by simp⟩
    rintro x ⟨⟩
    obtain ⟨u, o, k1, k2, k3, k4⟩ := g1 _ (reach_nil p T)
    exact ⟨u, o, k1, k2, k3, hsize ▸ k4.1, htarget ▸ k4.2⟩

/-- There is a last one. -/
theorem last_such {n : Nat} {P : Nat → Prop} (h : ∃ i, i < n ∧ P i) : ∃ i, i < n ∧ P i ∧ ∀ j, j < n → i < j → ¬ P j := by
  classical
  induction n with
  | zero => obtain ⟨i, hi, -⟩ := h; omega
  | succ n ih =>
    by_cases hn : P n
    · exact ⟨n, by omega, hn, fun j hj hlt => by omega⟩
    · obtain ⟨i, hi, hP⟩ := h
      have hi' : i < n := by
        rcases Nat.lt_or_ge i n with h | h
        · exact h
        · exact absurd (by rwa [show i = n by omega] at hP) hn
      obtain ⟨j, hj, hPj, hlast⟩ := ih ⟨i, hi', hP⟩
      refine ⟨j, by omega, hPj, fun m hm hlt => ?_⟩
      rcases Nat.lt_or_ge m n with h | h
      · exact hlast m h hlt
      · rw [show m = n by omega]
        exact hn

/-- In a file that is read as declared, the types have the ids from 2 on, and a name has the id of the last type with the name. -/
theorem c_read_ids {ti : TypeInformation} {vs : List TypeVariant} (p : Nat) (hp : p < 2 ^ 29) (Ts : List CType)
    (hT : ∀ T ∈ Ts, T.Proper p ∧ T.Recordable) (hh : Holds ti vs)
    (hs : List.Forall₂ Says (headerProgram p Ts) vs) (hlen : (headerProgram p Ts).length < 2 ^ 32 - 1) :
    PointerSize ti p ∧ StandFor ti 1 (headerParts Ts) ∧
      (∀ S ∈ headerParts Ts, ∀ name : String, S.label = str name → Ident name → str name ≠ str "void" →
        ∃ i, ∃ h : i < (headerParts Ts).length, ti.idOf (str name) = some (UInt32.ofNat (i + 1 + 1)) ∧
          (headerParts Ts)[i].label = str name) ∧
      ∀ name : String, Ident name → str name ≠ str "void" → str name ≠ str "list_head" →
        (∀ S ∈ headerParts Ts, S.label ≠ str name) → ti.idOf (str name) = none := by
  obtain ⟨h4, h5⟩ := declared_id_of hh hs hlen
  have h3 : ∀ i (h : i < (headerProgram p Ts).length), ∃ v, ti.fromId (UInt32.ofNat (i + 1)) = some v ∧ Says (headerProgram p Ts)[i] v ∧
      True := by
    intro i hi
    have hl := hs.length_eq
    have hi' : (UInt32.ofNat (i + 1)).toNat = i + 1 := UInt32.toNat_ofNat_of_lt' (by rw [UInt32.size]; omega)
    refine ⟨vs[i]'(hl ▸ hi), ?_, (List.forall₂_iff_get.1 hs).2 i hi (hl ▸ hi), trivial⟩
    rw [hh.fromId, hi', typeAt]
    simp
  have hlen' : (headerProgram p Ts).length = (headerParts Ts).length + 1 := by
    have := congrArg List.length (declareAll_names Ts 1)
    rw [List.length_map, List.length_map] at this
    rw [headerProgram, List.length_cons, this]
  have hname : ∀ i (h : i < (headerParts Ts).length),
      declName ((headerProgram p Ts)[i + 1]'(by omega)) = (headerParts Ts)[i].label := by
    intro i h
    have hl : (declareAll 1 Ts).length = (headerParts Ts).length := by
      have := congrArg List.length (declareAll_names Ts 1)
      rwa [List.length_map, List.length_map] at this
    have h6 : ((declareAll 1 Ts).map declName)[i]'(by simpa [hl] using h) = ((headerParts Ts).map CType.label)[i]'(by simpa using h) := by
      simp only [declareAll_names]
    simpa [headerProgram] using h6
  have hptr : PointerSize ti p := by
    obtain ⟨v, hv, hsays, -⟩ := h3 0 (by omega)
    have hid := h4 0 (by omega) "list_head" list_head_name (by decide) rfl ?_
    · cases v <;> first | exact hsays.elim | skip
      rename_i hd d
      refine ⟨_, hd, d, hid, hv, ?_⟩
      rw [show d.size = (UInt32.ofNat (2 * p)).toNat from hsays.2.1, UInt32.toNat_ofNat_of_lt' (by simp [UInt32.size]; omega)]
      omega
    · intro j hj hlt
      rcases j with _ | j
      · omega
      · exact (declareAll_good Ts 1 hT _ (List.getElem_mem (by simpa [headerProgram] using hj))).2.2
  have hstand : StandFor ti 1 (headerParts Ts) := by
    refine stand_all Ts 1 fun i hi => ?_
    obtain ⟨v, hv, hsays, -⟩ := h3 (i + 1) (by simpa [headerProgram] using hi)
    exact ⟨v, by rw [Nat.add_comm 1 i]; exact hv, hsays⟩
  refine ⟨hptr, hstand, fun S hS' name hlabel hn hv => ?_, fun name hn hv hl hno => h5 name hn hv fun d hd => ?_⟩
  rotate_left
  · obtain ⟨i, hi, rfl⟩ := List.mem_iff_getElem.1 hd
    rcases i with _ | i
    · exact fun h => hl h.symm
    · rw [hname i (by omega)]
      exact hno _ (List.getElem_mem _)
  obtain ⟨i₀, hi₀, rfl⟩ := List.mem_iff_getElem.1 hS'
  obtain ⟨i, hi, ⟨hi', hlab⟩, hlast⟩ := last_such (n := (headerParts Ts).length)
    (P := fun i => ∃ h : i < (headerParts Ts).length, (headerParts Ts)[i].label = str name) ⟨i₀, hi₀, hi₀, hlabel⟩
  refine ⟨i, hi, ?_, hlab⟩
  refine h4 (i + 1) (by omega) name hn hv (by rw [hname i hi, hlab]) fun j hj hlt heq => ?_
  rcases j with _ | j
  · omega
  · have hj' : j < (headerParts Ts).length := by omega
    rw [hname j hj'] at heq
    exact hlast j hj' (by omega) ⟨hj', heq⟩

/-- The types answer. -/
theorem stand_answers {cfg : Cfg} {ti : TypeInformation} {p : Nat} {Ts : List CType} (hT : ∀ T ∈ Ts, T.Proper p ∧ T.Recordable)
    (hptr : PointerSize ti p) (hstand : StandFor ti 1 (headerParts Ts)) (i : Nat) (hi : i < (headerParts Ts).length) :
    AnswersFor cfg ti p (UInt32.ofNat (i + 1 + 1)) (headerParts Ts)[i] := by
  have hr := hstand i hi
  refine represents_answers hptr ?_ (by rwa [show i + 1 + 1 = 1 + i + 1 by omega])
  obtain ⟨T, hTm, hS2⟩ := List.mem_flatMap.1 (List.getElem_mem hi)
  exact parts_proper T (hT T hTm).1 _ hS2

/-- The same for any file that is read as declared. -/
theorem c_read {cfg : Cfg} {ti : TypeInformation} {vs : List TypeVariant} (p : Nat) (hp : p < 2 ^ 29) (Ts : List CType)
    (hT : ∀ T ∈ Ts, T.Proper p ∧ T.Recordable) (hone : OneMeaning Ts) (hh : Holds ti vs)
    (hs : List.Forall₂ Says (headerProgram p Ts) vs) (hlen : (headerProgram p Ts).length < 2 ^ 32 - 1) :
      (∀ S ∈ headerParts Ts, ∀ name : String, S.label = str name → Ident name → str name ≠ str "void" →
        ∃ t, ti.idOf (str name) = some t ∧ AnswersFor cfg ti p t S) ∧
      ∀ name : String, Ident name → str name ≠ str "void" → str name ≠ str "list_head" →
        (∀ S ∈ headerParts Ts, S.label ≠ str name) → ti.idOf (str name) = none := by
  obtain ⟨h1, h2, h3, h4⟩ := c_read_ids p hp Ts hT hh hs hlen
  refine ⟨fun S hS' name hlabel hn hv => ?_, h4⟩
  obtain ⟨i, hi, hid, hlab⟩ := h3 S hS' name hlabel hn hv
  have hne : str name ≠ [] := by
    intro h0
    have := hn.1
    rw [h0] at this
    cases this
  exact ⟨_, hid, answers_core (hone _ (List.getElem_mem hi) _ hS' (by rw [hlab, hlabel]) (by rw [hlab]; exact hne))
    (stand_answers hT h1 h2 i hi)⟩

/-- C112: the file for a list of C types, in either byte order and for either size of pointers, is accepted. Every typedef and
every struct or union tag in it, at any depth, is found by its name, and for the id found `size_of` and `offset_of` answer what
`sizeof` and `offsetof` give for this type. Other names are not found. -/
theorem c_header {cfg : Cfg} {R : Readable} {e : Endianness} (p : Nat) (hp : p < 2 ^ 29) (Ts : List CType)
    (hT : ∀ T ∈ Ts, T.Proper p ∧ T.Recordable) (hone : OneMeaning Ts)
    (hsize : 24 + 4 * (typeWords (headerProgram p Ts)).length + (stringTable (headerProgram p Ts)).length < 2 ^ 32)
    (hS : Serves cfg R (encode e (headerProgram p Ts))) (ht : FitsTarget cfg (encode e (headerProgram p Ts))) :
    ∃ ti, TypeInformation.new cfg R = .ok ti ∧
      (∀ S ∈ headerParts Ts, ∀ name : String, S.label = str name → Ident name → str name ≠ str "void" →
        ∃ t, ti.idOf (str name) = some t ∧ AnswersFor cfg ti p t S) ∧
      ∀ name : String, Ident name → str name ≠ str "void" → str name ≠ str "list_head" →
        (∀ S ∈ headerParts Ts, S.label ≠ str name) → ti.idOf (str name) = none := by
  have hg := fun d hd => (headerProgram_good hT d hd).1
  have he : e = .little ∨ ∀ d ∈ headerProgram p Ts, d.isEnum64 = false := .inr fun d hd => (headerProgram_good hT d hd).2
  obtain ⟨ti, vs, h1, hh, hs⟩ := round_trip hg hsize he hS ht
  have hlen := decodes_length (encode_decodes hsize e hg)
  rw [List.length_map] at hlen
  obtain ⟨h2, h3⟩ := c_read (cfg := cfg) p hp Ts hT hone hh hs (by omega)
  exact ⟨ti, h1, h2, h3⟩

/-! ### A header file -/

/-- `struct qstr { union { struct { u32 hash; u32 len; }; u64 hash_len; }; char *name; }` -/
def qstrType : CType :=
  .record false (str "qstr") 16
    (.cons [] 0 none (.record true [] 8
      (.cons [] 0 none (.record false [] 8 (.cons (str "hash") 0 none (.scalar 4) (.cons (str "len") 32 none (.scalar 4) .nil)))
        (.cons (str "hash_len") 0 none (.scalar 8) .nil)))
      (.cons (str "name") 64 none (.pointer 0) .nil))

/-- `struct dentry { u32 d_flags; struct dentry *d_parent; struct qstr d_name; }`, with what the kernel has before `d_name`; 18 is its
own number (see `typeNumber` in Spec/CWalk.lean) -/
def dentryType : CType :=
  .record false (str "dentry") 64
    (.cons (str "d_flags") 0 none (.scalar 4) (.cons (str "d_parent") 192 none (.pointer 18) (.cons (str "d_name") 256 none qstrType .nil)))

/-- `struct qstr { .. }; struct dentry { .. }; typedef const struct qstr qstr;` -/
def someHeader : List CType := [qstrType, dentryType, .renamed (.typedef (str "qstr")) (.renamed .const qstrType)]

theorem header_spelled : str "qstr" = [113, 115, 116, 114] ∧ str "dentry" = [100, 101, 110, 116, 114, 121] ∧
    str "hash" = [104, 97, 115, 104] ∧ str "len" = [108, 101, 110] ∧ str "hash_len" = [104, 97, 115, 104, 95, 108, 101, 110] ∧
    str "name" = [110, 97, 109, 101] ∧ str "d_flags" = [100, 95, 102, 108, 97, 103, 115] ∧
    str "d_parent" = [100, 95, 112, 97, 114, 101, 110, 116] ∧ str "d_name" = [100, 95, 110, 97, 109, 101] ∧
    str "list_head" = [108, 105, 115, 116, 95, 104, 101, 97, 100] := by decide +kernel

theorem someHeader_proper : ∀ T ∈ someHeader, T.Proper 8 ∧ T.Recordable := by
  obtain ⟨h1, h2, h3, h4, h5, h6, h7, h8, h9, h10⟩ := header_spelled
  simp [someHeader, qstrType, dentryType, CType.Proper, CMembers.Proper, CMembers.names, CType.names, CType.size, CType.isScalar,
    Nat.dvd_iff_mod_eq_zero, CType.Recordable, CMembers.Recordable, CMembers.fields, hasBitfield, h1, h2, h3, h4, h5, h6, h7, h8, h9, h10]

theorem someHeader_one : OneMeaning someHeader := by
  obtain ⟨h1, h2, -⟩ := header_spelled
  intro S hS S' hS' h hne
  have key : ∀ S ∈ headerParts someHeader,
      S.label = [] ∨ (S.label = str "qstr" ∧ S.core = qstrType) ∨ (S.label = str "dentry" ∧ S.core = dentryType) := by
    simp [someHeader, headerParts, qstrType, dentryType, CType.parts, CMembers.parts, CType.label, CType.core]
  rcases key S hS with h3 | ⟨h3, h4⟩ | ⟨h3, h4⟩
  · exact absurd h3 hne
  · rcases key S' hS' with h5 | ⟨h5, h6⟩ | ⟨h5, h6⟩
    · exact absurd (h.trans h5) hne
    · rw [h4, h6]
    · rw [h3, h5, h1, h2] at h
      simp at h
  · rcases key S' hS' with h5 | ⟨h5, h6⟩ | ⟨h5, h6⟩
    · exact absurd (h.trans h5) hne
    · rw [h3, h5, h1, h2] at h
      simp at h
    · rw [h4, h6]

theorem dentry_ident : Ident "dentry" := by
  refine ⟨?_, by decide +kernel⟩
  rw [header_spelled.2.1]
  exact .mk _ _ (by simp [NameStart, Letter]) fun c hc => (nameByte_iff c).1
    ((by decide +kernel : ∀ c ∈ ([101, 110, 116, 114, 121] : List UInt8), nameByte c = true) c hc)

theorem dentry_part : dentryType ∈ headerParts someHeader := by
  rw [headerParts, List.mem_flatMap]
  exact ⟨dentryType, by simp [someHeader], by simp [dentryType, CType.parts]⟩

/-- The example in the README of the crate: `d_name.len` of `dentry` is at byte 36. -/
example : ∃ ti t u, TypeInformation.new Samples.dbg (Samples.buffer (encode .little (headerProgram 8 someHeader))) = .ok ti ∧
    ti.idOf (str "dentry") = some t ∧ (∀ r, SizeOf Samples.dbg ti t r ↔ r = .ok 64) ∧
    ∀ r, OffsetOf Samples.dbg ti t (str "d_name.len") r ↔ r = .ok (u, .byteOffset 36) := by
  obtain ⟨h1, h2, h3, h4, h5, h6, h7, h8, h9, h10⟩ := header_spelled
  obtain ⟨ti, g1, g2, -⟩ := c_header (cfg := Samples.dbg) (e := .little) 8 (by decide) someHeader someHeader_proper someHeader_one
    (by decide +kernel) (Examples.serves _ (by decide +kernel)) (Examples.fits _)
  obtain ⟨t, g3, g4, g5⟩ := g2 dentryType dentry_part "dentry" rfl dentry_ident (by decide +kernel)
  obtain ⟨u, o, k1, k2, k3, -⟩ := (g5.1 "d_name.len" [.name (str "d_name"), .name (str "len")]
    ((yields_iff Samples.dbg (utf8Like_str _) _).1 (.tok (by rfl) (.tok (by rfl) (.stop rfl))))).1 ⟨.scalar 4, 8 * 36, none⟩ (by
      simp [qstrType, dentryType, CType.reach, CMembers.reach, Found.shift, h3, h4, h5, h6, h7, h8, h9])
  refine ⟨ti, t, u, g1, g3, g4, ?_⟩
  obtain ⟨c, rfl, hc⟩ := byte_offset k2 k3
  have : c = 36 := UInt32.toNat_inj.1 (by
    show c.toNat = 36
    simp only at hc
    omega)
  rw [← this]
  exact k1

end Btf.Props

import Verif.Props.CPrograms
import Verif.Props.CModule
import Verif.Spec.CWalk

/-!
# C116: following pointers
-/

namespace Btf.Props

open Btf Spec CTypes TypeInformation

/-- What a user of the crate does to follow pointers: `offset_of`, then `pointee_tid` for the id it gave, then `offset_of` again. -/
inductive Walk (cfg : Cfg) (ti : TypeInformation) : UInt32 → List String → UInt32 → Prop where
  | stop {t} : Walk cfg ti t [] t
  | step {t u o t₁ t' s ss} : OffsetOf cfg ti t (str s) (.ok (u, o)) → PointeeOf ti u (.ok t₁) → Walk cfg ti t₁ ss t' →
      Walk cfg ti t (s :: ss) t'

variable {cfg : Cfg} {ti : TypeInformation} {p : Nat} {Ts : List CType}

theorem number_answers (hT : ∀ T ∈ Ts, T.Proper p ∧ T.Recordable) (hptr : PointerSize ti p) (hstand : StandFor ti 1 (headerParts Ts))
    {w : UInt32} {S : CType} (h : typeNumber Ts w = some S) : AnswersFor cfg ti p w S := by
  rw [typeNumber] at h
  split at h
  · cases h
  · obtain ⟨hi, rfl⟩ := List.getElem?_eq_some_iff.1 h
    have := stand_answers (cfg := cfg) hT hptr hstand _ hi
    rwa [show w.toNat - 2 + 1 + 1 = w.toNat by omega, UInt32.ofNat_toNat] at this

/-- Ids that do not belong to the header file have no pointers in them. -/
theorem no_pointer {vs : List TypeVariant} (hh : Holds ti vs) (hs : List.Forall₂ Says (headerProgram p Ts) vs)
    {w : UInt32} (h : typeNumber Ts w = none) {s : String} {u t₁ : UInt32} {o : Offset}
    (h1 : OffsetOf cfg ti w (str s) (.ok (u, o))) (h2 : PointeeOf ti u (.ok t₁)) : False := by
  have hl := hs.length_eq
  have hlen' : (headerProgram p Ts).length = (headerParts Ts).length + 1 := by
    have := congrArg List.length (declareAll_names Ts 1)
    rw [List.length_map, List.length_map] at this
    rw [headerProgram, List.length_cons, this]
  have hv : ti.fromId w = none ∨ ∃ v, ti.fromId w = some v ∧ aliasOf v = none ∧ accessAlias v = none ∧ ¬ IsPtr v ∧
      (∀ i, Closed v (.index i)) ∧ (membersOf v = none ∨ membersOf v = some []) := by
    rw [hh.fromId, typeAt]
    rw [typeNumber] at h
    split at h
    · rename_i hw
      obtain hw | hw : w.toNat = 0 ∨ w.toNat = 1 := by omega
      · rw [hw]
        exact .inr ⟨.void, rfl, rfl, rfl, by simp [IsPtr], by simp [Closed], .inl rfl⟩
      · rw [hw]
        cases hs with
        | @cons d v ds vs hd _ =>
          cases v <;> first | exact hd.elim | skip
          rename_i hd' d'
          refine .inr ⟨_, rfl, rfl, rfl, by simp [IsPtr], by simp [Closed], .inr ?_⟩
          have := hd.2.2
          simp only [membersOf]
          cases hm : d'.memberList with
          | nil => rfl
          | cons a l => rw [hm] at this; cases this
    · left
      rw [List.getElem?_eq_none_iff] at h ⊢
      rw [List.length_cons, ← hl, hlen']
      omega
  obtain ⟨cs, hcs⟩ := offset_of_consumes cfg ti w s _ h1
  have hsearch := (offset_of_search cfg ti w s cs hcs _).1 h1
  cases cs with
  | nil =>
    cases hsearch
    have hbad : PointeeOf ti w (.err .InvalidTypeID) := by
      refine (pointee_tid_err_iff ti w _).2 ⟨rfl, w, .refl, fun v hv' => ?_⟩
      rcases hv with hv | ⟨v', hv, h3, -, h4, -⟩
      · rw [hv] at hv'; cases hv'
      · rw [hv] at hv'; cases hv'; exact ⟨h3, h4⟩
    cases (pointeeTid_mono ti w).returns_unique h2 hbad
  | cons c cs =>
    have hbad : ∃ e, Search cfg ti true w (.byteOffset 0) (c :: cs) (.err e) := by
      rcases hv with hv | ⟨v, hv, h3, h3', h4, h5, h6⟩
      · exact ⟨_, .missing .refl hv⟩
      · have hres : Resolves ti w v := resolves_self hv h3'
        cases c with
        | index i => exact ⟨_, .closed hres (h5 i)⟩
        | name x =>
          rcases h6 with h6 | h6
          · exact ⟨_, .closed hres h6⟩
          · exact ⟨_, .notFound (fun _ => .byteOffset 0) (fun _ => .InvalidTypePath) hres h6 (by simp) (by simp) (by simp)⟩
    obtain ⟨e, he⟩ := hbad
    cases search_determined cfg ti true w _ _ _ _ hsearch he

/-- C116: in every file that is read as the header file, what can be reached through pointers is exactly what C says. -/
theorem walk_read {vs : List TypeVariant} (hT : ∀ T ∈ Ts, T.Proper p ∧ T.Recordable) (hptr : PointerSize ti p)
    (hstand : StandFor ti 1 (headerParts Ts)) (hh : Holds ti vs) (hs : List.Forall₂ Says (headerProgram p Ts) vs)
    (ss : List String) : ∀ w w' : UInt32, Walk cfg ti w ss w' ↔
      ∃ css, List.Forall₂ (fun s cs => AcceptedPath cfg.usizeMod (str s) cs) ss css ∧ CWalk p Ts w css w' := by
  induction ss with
  | nil =>
    intro w w'
    constructor
    · intro h
      cases h
      exact ⟨[], .nil, .stop⟩
    · rintro ⟨css, h1, h2⟩
      cases h1
      cases h2
      exact .stop
  | cons s ss ih =>
    intro w w'
    constructor
    · intro h
      cases h with
      | @step _ u o w₁ _ _ _ h1 h2 h3 =>
        cases hw : typeNumber Ts w with
        | none => exact (no_pointer hh hs hw h1 h2).elim
        | some S =>
          obtain ⟨-, g, -, -⟩ := number_answers (cfg := cfg) hT hptr hstand hw
          obtain ⟨cs, hcs⟩ := offset_of_consumes cfg ti w s _ h1
          obtain ⟨g1, g2⟩ := g s cs hcs
          obtain ⟨css, k1, k2⟩ := (ih w₁ w').1 h3
          cases hx : S.reach p cs with
          | none => cases (g2 hx _).1 h1
          | some x =>
            obtain ⟨u', o', m1, -, -, -, m2⟩ := g1 x hx
            cases (m1 _).1 h1
            refine ⟨cs :: css, .cons hcs k1, .step hw hx ?_ k2⟩
            have := (m2 _).1 h2
            cases ht : x.type.target with
            | none => rw [ht] at this; cases this
            | some w₂ => rw [ht] at this; cases this; rfl
    · rintro ⟨css, h1, h2⟩
      cases h1 with
      | @cons _ cs _ css hcs h1 =>
        cases h2 with
        | @step _ w₁ _ S x _ _ hw hx ht h2 =>
          obtain ⟨-, g, -, -⟩ := number_answers (cfg := cfg) hT hptr hstand hw
          obtain ⟨u, o, m1, -, -, -, m2⟩ := (g s cs hcs).1 x hx
          exact .step ((m1 _).2 rfl) ((m2 _).2 (by rw [ht]; rfl)) ((ih w₁ w').2 ⟨css, h1, h2⟩)

/-- A walk has one end. -/
theorem walk_unique {t t' t'' : UInt32} {ss : List String} (h : Walk cfg ti t ss t') (h' : Walk cfg ti t ss t'') : t' = t'' := by
  induction h with
  | stop => cases h'; rfl
  | step h1 h2 _ ih =>
    cases h' with
    | step k1 k2 k3 =>
      cases offset_of_deterministic cfg ti _ _ _ _ h1 k1
      cases (pointeeTid_mono ti _).returns_unique h2 k2
      exact ih k3

/-- What one can expect of a file with the types of the header: every name of the header stands for a type with that name and
meaning; and if one follows pointers, one gets wherever C gets, and nowhere else; and all answers on the way are those of C. -/
def WalksAsC (cfg : Cfg) (ti : TypeInformation) (p : Nat) (Ts : List CType) : Prop :=
  (∀ S ∈ headerParts Ts, ∀ name : String, S.label = str name → Ident name → str name ≠ str "void" →
    ∃ t S', ti.idOf (str name) = some t ∧ typeNumber Ts t = some S' ∧ S'.label = str name ∧ S'.core = S.core) ∧
  (∀ t ss t', Walk cfg ti t ss t' ↔
    ∃ css, List.Forall₂ (fun s cs => AcceptedPath cfg.usizeMod (str s) cs) ss css ∧ CWalk p Ts t css t') ∧
  ∀ t S, typeNumber Ts t = some S → AnswersFor cfg ti p t S

theorem walks_read {vs : List TypeVariant} (hp : p < 2 ^ 29) (hT : ∀ T ∈ Ts, T.Proper p ∧ T.Recordable) (hone : OneMeaning Ts)
    (hh : Holds ti vs) (hs : List.Forall₂ Says (headerProgram p Ts) vs) (hlen : (headerProgram p Ts).length < 2 ^ 32 - 1) :
    WalksAsC cfg ti p Ts := by
  obtain ⟨hptr, hstand, h3, -⟩ := c_read_ids p hp Ts hT hh hs hlen
  refine ⟨fun S hS' name hlabel hn hv => ?_, fun t ss t' => walk_read hT hptr hstand hh hs ss t t',
    fun t S h => number_answers hT hptr hstand h⟩
  obtain ⟨i, hi, hid, hlab⟩ := h3 S hS' name hlabel hn hv
  have hne : str name ≠ [] := by
    intro h0
    have := hn.1
    rw [h0] at this
    cases this
  have hlen' : (headerProgram p Ts).length = (headerParts Ts).length + 1 := by
    have := congrArg List.length (declareAll_names Ts 1)
    rw [List.length_map, List.length_map] at this
    rw [headerProgram, List.length_cons, this]
  refine ⟨_, (headerParts Ts)[i], hid, ?_, hlab, hone _ (List.getElem_mem hi) _ hS' (by rw [hlab, hlabel]) (by rw [hlab]; exact hne)⟩
  rw [typeNumber, UInt32.toNat_ofNat_of_lt' (by rw [UInt32.size]; omega), if_neg (by omega), show i + 1 + 1 - 2 = i by omega]
  exact List.getElem?_eq_getElem hi

/-- C116: for the file of a header file, in either byte order: every name of the header stands for a type with that name and
meaning; and if one follows pointers from there by `offset_of` and `pointee_tid`, one gets wherever C gets, through any number of
pointers, and nowhere else; and all answers on the way are those of C. -/
theorem c_walk {R : Readable} {e : Endianness} (hp : p < 2 ^ 29)
    (hT : ∀ T ∈ Ts, T.Proper p ∧ T.Recordable) (hone : OneMeaning Ts)
    (hsize : 24 + 4 * (typeWords (headerProgram p Ts)).length + (stringTable (headerProgram p Ts)).length < 2 ^ 32)
    (hS : Serves cfg R (encode e (headerProgram p Ts))) (ht : FitsTarget cfg (encode e (headerProgram p Ts))) :
    ∃ ti, TypeInformation.new cfg R = .ok ti ∧ WalksAsC cfg ti p Ts := by
  have hg := fun d hd => (headerProgram_good hT d hd).1
  have he : e = .little ∨ ∀ d ∈ headerProgram p Ts, d.isEnum64 = false := .inr fun d hd => (headerProgram_good hT d hd).2
  obtain ⟨ti, vs, h1, hh, hs⟩ := round_trip hg hsize he hS ht
  have hlen := decodes_length (encode_decodes hsize e hg)
  rw [List.length_map] at hlen
  exact ⟨ti, h1, walks_read hp hT hone hh hs (by omega)⟩

/-- C116: the same for the file of a kernel and a module (C115): pointers can lead from the types of the module to those of the
kernel. -/
theorem c_module_walk {R : Readable} {e : Endianness} (hp : p < 2 ^ 29) {Us : List CType}
    (hT : ∀ T ∈ Ts ++ Us, T.Proper p ∧ T.Recordable) (hone : OneMeaning (Ts ++ Us)) {kernel own : List Decl}
    (hk : kernel = headerProgram p Ts) (hown : own = declareAll kernel.length Us)
    (hsize : 24 + 4 * ((typeWords kernel).length + (splitWords (stringTable kernel) own).length) +
      ((stringTable kernel).length + (ownTable (stringTable kernel) own).length) < 2 ^ 32)
    (hS : Serves cfg R (merged e kernel own)) (ht : FitsTarget cfg (merged e kernel own)) :
    ∃ ti, TypeInformation.new cfg R = .ok ti ∧ WalksAsC cfg ti p (Ts ++ Us) := by
  obtain ⟨ti, vs, h1, hh, hs, hlen⟩ := module_read p Ts Us hT hk hown hsize hS ht
  exact ⟨ti, h1, walks_read hp hT hone hh hs hlen⟩

/-! ### An example -/

theorem dentry_number (t : UInt32) (S : CType) (h : typeNumber someHeader t = some S) (hl : S.label = str "dentry") :
    t = 18 ∧ S = dentryType := by
  have key : ∀ i < 26, ((headerParts someHeader).map CType.label)[i]? = some (str "dentry") → i = 16 := by decide +kernel
  have hlen : (headerParts someHeader).length = 26 := by decide +kernel
  rw [typeNumber] at h
  split at h
  · cases h
  · have hi := (List.getElem?_eq_some_iff.1 h).1
    have h16 := key (t.toNat - 2) (by omega) (by rw [List.getElem?_map, h, Option.map_some, hl])
    refine ⟨UInt32.toNat_inj.1 (show t.toNat = 18 by omega), ?_⟩
    rw [h16] at h
    exact (Option.some.inj h).symm

/-- The parent of the parent of .. of a `dentry` is a `dentry`, and its name has its length at byte 36. -/
theorem dentry_walks {ti : TypeInformation} (h : WalksAsC Samples.dbg ti 8 someHeader) :
    ∃ t, ti.idOf (str "dentry") = some t ∧
      (∀ n t', Walk Samples.dbg ti t (List.replicate n "d_parent") t' ↔ t' = t) ∧
      ∃ u o, (∀ r, OffsetOf Samples.dbg ti t (str "d_name.len") r ↔ r = .ok (u, o)) ∧ bitPos o = 8 * 36 := by
  obtain ⟨h1, h2, h3, h4, h5, h6, h7, h8, h9, h10⟩ := header_spelled
  obtain ⟨g2, g3, g4⟩ := h
  obtain ⟨t, S', k1, k2, k3, -⟩ := g2 dentryType dentry_part "dentry" rfl dentry_ident (by decide +kernel)
  obtain ⟨rfl, rfl⟩ := dentry_number t S' k2 k3
  refine ⟨18, k1, fun n t' => ?_, ?_⟩
  · have hw : Walk Samples.dbg ti 18 (List.replicate n "d_parent") 18 := by
      refine (g3 _ _ _).2 ⟨List.replicate n [.name (str "d_parent")], ?_, ?_⟩
      · induction n with
        | zero => exact .nil
        | succ n ih =>
          rw [List.replicate_succ, List.replicate_succ]
          exact .cons ((yields_iff Samples.dbg (utf8Like_str _) _).1 (.tok (by rfl) (.stop rfl))) ih
      · induction n with
        | zero => exact .stop
        | succ n ih =>
          rw [List.replicate_succ]
          refine .step (x := ⟨.pointer 18, 8 * 24, none⟩) k2 ?_ rfl ih
          simp [dentryType, CType.reach, CMembers.reach, Found.shift, h7, h8]
    exact ⟨fun h => walk_unique h hw, fun h => h ▸ hw⟩
  · obtain ⟨-, g, -⟩ := g4 18 dentryType k2
    obtain ⟨u, o, m1, m2, -⟩ := (g "d_name.len" [.name (str "d_name"), .name (str "len")]
      ((yields_iff Samples.dbg (utf8Like_str _) _).1 (.tok (by rfl) (.tok (by rfl) (.stop rfl))))).1 ⟨.scalar 4, 8 * 36, none⟩ (by
        simp [qstrType, dentryType, CType.reach, CMembers.reach, Found.shift, h3, h4, h5, h6, h7, h8, h9])
    exact ⟨u, o, m1, m2⟩

/-- `c_walk`: `struct dentry` of `someHeader` points to itself. -/
example : ∃ ti t, TypeInformation.new Samples.dbg (Samples.buffer (encode .little (headerProgram 8 someHeader))) = .ok ti ∧
    ti.idOf (str "dentry") = some t ∧
    (∀ n t', Walk Samples.dbg ti t (List.replicate n "d_parent") t' ↔ t' = t) ∧
    ∃ u o, (∀ r, OffsetOf Samples.dbg ti t (str "d_name.len") r ↔ r = .ok (u, o)) ∧ bitPos o = 8 * 36 := by
  obtain ⟨ti, g1, g2⟩ := c_walk (cfg := Samples.dbg) (e := .little) (p := 8) (by decide) someHeader_proper someHeader_one
    (by decide +kernel) (Examples.serves _ (by decide +kernel)) (Examples.fits _)
  obtain ⟨t, h⟩ := dentry_walks g2
  exact ⟨ti, t, g1, h⟩

/-- `c_module_walk`: `struct qstr` is declared in the kernel, `struct dentry` in the module. -/
example : ∃ ti t, TypeInformation.new Samples.dbg (Samples.buffer (merged .little (headerProgram 8 [qstrType])
      (declareAll 8 [dentryType, .renamed (.typedef (str "qstr")) (.renamed .const qstrType)]))) = .ok ti ∧
    ti.idOf (str "dentry") = some t ∧ ∀ n t', Walk Samples.dbg ti t (List.replicate n "d_parent") t' ↔ t' = t := by
  obtain ⟨ti, g1, g2⟩ := c_module_walk (cfg := Samples.dbg) (e := .little) (p := 8) (by decide) (Ts := [qstrType])
    (Us := [dentryType, .renamed (.typedef (str "qstr")) (.renamed .const qstrType)]) someHeader_proper someHeader_one rfl
    (by rw [show (headerProgram 8 [qstrType]).length = 8 by decide +kernel])
    (by decide +kernel) (Examples.serves _ (by decide +kernel)) (Examples.fits _)
  obtain ⟨t, h, h', -⟩ := dentry_walks g2
  exact ⟨ti, t, g1, h, h'⟩

end Btf.Props

import Verif.Proofs.FileNew
import Verif.Spec.Contents

/-!
# The maps built by `TypeInformation::new`
-/

namespace Btf

open Spec

section
variable {K V : Type} [DecidableEq K] [LT K] [DecidableLT K]

theorem Map.get_insert (m : Map K V) (k : K) (v : V) (k' : K) :
    (m.insert k v).get k' = if k' = k then some v else m.get k' := by
  unfold Map.get Map.insert
  simp only []
  generalize m.toList = l
  induction l with
  | nil => simp only [Map.insertList, Map.getList]
  | cons x l ih =>
    obtain ⟨k1, v1⟩ := x
    unfold Map.insertList
    by_cases h1 : k = k1
    · rw [if_pos h1]
      subst h1
      simp only [Map.getList]
      by_cases h2 : k' = k
      · simp [h2]
      · simp [h2]
    · rw [if_neg h1]
      by_cases h3 : k < k1
      · rw [if_pos h3]; simp only [Map.getList]
      · rw [if_neg h3]
        simp only [Map.getList, ih]
        by_cases h2 : k' = k
        · subst h2; rw [if_neg h1, if_pos rfl, if_pos rfl]
        · simp only [if_neg h2]

end

theorem insertList_append {V : Type} (k : UInt32) (v : V) (l : List (UInt32 × V)) (h : ∀ p ∈ l, p.1 < k) :
    Map.insertList k v l = l ++ [(k, v)] := by
  induction l with
  | nil => rfl
  | cons x l ih =>
    obtain ⟨k1, v1⟩ := x
    have h1 : k1 < k := h (k1, v1) (by simp)
    unfold Map.insertList
    rw [if_neg (fun he => by subst he; exact absurd h1 (UInt32.lt_irrefl _)),
      if_neg (fun he => absurd h1 (UInt32.lt_asymm he)), ih (fun p hp => h p (by simp [hp]))]
    rfl

theorem typeName_eq (v : TypeVariant) : getTypeEnumValueName v = typeName v := by cases v <;> rfl

/-- The invariant of the record loop: `vs` have been registered so far. -/
structure Registered (ti : TypeInformation) (vs : List TypeVariant) : Prop where
  list : ti.idToType.toList = numbered vs
  type : ∀ t : UInt32, ti.idToType.get t = if t = 0 then none else vs[t.toNat - 1]?
  name : ∀ t : UInt32, ti.idToName.get t = if t = 0 then none else vs[t.toNat - 1]?.bind typeName
  id_some : ∀ s t, ti.nameToId.get s = some t → t ≠ 0 ∧ vs[t.toNat - 1]?.bind typeName = some s ∧
    ∀ i : Nat, t.toNat ≤ i → vs[i]?.bind typeName ≠ some s
  id_none : ∀ s, ti.nameToId.get s = none → ∀ i : Nat, vs[i]?.bind typeName ≠ some s

theorem registered_empty : Registered TypeInformation.empty [] where
  list := rfl
  type t := by rw [show TypeInformation.empty.idToType.get t = none from rfl]; simp
  name t := by rw [show TypeInformation.empty.idToName.get t = none from rfl]; simp
  id_some s t h := by rw [show TypeInformation.empty.nameToId.get s = none from rfl] at h; cases h
  id_none s _ i := by simp

theorem numbered_append (vs : List TypeVariant) (v : TypeVariant) :
    numbered (vs ++ [v]) = numbered vs ++ [(UInt32.ofNat (vs.length + 1), v)] := by
  unfold numbered
  rw [List.zipIdx_append, List.map_append]
  simp

theorem numbered_lt {vs : List TypeVariant} (hlen : vs.length + 1 < 2 ^ 32) :
    ∀ p ∈ numbered vs, p.1 < UInt32.ofNat (vs.length + 1) := by
  intro p hp
  unfold numbered at hp
  obtain ⟨q, hq, rfl⟩ := List.mem_map.1 hp
  have hi := List.snd_lt_of_mem_zipIdx hq
  show (UInt32.ofNat (q.2 + 1)).toNat < (UInt32.ofNat (vs.length + 1)).toNat
  rw [ofNat_toNat_lt hlen, ofNat_toNat_lt (by omega)]
  omega

theorem Registered.step {ti : TypeInformation} {vs : List TypeVariant} (h : Registered ti vs) (v : TypeVariant)
    (hlen : vs.length + 1 < 2 ^ 32) : Registered (ti.register (UInt32.ofNat (vs.length + 1)) v) (vs ++ [v]) := by
  have htid : (UInt32.ofNat (vs.length + 1)).toNat = vs.length + 1 := ofNat_toNat_lt hlen
  generalize UInt32.ofNat (vs.length + 1) = tid at htid
  have htid0 : tid ≠ 0 := fun h => by rw [h] at htid; exact absurd htid (by simp)
  have hofNat : UInt32.ofNat (vs.length + 1) = tid := by
    apply UInt32.toNat_inj.1; rw [ofNat_toNat_lt hlen, htid]
  have hlist : (ti.idToType.insert tid v).toList = numbered (vs ++ [v]) := by
    unfold Map.insert
    simp only []
    rw [h.list, numbered_append, insertList_append _ _ _ (by rw [← hofNat]; exact numbered_lt hlen), hofNat]
  have hget : ∀ t : UInt32, t ≠ 0 → (vs ++ [v])[t.toNat - 1]? = if t = tid then some v else vs[t.toNat - 1]? := by
    intro t ht
    have ht0 : t.toNat ≠ 0 := fun h => ht (UInt32.toNat_inj.1 h)
    by_cases he : t = tid
    · subst he
      rw [if_pos rfl, htid, Nat.add_sub_cancel, List.getElem?_append_right (Nat.le_refl _)]
      simp
    · have hne : t.toNat ≠ vs.length + 1 := fun h => he (UInt32.toNat_inj.1 (h.trans htid.symm))
      rw [if_neg he]
      by_cases hlt : t.toNat - 1 < vs.length
      · rw [List.getElem?_append_left hlt]
      · rw [List.getElem?_eq_none (by simp; omega), List.getElem?_eq_none (by omega)]
  have htype : ∀ t : UInt32, (ti.idToType.insert tid v).get t = if t = 0 then none else (vs ++ [v])[t.toNat - 1]? := by
    intro t
    rw [Map.get_insert, h.type]
    by_cases ht : t = 0
    · subst ht; rw [if_neg (fun h => htid0 h.symm)]; simp
    · rw [if_neg ht, if_neg ht, hget t ht]
  have happ : ∀ i, (vs ++ [v])[i]? = if i = vs.length then some v else vs[i]? := by
    intro i
    by_cases hi : i = vs.length
    · subst hi; simp
    · rw [if_neg hi]
      by_cases hlt : i < vs.length
      · rw [List.getElem?_append_left hlt]
      · rw [List.getElem?_eq_none (by simp; omega), List.getElem?_eq_none (by omega)]
  unfold TypeInformation.register
  rw [typeName_eq]
  cases hn : typeName v with
  | none =>
    simp only []
    refine ⟨hlist, htype, ?_, ?_, ?_⟩
    · intro t
      show ti.idToName.get t = _
      rw [h.name]
      by_cases ht : t = 0
      · rw [if_pos ht, if_pos ht]
      · rw [if_neg ht, if_neg ht, hget t ht]
        by_cases he : t = tid
        · subst he
          rw [if_pos rfl, htid, Nat.add_sub_cancel, List.getElem?_eq_none (Nat.le_refl _)]
          exact hn.symm
        · rw [if_neg he]
    · intro s t hs
      obtain ⟨h1, h2, h3⟩ := h.id_some s t hs
      refine ⟨h1, ?_, ?_⟩
      · rw [hget t h1]
        by_cases he : t = tid
        · subst he
          rw [htid, Nat.add_sub_cancel, List.getElem?_eq_none (Nat.le_refl _)] at h2
          cases h2
        · rw [if_neg he]; exact h2
      · intro i hi
        rw [happ i]
        split
        · show typeName v ≠ _; rw [hn]; simp
        · exact h3 i hi
    · intro s hs i
      rw [happ i]
      split
      · show typeName v ≠ _; rw [hn]; simp
      · exact h.id_none s hs i
  | some name =>
    simp only []
    refine ⟨hlist, htype, ?_, ?_, ?_⟩
    · intro t
      show (ti.idToName.insert tid name).get t = _
      rw [Map.get_insert, h.name]
      by_cases ht : t = 0
      · subst ht; rw [if_neg (fun h => htid0 h.symm)]; simp
      · rw [if_neg ht, if_neg ht, hget t ht]
        by_cases he : t = tid
        · rw [if_pos he, if_pos he]; exact hn.symm
        · rw [if_neg he, if_neg he]
    · intro s t hs
      change (ti.nameToId.insert name tid).get s = _ at hs
      rw [Map.get_insert] at hs
      by_cases he : s = name
      · rw [if_pos he] at hs
        cases hs
        subst he
        refine ⟨htid0, ?_, ?_⟩
        · rw [hget _ htid0, if_pos rfl]; exact hn
        · intro i hi
          rw [happ i, if_neg (by omega), List.getElem?_eq_none (by omega)]
          simp
      · rw [if_neg he] at hs
        obtain ⟨h1, h2, h3⟩ := h.id_some s t hs
        refine ⟨h1, ?_, ?_⟩
        · rw [hget t h1]
          by_cases he : t = tid
          · subst he
            rw [htid, Nat.add_sub_cancel, List.getElem?_eq_none (Nat.le_refl _)] at h2
            cases h2
          · rw [if_neg he]; exact h2
        · intro i hi
          rw [happ i]
          split
          · show typeName v ≠ _; rw [hn]; exact fun h => he (Option.some.inj h).symm
          · exact h3 i hi
    · intro s hs i
      change (ti.nameToId.insert name tid).get s = _ at hs
      rw [Map.get_insert] at hs
      by_cases he : s = name
      · rw [if_pos he] at hs; cases hs
      · rw [if_neg he] at hs
        rw [happ i]
        split
        · show typeName v ≠ _; rw [hn]; exact fun h => he (Option.some.inj h).symm
        · exact h.id_none s hs i

theorem registered_build {ti : TypeInformation} {pre vs : List TypeVariant} (h : Registered ti pre)
    (hlen : pre.length + vs.length < 2 ^ 32 - 1) :
    Registered (build (UInt32.ofNat (pre.length + 1)) ti vs) (pre ++ vs) := by
  induction vs generalizing ti pre with
  | nil => simpa [build] using h
  | cons v vs ih =>
    simp only [List.length_cons] at hlen
    have h' := ih (h.step v (by omega)) (by simp; omega)
    rw [List.append_assoc] at h'
    unfold build
    have : UInt32.ofNat (pre.length + 1) + 1 = UInt32.ofNat ((pre ++ [v]).length + 1) := by
      apply UInt32.toNat_inj.1
      rw [u32_succ_toNat (by rw [ofNat_toNat_lt (by omega)]; omega), ofNat_toNat_lt (by omega),
        ofNat_toNat_lt (by simp; omega)]
      simp
    rw [this]
    exact h'

theorem Registered.holds {ti : TypeInformation} {vs : List TypeVariant} (h : Registered ti vs) :
    Holds ti vs := by
  have htype : ∀ t : UInt32, t ≠ 0 → typeAt vs t.toNat = vs[t.toNat - 1]? := by
    intro t ht
    have ht0 : t.toNat ≠ 0 := fun h => ht (UInt32.toNat_inj.1 h)
    unfold typeAt
    obtain ⟨n, hn⟩ := Nat.exists_eq_succ_of_ne_zero ht0
    rw [hn]; rfl
  have hidx : ∀ u, u ≠ 0 → typeAt vs u = vs[u - 1]? := by
    intro u hu
    obtain ⟨n, rfl⟩ := Nat.exists_eq_succ_of_ne_zero hu
    rfl
  refine ⟨h.list, ?_, ?_, ?_, ?_, ?_⟩
  · intro t
    unfold TypeInformation.fromId
    by_cases ht : t = 0
    · subst ht; rfl
    · rw [if_neg ht, h.type, if_neg ht, htype t ht]
  · intro t
    unfold TypeInformation.nameOf
    by_cases ht : t = 0
    · subst ht; rfl
    · rw [if_neg ht, h.name, if_neg ht, htype t ht]
  · intro s t hs
    unfold TypeInformation.idOf
    rw [if_neg hs]
    constructor
    · intro ht
      obtain ⟨h1, h2, h3⟩ := h.id_some s t ht
      refine ⟨by rw [htype t h1]; exact h2, fun u hu => ?_⟩
      rw [hidx u (by omega)]
      exact h3 (u - 1) (by omega)
    · rintro ⟨h1, h2⟩
      have ht0 : t ≠ 0 := by
        rintro rfl
        exact hs (Option.some.inj h1).symm
      have htn : t.toNat ≠ 0 := fun h => ht0 (UInt32.toNat_inj.1 h)
      cases hg : ti.nameToId.get s with
      | none =>
        rw [htype t ht0] at h1
        exact absurd h1 (h.id_none s hg _)
      | some t' =>
        obtain ⟨h1', h2', h3'⟩ := h.id_some s t' hg
        have ht0' : t'.toNat ≠ 0 := fun h => h1' (UInt32.toNat_inj.1 h)
        congr 1
        apply UInt32.toNat_inj.1
        rcases Nat.lt_trichotomy t.toNat t'.toNat with hlt | heq | hlt
        · have := h2 _ hlt
          rw [htype t' h1'] at this
          exact absurd h2' this
        · exact heq.symm
        · have := h3' (t.toNat - 1) (by omega)
          rw [htype t ht0] at h1
          exact absurd h1 this
  · intro s
    unfold TypeInformation.idOf
    by_cases hs : s = str "void"
    · rw [if_pos hs]
      constructor
      · intro h; cases h
      · intro h; exact absurd (by rw [hs]; rfl) (h 0)
    · rw [if_neg hs]
      constructor
      · intro hg u
        by_cases hu : u = 0
        · subst hu
          intro h
          exact hs (Option.some.inj h).symm
        · rw [hidx u hu]; exact h.id_none s hg _
      · intro hall
        cases hg : ti.nameToId.get s with
        | none => rfl
        | some t =>
          obtain ⟨h1, h2, -⟩ := h.id_some s t hg
          have := hall t.toNat
          rw [htype t h1] at this
          exact absurd h2 this
  · unfold TypeInformation.idOf; rw [if_pos rfl]

theorem holds_build {vs : List TypeVariant} (hvs : vs.length < 2 ^ 32 - 1) :
    Holds (build 1 TypeInformation.empty vs) vs := by
  have := registered_build (pre := []) (vs := vs) registered_empty (by simpa using hvs)
  exact this.holds

end Btf

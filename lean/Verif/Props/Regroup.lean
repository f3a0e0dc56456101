import Verif.Spec.Regroup
import Verif.Proofs.Regroup
import Verif.Props.OffsetOf
import Verif.SamplesWF

/-!
# Property C105: the order and the grouping of members do not matter
-/

namespace Btf.Props

open Btf Spec TypeInformation

variable {ti ti' : TypeInformation}

/-- C105: a lookup succeeds with the same result if members are listed in another order, or instead of an unnamed member its
members are listed. -/
theorem offset_of_regroup (h : Regroups ti ti') (hw : WellFormed ti) (hu : Unambiguous ti) (cfg : Cfg) (t : UInt32) (s : String)
    (r : UInt32 × Offset) : OffsetOf cfg ti t (str s) (.ok r) ↔ OffsetOf cfg ti' t (str s) (.ok r) := by
  obtain ⟨u, o⟩ := r
  have hw' := h.wellFormed hw hu
  rw [offset_of_iff cfg ti hw hu]
  constructor
  · rintro ⟨cs, bits, w, hp, hA, hD⟩
    obtain ⟨o', hD', ho⟩ := offset_of_unique cfg ti' hw' t u s cs bits w hp (h.access.1 hA)
      (fun u' bits' w' hA' => let ⟨h1, h2, h3⟩ := access_unique hu hA (h.access.2 hA'); ⟨h1.symm, h2.symm, h3.symm⟩)
    cases bitPos_inj (hD.1.trans hD'.1.symm) (hD.2.trans hD'.2.symm)
    exact (ho _).2 rfl
  · intro hO
    obtain ⟨cs, bits, w, hp, hA, hD⟩ := offset_of_sound_wf cfg ti' hw' t u s o hO
    exact ⟨cs, bits, w, hp, h.access.2 hA, hD⟩

/-- On a well-formed graph `offset_of` succeeds or fails. -/
theorem offset_of_settled (hw : WellFormed ti) (cfg : Cfg) (t : UInt32) (s : String) :
    (∃ r, OffsetOf cfg ti t (str s) (.ok r)) ∨ ∃ e, OffsetOf cfg ti t (str s) (.err e) := by
  obtain ⟨o, ho⟩ := offset_of_terminates_partial cfg ti hw.acyclic t s
  cases o with
  | ok r => exact .inl ⟨r, ho⟩
  | err e => exact .inr ⟨e, ho⟩
  | nofuel => exact absurd rfl ho.1
  | panic =>
    obtain ⟨_, n, hn⟩ := ho
    obtain ⟨cs, b, -, -, he⟩ := offsetOf_cases cfg ti t (utf8Like_str s)
    rw [he] at hn
    exact absurd hn (impl_wf_not_panic hw.toLayout cfg)

/-- C105: and a lookup fails in the same cases. -/
theorem offset_of_regroup_fails (h : Regroups ti ti') (hw : WellFormed ti) (hu : Unambiguous ti) (cfg : Cfg) (t : UInt32)
    (s : String) : (∃ e, OffsetOf cfg ti t (str s) (.err e)) ↔ ∃ e, OffsetOf cfg ti' t (str s) (.err e) := by
  constructor
  · rintro ⟨e, he⟩
    refine (offset_of_settled (h.wellFormed hw hu) cfg t s).resolve_left fun ⟨r, hr⟩ => ?_
    cases offset_of_deterministic cfg ti t s _ _ he ((offset_of_regroup h hw hu cfg t s r).2 hr)
  · rintro ⟨e, he⟩
    refine (offset_of_settled hw cfg t s).resolve_left fun ⟨r, hr⟩ => ?_
    cases offset_of_deterministic cfg ti' t s _ _ he ((offset_of_regroup h hw hu cfg t s r).1 hr)

/-- C105: sizes are the same (on every type graph). -/
theorem size_of_regroup (h : Regroups ti ti') (cfg : Cfg) (t : UInt32) (o : Outcome Nat) :
    SizeOf cfg ti t o ↔ SizeOf cfg ti' t o := by
  simp only [SizeOf, h.sizeOf]

theorem pointee_tid_regroup (h : Regroups ti ti') (t : UInt32) (o : Outcome UInt32) :
    Returns (fun k => pointeeTid ti k t) o ↔ Returns (fun k => pointeeTid ti' k t) o := by
  simp only [h.pointeeTid]

/-! ### The hypotheses can be met -/

/-- The type `outer` of `Samples.zoo`, in which the members of the unnamed union are listed instead of it, from the last to
the first. -/
def openedOuter : TypeVariant :=
  .struct ⟨.Struct, 35, 5, false, 80⟩ ⟨some (str "outer"), 80, [⟨47, some (str "head"), 3, .byteOffset 64⟩,
    ⟨43, some (str "arr"), 5, .byteOffset 24⟩, ⟨33, some (str "b"), 3, .byteOffset 8⟩, ⟨31, some (str "a"), 1, .byteOffset 8⟩,
    ⟨41, some (str "x"), 1, .byteOffset 0⟩]⟩

def opened : TypeInformation :=
  { Samples.zoo with idToType := ⟨Samples.zoo.idToType.toList.map fun p => if p.1 = 7 then (7, openedOuter) else p⟩ }

theorem opened_get (t : UInt32) (ht : t ≠ 7) : opened.fromId t = Samples.zoo.fromId t := by
  unfold TypeInformation.fromId Map.get opened
  split
  · rfl
  · generalize Samples.zoo.idToType.toList = l
    induction l with
    | nil => rfl
    | cons p l ih =>
      obtain ⟨k, v⟩ := p
      simp only [List.map_cons]
      by_cases hk : k = 7
      · subst hk
        simp [Map.getList, ht, ih]
      · simp [Map.getList, hk, ih]

theorem opened_sameMembers : SameMembers Samples.zoo
    [⟨41, some (str "x"), 1, .byteOffset 0⟩, ⟨0, none, 6, .byteOffset 8⟩, ⟨43, some (str "arr"), 5, .byteOffset 24⟩,
      ⟨47, some (str "head"), 3, .byteOffset 64⟩]
    [⟨47, some (str "head"), 3, .byteOffset 64⟩, ⟨43, some (str "arr"), 5, .byteOffset 24⟩,
      ⟨33, some (str "b"), 3, .byteOffset 8⟩, ⟨31, some (str "a"), 1, .byteOffset 8⟩, ⟨41, some (str "x"), 1, .byteOffset 0⟩] := by
  have hun : Unnamed Samples.zoo ⟨0, none, 6, .byteOffset 8⟩
      [⟨31, some (str "a"), 1, .byteOffset 0⟩, ⟨33, some (str "b"), 3, .byteOffset 0⟩] :=
    ⟨rfl, rfl, .union ⟨.Union, 0, 2, false, 16⟩ ⟨none, 16,
      [⟨31, some (str "a"), 1, .byteOffset 0⟩, ⟨33, some (str "b"), 3, .byteOffset 0⟩]⟩,
      ⟨6, .refl, by decide +kernel, rfl⟩, rfl⟩
  have ha : Lifted ⟨0, none, 6, .byteOffset 8⟩ ⟨31, some (str "a"), 1, .byteOffset 0⟩ ⟨31, some (str "a"), 1, .byteOffset 8⟩ :=
    ⟨rfl, rfl, rfl, rfl, rfl⟩
  have hb : Lifted ⟨0, none, 6, .byteOffset 8⟩ ⟨33, some (str "b"), 3, .byteOffset 0⟩ ⟨33, some (str "b"), 3, .byteOffset 8⟩ :=
    ⟨rfl, rfl, rfl, rfl, rfl⟩
  constructor
  · intro m hm
    simp only [List.mem_cons, List.not_mem_nil, or_false] at hm
    rcases hm with rfl | rfl | rfl | rfl
    · left; simp
    · right
      refine ⟨_, hun, fun x hx => ?_⟩
      simp only [List.mem_cons, List.not_mem_nil, or_false] at hx
      rcases hx with rfl | rfl
      · exact ⟨_, by simp, ha⟩
      · exact ⟨_, by simp, hb⟩
    · left; simp
    · left; simp
  · intro m hm
    simp only [List.mem_cons, List.not_mem_nil, or_false] at hm
    rcases hm with rfl | rfl | rfl | rfl | rfl
    · left; simp
    · left; simp
    · exact .inr ⟨_, by simp, _, hun, _, by simp, hb⟩
    · exact .inr ⟨_, by simp, _, hun, _, by simp, ha⟩
    · left; simp

theorem sameMembers_refl (ti : TypeInformation) (ms : List Member) : SameMembers ti ms ms :=
  ⟨fun _ h => .inl h, fun _ h => .inl h⟩

theorem regrouped_refl (ti : TypeInformation) (v : TypeVariant) : Regrouped ti v v := by
  cases v
  case struct h d => exact .struct rfl (sameMembers_refl _ _)
  case union h d => exact .union rfl (sameMembers_refl _ _)
  all_goals exact .same rfl

theorem opened_regroups : Regroups Samples.zoo opened where
  present t v hv := by
    by_cases ht : t = 7
    · subst ht
      refine ⟨openedOuter, by decide +kernel, ?_⟩
      have : Samples.zoo.fromId 7 = some (.struct ⟨.Struct, 35, 4, false, 80⟩ ⟨some (str "outer"), 80,
        [⟨41, some (str "x"), 1, .byteOffset 0⟩, ⟨0, none, 6, .byteOffset 8⟩, ⟨43, some (str "arr"), 5, .byteOffset 24⟩,
          ⟨47, some (str "head"), 3, .byteOffset 64⟩]⟩) := by decide +kernel
      cases this.symm.trans hv
      exact .struct rfl opened_sameMembers
    · exact ⟨v, (opened_get t ht).trans hv, regrouped_refl _ _⟩
  missing t ht := by
    rw [opened_get t (by rintro rfl; revert ht; decide +kernel), ht]
  pointers _ _ _ _ n := by
    have h3 : opened.fromId 3 = Samples.zoo.fromId 3 := opened_get 3 (by decide)
    have hid : opened.idOf (str "list_head") = Samples.zoo.idOf (str "list_head") := rfl
    have hl : Samples.zoo.idOf (str "list_head") = some 3 := by decide +kernel
    unfold PointerSize
    rw [hid, hl]
    constructor <;> rintro ⟨_, h, d, h1, h2, h4⟩ <;> cases h1
    · exact ⟨3, h, d, rfl, h3.trans h2, h4⟩
    · exact ⟨3, h, d, rfl, h3.symm.trans h2, h4⟩

/-- `offset_of_regroup`, `offset_of_regroup_fails`: in `opened`, `b.prev` is found where it is in `Samples.zoo`, and what is
not found there is not found here, in `nest`, too. -/
example : OffsetOf Samples.dbg opened 14 (str "b.prev") (.ok (4, .byteOffset 16)) ∧
    ∃ e, OffsetOf Samples.dbg opened 14 (str "c") (.err e) :=
  ⟨(offset_of_regroup opened_regroups Samples.zoo_wf Samples.zoo_unambiguous _ _ _ _).1 ⟨by simp, 20, by decide +kernel⟩,
   (offset_of_regroup_fails opened_regroups Samples.zoo_wf Samples.zoo_unambiguous _ _ _).1
     ⟨.InvalidTypePath, by simp, 20, by decide +kernel⟩⟩

/-- `size_of_regroup`, `pointee_tid_regroup`. -/
example : SizeOf Samples.dbg opened 14 (.ok 88) ∧ Returns (fun k => pointeeTid opened k 11) (.ok 8) :=
  ⟨(size_of_regroup opened_regroups _ _ _).1 ⟨by simp, 20, by decide +kernel⟩,
   (pointee_tid_regroup opened_regroups _ _).1 ⟨by simp, 20, by decide +kernel⟩⟩

/-- Without distinct names the order matters: of two members called `a`, the first is found. -/
theorem offset_of_order_matters : ∃ ti ti' : TypeInformation, Regroups ti ti' ∧
    OffsetOf Samples.dbg ti 1 (str "a") (.ok (2, .byteOffset 0)) ∧
    OffsetOf Samples.dbg ti' 1 (str "a") (.ok (2, .byteOffset 4)) := by
  let mk (ms : List Member) : TypeInformation :=
    ⟨⟨[(1, .struct ⟨.Struct, 0, 2, false, 8⟩ ⟨none, 8, ms⟩)]⟩, ⟨[]⟩, ⟨[]⟩⟩
  have hmk (ms : List Member) (t : UInt32) : (mk ms).fromId t = if t = 0 then some .void else if t = 1 then
      some (.struct ⟨.Struct, 0, 2, false, 8⟩ ⟨none, 8, ms⟩) else none := by
    simp only [mk, TypeInformation.fromId, Map.get, Map.getList]
  refine ⟨mk [⟨1, some (str "a"), 2, .byteOffset 0⟩, ⟨1, some (str "a"), 2, .byteOffset 4⟩],
    mk [⟨1, some (str "a"), 2, .byteOffset 4⟩, ⟨1, some (str "a"), 2, .byteOffset 0⟩], ⟨?_, ?_, ?_⟩,
    ⟨by simp, 20, by decide +kernel⟩, ⟨by simp, 20, by decide +kernel⟩⟩
  · intro t v hv
    rw [hmk] at hv ⊢
    split at hv
    · rename_i h0; cases hv; rw [if_pos h0]; exact ⟨_, rfl, .same rfl⟩
    · rename_i h0
      split at hv
      · rename_i h1
        cases hv
        rw [if_neg h0, if_pos h1]
        refine ⟨_, rfl, .struct rfl ⟨?_, ?_⟩⟩ <;> intro m hm <;> left <;> revert hm <;> simp <;> tauto
      · cases hv
  · intro t ht
    rw [hmk] at ht ⊢
    split at ht
    · cases ht
    · rename_i h0
      split at ht
      · cases ht
      · rename_i h1; rw [if_neg h0, if_neg h1]
  · intro t v hv hp
    rw [hmk] at hv
    split at hv
    · cases hv; exact hp.elim
    · split at hv <;> cases hv
      exact hp.elim

end Btf.Props

import Verif.Samples
import Verif.Proofs.OffsetWF
import Verif.Spec.Cost

/-!
# The sample type graph `zoo` is well-formed

Used to show that the hypotheses of the theorems about well-formed graphs can be met.
-/

namespace Btf.Samples

open Btf Spec

/-- Every type of a graph, `void` included. -/
def entries (ti : TypeInformation) : List (UInt32 × TypeVariant) := (0, .void) :: ti.idToType.toList

theorem mem_of_getList {K V : Type} [DecidableEq K] {k : K} {v : V} {l : List (K × V)}
    (h : Map.getList k l = some v) : (k, v) ∈ l := by
  induction l with
  | nil => cases h
  | cons e l ih =>
    obtain ⟨k', v'⟩ := e
    rw [Map.getList] at h
    split at h
    · rename_i hk; cases h; rw [hk]; exact List.mem_cons_self ..
    · exact List.mem_cons_of_mem _ (ih h)

theorem mem_entries {ti : TypeInformation} {t : UInt32} {v : TypeVariant} (h : ti.fromId t = some v) :
    (t, v) ∈ entries ti := by
  unfold TypeInformation.fromId at h
  split at h
  · rename_i ht; subst ht; cases h; exact List.mem_cons_self ..
  · exact List.mem_cons_of_mem _ (mem_of_getList h)

/-- A check over all types of `zoo`. -/
theorem zoo_all (p : UInt32 → TypeVariant → Bool) (h : (entries zoo).all (fun e => p e.1 e.2) = true)
    {t : UInt32} {v : TypeVariant} (hv : zoo.fromId t = some v) : p t v = true :=
  List.all_eq_true.1 h _ (mem_entries hv)

/-- The sizes of the types of `zoo` (0 for the unsized ones). -/
def zooSize (t : UInt32) : Nat :=
  ([0, 4, 4, 16, 8, 40, 16, 80, 80, 80, 8, 8, 0, 0, 88, 8, 8][t.toNat]?).getD 0

theorem zooSize_le (t : UInt32) : zooSize t ≤ 88 := by
  unfold zooSize
  by_cases h : t.toNat < 17
  · have : ∀ n < 17, ([0, 4, 4, 16, 8, 40, 16, 80, 80, 80, 8, 8, 0, 0, 88, 8, 8][n]?).getD 0 ≤ 88 := by decide
    exact this _ h
  · rw [List.getElem?_eq_none (by simp; omega)]; decide

theorem zoo_pointer {n : Nat} (h : PointerSize zoo n) : n = 8 := by
  obtain ⟨tid, hd, d, h1, h2, rfl⟩ := h
  have : zoo.idOf (str "list_head") = some 3 := by decide +kernel
  rw [this] at h1; cases h1
  have h3 : zoo.fromId 3 = some (.struct ⟨.Struct, 11, 2, false, 16⟩ ⟨some (str "list_head"), 16,
    [⟨21, some (str "next"), 4, .byteOffset 0⟩, ⟨26, some (str "prev"), 4, .byteOffset 8⟩]⟩) := by decide +kernel
  rw [h3] at h2; cases h2; rfl

theorem zoo_pointer' : PointerSize zoo 8 := by
  refine ⟨3, ⟨.Struct, 11, 2, false, 16⟩, ⟨some (str "list_head"), 16,
    [⟨21, some (str "next"), 4, .byteOffset 0⟩, ⟨26, some (str "prev"), 4, .byteOffset 8⟩]⟩, ?_, ?_, rfl⟩ <;>
  decide +kernel

theorem zoo_size {t : UInt32} {n : Nat} (h : HasSize none zoo t n) : n = zooSize t := by
  induction h with
  | @own t v n hv ho =>
    have := zoo_all (fun t v => ownSize v == none || ownSize v == some (zooSize t)) (by decide +kernel) hv
    rw [ho] at this
    simpa using this
  | @ptr t v n hv hp hn =>
    have := zoo_all (fun t v => match v with | .ptr _ _ => zooSize t == 8 | _ => true) (by decide +kernel) hv
    cases v <;> try exact absurd hp id
    rw [zoo_pointer hn]
    exact (by simpa using this : _ = _).symm
  | @array t hd d n hv _ _ ih =>
    have := zoo_all (fun t v => match v with
      | .array _ d => zooSize t == zooSize d.elementTid * d.elementCount.toNat | _ => true) (by decide +kernel) hv
    rw [ih]
    exact (by simpa using this : _ = _).symm
  | @«alias» t v u n hv hu _ ih =>
    have := zoo_all (fun t v => match sizeAlias v with
      | some u => zooSize t == zooSize u | none => true) (by decide +kernel) hv
    rw [hu] at this
    rw [ih]
    exact (by simpa using this : _ = _).symm

theorem zoo_sized {t : UInt32} (h : t ∈ [1, 3, 4, 5, 6, 7]) : HasSize none zoo t (zooSize t) := by
  simp only [List.mem_cons, List.not_mem_nil, or_false] at h
  rcases h with rfl | rfl | rfl | rfl | rfl | rfl
  · exact .own (v := (zoo.fromId 1).get (by decide +kernel)) (by decide +kernel) (by decide +kernel)
  · exact .own (v := (zoo.fromId 3).get (by decide +kernel)) (by decide +kernel) (by decide +kernel)
  · exact .ptr (v := .ptr ⟨.Ptr, 0, 0, false, 3⟩ ⟨3⟩) (by decide +kernel) trivial zoo_pointer'
  · have h1 : HasSize none zoo 1 4 :=
      .own (v := (zoo.fromId 1).get (by decide +kernel)) (by decide +kernel) (by decide +kernel)
    have h5 : zoo.fromId 5 = some (.array ⟨.Array, 0, 0, false, 0⟩ ⟨1, 1, 10⟩) := by decide +kernel
    exact .array h5 h1 (by simp)
  · exact .own (v := (zoo.fromId 6).get (by decide +kernel)) (by decide +kernel) (by decide +kernel)
  · exact .own (v := (zoo.fromId 7).get (by decide +kernel)) (by decide +kernel) (by decide +kernel)

theorem zoo_depends {t u : UInt32} (h : Depends zoo t u) : u < t := by
  cases h with
  | «alias» hv hu =>
    have := zoo_all (fun t v => match accessAlias v with | some u => u < t | none => true) (by decide +kernel) hv
    rw [hu] at this; simpa using this
  | size hv hu =>
    have := zoo_all (fun t v => match sizeRef v with | some u => u < t | none => true) (by decide +kernel) hv
    rw [hu] at this; simpa using this
  | anonymous hv hm hmem hn =>
    have := zoo_all (fun t v => match membersOf v with
      | some ms => ms.all (fun m => m.name.isSome || decide (m.tid < t)) | none => true) (by decide +kernel) hv
    rw [hm] at this
    have := List.all_eq_true.1 this _ hmem
    rw [hn] at this
    simpa using this

theorem zoo_acyclic : Acyclic zoo := by
  intro t h
  have : ∀ u, Relation.TransGen (Depends zoo) t u → u < t := by
    intro u hu
    induction hu with
    | single h => exact zoo_depends h
    | tail _ h ih => exact UInt32.lt_trans (zoo_depends h) ih
  exact absurd (this t h) (UInt32.lt_irrefl t)

theorem zoo_wf : WellFormed zoo where
  small := fun t n h => by
    have := zoo_size h
    have := zooSize_le t
    omega
  inside := by
    intro t v ms m s hv hm hmem hs
    have h := zoo_all (fun t v => match membersOf v, ownSize v with
      | some ms, some s => ms.all (fun m => match bitWidth m.offset with
        | none => decide (m.tid ∈ ([1, 3, 4, 5, 6, 7] : List UInt32)) && decide (bitPos m.offset + 8 * zooSize m.tid ≤ 8 * s)
        | some w => decide (bitPos m.offset + w.toNat ≤ 8 * s))
      | _, _ => true) (by decide +kernel) hv
    simp only [hm, hs] at h
    have h := List.all_eq_true.1 h _ hmem
    unfold Inside
    cases hb : bitWidth m.offset with
    | none =>
      simp only [hb, Bool.and_eq_true, decide_eq_true_eq] at h
      exact ⟨_, zoo_sized h.1, h.2⟩
    | some w =>
      simp only [hb, decide_eq_true_eq] at h
      exact h
  bitfields := by
    intro t v ms m hv hm hmem hb
    have h := zoo_all (fun t v => match membersOf v with
      | some ms => ms.all (fun m => match bitWidth m.offset with
        | none => true
        | some w => m.name.isSome && decide (m.tid = 1))
      | _ => true) (by decide +kernel) hv
    simp only [hm] at h
    have h := List.all_eq_true.1 h _ hmem
    obtain ⟨w, hw⟩ : ∃ w, bitWidth m.offset = some w := by
      cases ho : bitWidth m.offset with
      | none => exact absurd ho (by simpa [IsBitfield] using hb)
      | some w => exact ⟨w, rfl⟩
    simp only [hw, Bool.and_eq_true, decide_eq_true_eq] at h
    refine ⟨fun hn => by simp [hn] at h, fun u hu => ?_⟩
    rw [h.2] at hu
    have h1 : Resolves zoo 1 (.int ⟨.Int, 1, 0, false, 4⟩ ⟨some (str "int"), 4, true, false, false, 0, 32⟩) :=
      ⟨1, .refl, by decide +kernel, rfl⟩
    rw [resolves_unique hu h1]
    exact id
  acyclic := zoo_acyclic
  distinct := by
    intro t v ms m m' name hv hm hmem hmem' hn hn'
    have h := zoo_all (fun t v => match membersOf v with
      | some ms => ms.all (fun m => ms.all (fun m' => m.name == none || m.name != m'.name || decide (m = m')))
      | _ => true) (by decide +kernel) hv
    simp only [hm] at h
    have h := List.all_eq_true.1 (List.all_eq_true.1 h _ hmem) _ hmem'
    simpa [hn, hn'] using h

/-! ### Names are unambiguous -/

/-- The fields of a struct or union of `zoo`, with their positions. -/
def zooFields : Nat → TypeVariant → List (Str × Member × Nat)
  | 0, _ => []
  | k + 1, v =>
    ((membersOf v).getD []).flatMap fun m =>
      match m.name with
      | some name => [(name, m, bitPos m.offset)]
      | none =>
        match zoo.fromId m.tid with
        | some w => (zooFields k w).map fun e => (e.1, e.2.1, bitPos m.offset + e.2.2)
        | none => []

theorem zoo_field {v : TypeVariant} {name : Str} {m : Member} {bits : Nat} (h : Field zoo v name m bits) :
    ∀ {t}, zoo.fromId t = some v → (name, m, bits) ∈ zooFields 3 v := by
  induction h with
  | @direct v ms m name hm hmem hn =>
    intro t _
    rw [zooFields, hm]
    refine List.mem_flatMap.2 ⟨m, hmem, ?_⟩
    rw [hn]; exact List.mem_singleton.2 rfl
  | @nested v ms a w m name bits hm hmem hn hb hr _ ih =>
    intro t hv
    have h := zoo_all (fun t v => match membersOf v with
      | some ms => ms.all (fun a => match a.name with
        | some _ => true
        | none => match zoo.fromId a.tid with
          | none => false
          | some w => accessAlias w == none &&
              (zooFields 3 w).all (fun e => decide ((e.1, e.2.1, bitPos a.offset + e.2.2) ∈ zooFields 3 v)))
      | none => true) (by decide +kernel) hv
    rw [hm] at h
    have h := List.all_eq_true.1 h _ hmem
    rw [hn] at h
    simp only [] at h
    cases hw : zoo.fromId a.tid with
    | none => rw [hw] at h; cases h
    | some w' =>
      rw [hw] at h
      simp only [Bool.and_eq_true, beq_iff_eq] at h
      have : w = w' := resolves_unique hr ⟨_, .refl, hw, h.1⟩
      subst this
      have := List.all_eq_true.1 h.2 _ (ih hw)
      simpa using this

theorem zoo_unambiguous : Unambiguous zoo := by
  intro t v name m bits m' bits' hv h h'
  have hall := zoo_all (fun t v => (zooFields 3 v).all (fun e => (zooFields 3 v).all (fun e' =>
    e.1 != e'.1 || decide (e.2 = e'.2)))) (by decide +kernel) hv
  have := List.all_eq_true.1 (List.all_eq_true.1 hall _ (zoo_field h hv)) _ (zoo_field h' hv)
  simpa using this

/-! ### Names inside unnamed members are different from the others -/

theorem zoo_offers {v : TypeVariant} {name : Str} (h : Offers zoo v name) :
    ∀ {t}, zoo.fromId t = some v → name ∈ (zooFields 3 v).map Prod.fst := by
  induction h with
  | @direct v ms m name hm hmem hn =>
    intro t hv
    exact List.mem_map.2 ⟨_, zoo_field (.direct hm hmem hn) hv, rfl⟩
  | @nested v ms a w name hm hmem hn hr _ ih =>
    intro t hv
    have h := zoo_all (fun t v => match membersOf v with
      | some ms => ms.all (fun a => match a.name with
        | some _ => true
        | none => match zoo.fromId a.tid with
          | none => false
          | some w => accessAlias w == none &&
              ((zooFields 3 w).map Prod.fst).all (fun e => decide (e ∈ (zooFields 3 v).map Prod.fst)))
      | none => true) (by decide +kernel) hv
    rw [hm] at h
    have h := List.all_eq_true.1 h _ hmem
    rw [hn] at h
    simp only [] at h
    cases hw : zoo.fromId a.tid with
    | none => rw [hw] at h; cases h
    | some w' =>
      rw [hw] at h
      simp only [Bool.and_eq_true, beq_iff_eq] at h
      have : w = w' := resolves_unique hr ⟨_, .refl, hw, h.1⟩
      subst this
      exact of_decide_eq_true (List.all_eq_true.1 h.2 _ (ih hw))

/-- The names found in a member. -/
def zooNames (m : Member) : List Str :=
  match m.name with
  | some name => [name]
  | none => match zoo.fromId m.tid with
    | some w => (zooFields 3 w).map Prod.fst
    | none => []

theorem zoo_memberOffers {t : UInt32} {v : TypeVariant} {ms : List Member} {m : Member} {name : Str}
    (hv : zoo.fromId t = some v) (hm : membersOf v = some ms) (hmem : m ∈ ms) (h : MemberOffers zoo m name) :
    name ∈ zooNames m := by
  unfold zooNames
  rcases h with h | ⟨h, w, hr, ho⟩
  · rw [h]; exact List.mem_singleton.2 rfl
  · have hc := zoo_all (fun t v => match membersOf v with
      | some ms => ms.all (fun a => match a.name with
        | some _ => true
        | none => match zoo.fromId a.tid with
          | none => false
          | some w => accessAlias w == none)
      | none => true) (by decide +kernel) hv
    rw [hm] at hc
    have hc := List.all_eq_true.1 hc _ hmem
    rw [h] at hc ⊢
    simp only [] at hc ⊢
    cases hw : zoo.fromId m.tid with
    | none => rw [hw] at hc; cases hc
    | some w' =>
      rw [hw] at hc
      simp only [beq_iff_eq] at hc
      have : w = w' := resolves_unique hr ⟨_, .refl, hw, hc⟩
      subst this
      exact zoo_offers ho hw

theorem zoo_clear : ClearNames zoo := by
  intro t v ms hv hm
  have h := zoo_all (fun t v => match membersOf v with
    | some ms => decide (ms.Pairwise fun m m' => m.name = none ∨ m'.name = none → ∀ x ∈ zooNames m, x ∉ zooNames m')
    | none => true) (by decide +kernel) hv
  rw [hm] at h
  simp only [decide_eq_true_eq] at h
  exact h.imp_of_mem fun ha hb h hn name ho => h hn name (zoo_memberOffers hv hm ha ho.1) (zoo_memberOffers hv hm hb ho.2)

/-- How many structs and unions the types of `zoo` consist of. -/
def zooWeight (t : UInt32) : Nat := if t = 7 ∨ t = 8 then 2 else if t = 14 then 3 else 1

theorem zooWeight_le (t : UInt32) : zooWeight t ≤ 3 := by unfold zooWeight; split <;> [decide; split <;> decide]

theorem zoo_weighs : Weighs zoo zooWeight := by
  refine ⟨fun t => by unfold zooWeight; split <;> [decide; split <;> decide], fun t v ms hr hm => ?_⟩
  obtain ⟨a, hc, ha, -⟩ := hr
  have h1 : zooWeight a ≤ zooWeight t := by
    clear ha
    induction hc with
    | refl => exact Nat.le_refl _
    | @step t v u w hv hu _ ih =>
      have h := zoo_all (fun t v => match accessAlias v with
        | some u => decide (zooWeight u ≤ zooWeight t) | none => true) (by decide +kernel) hv
      rw [hu] at h
      exact Nat.le_trans ih (of_decide_eq_true h)
  have h := zoo_all (fun t v => match membersOf v with
    | some ms => decide (1 + ((ms.filter fun m => m.name.isNone).map fun m => zooWeight m.tid).sum ≤ zooWeight t)
    | none => true) (by decide +kernel) ha
  rw [hm] at h
  exact Nat.le_trans (of_decide_eq_true h) h1

end Btf.Samples

import Verif.Proofs.Depth
import Verif.Proofs.OffsetApi

/-!
# How deep `offset_of` recurses
-/

namespace Btf

open Spec TypeInformation

theorem absToks_length {cfg : Cfg} {st : PathState} {r : Str} {cs b} (h : AbsToks cfg st r cs b)
    (hst : st ≠ .insideName) : cs.length ≤ r.length := by
  induction h with
  | stop => simp
  | bad => simp
  | tok h _ ih =>
    have := absNext_progress hst h
    have := ih this.2
    simp; omega

/-- There are at most as many components as bytes. -/
theorem yields_length {cfg : Cfg} {p : Str} (hp : Utf8Like p) {cs b} (h : Yields cfg (PathIter.new p) cs b) :
    cs.length ≤ p.length := by
  obtain ⟨cs', b', h'⟩ := absToks_total cfg _ .start p (Nat.le_refl _) (by simp)
  obtain ⟨rfl, rfl⟩ := yields_det h (yields_of_absToks h' _ (pathInv_new hp) rfl (by simp [PathIter.new]))
  exact absToks_length h' (by simp)

section
variable {cfg : Cfg} {ti : TypeInformation} {clean : Bool} {ids : Finset UInt32}

theorem resolve_enough (h : Acyclic ti) (hids : ∀ t u, Depends ti t u → t ∈ ids) (t : UInt32) {n : Nat}
    (hn : ids.card < n) : resolve ti n t ≠ .nofuel := by
  obtain ⟨o, hne, ho⟩ := resolve_settles h t
  have := (resolve_follows ti).depth resolveLeaf_ne_nofuel (by simp) ids
    (fun t u ⟨v, h1, h2⟩ => hids t u (.alias h1 h2)) t o (returns_of_ev hne ho)
  rw [(resolve_mono ti t).le hn (by rw [this]; exact hne), this]
  exact hne

theorem sizeOf_enough (h : Acyclic ti) (hids : ∀ t u, Depends ti t u → t ∈ ids) (t : UInt32) {n : Nat}
    (hn : ids.card < n) : TypeInformation.sizeOf cfg ti n t ≠ .nofuel := by
  obtain ⟨o, hne, ho⟩ := sizeOf_settles cfg h t
  have := (sizeOf_follows cfg ti).depth (sizeLeaf_ne_nofuel ti) (sizePost_ne_nofuel cfg) ids
    (fun t u ⟨v, h1, h2⟩ => hids t u (.size h1 h2)) t o (returns_of_ev hne ho)
  rw [(sizeOf_mono cfg ti t).le hn (by rw [this]; exact hne), this]
  exact hne

theorem bind_enough {α β : Type} {a : Outcome α} {g : α → Outcome β} (ha : a ≠ .nofuel)
    (hg : ∀ x, a = .ok x → g x ≠ .nofuel) : a.bind g ≠ .nofuel := by
  cases a with
  | ok x => exact hg x rfl
  | err e => simp [Res.bind]
  | panic => simp [Res.bind]
  | nofuel => exact absurd rfl ha

theorem okOr_enough {α : Type} (x : Option α) (e : ErrorKind) : okOr x e ≠ .nofuel := by
  cases x <;> simp [okOr]

theorem stepIndex_enough (h : Acyclic ti) (hids : ∀ t u, Depends ti t u → t ∈ ids) (offset : Offset) (v : TypeVariant)
    (i : Nat) {n : Nat} (hn : ids.card < n) : stepIndex cfg ti n offset v i ≠ .nofuel := by
  cases v
  case array hd d =>
    simp only [stepIndex]
    split
    · simp [offsetErr]
    · refine bind_enough (sizeOf_enough h hids _ hn) fun x _ => bind_enough (okOr_enough _ _) fun y _ => ?_
      refine bind_enough ?_ fun z _ => by simp [pure]
      unfold Offset.addU32
      split
      · exact bind_enough (okOr_enough _ _) fun _ _ => by simp [pure]
      · simp
  all_goals simp [stepIndex, offsetErr]

theorem probe_enough {p : Offset → UInt32 → Outcome (UInt32 × Offset)} {offset : Offset} {ms : List Member}
    (h : ∀ m ∈ ms, ∀ start, p start m.tid ≠ .nofuel) : probeAnonymous p offset ms ≠ .nofuel := by
  induction ms with
  | nil => simp [probeAnonymous]
  | cons m rest ih =>
    unfold probeAnonymous
    have ih := ih fun m hm => h m (List.mem_cons_of_mem _ hm)
    have hadd := add_not_nofuel m.offset offset
    cases ha : m.offset.add offset with
    | err e => simp [offsetErr]
    | panic => simp
    | nofuel => exact absurd ha hadd
    | ok start =>
      have := h m (List.mem_cons_self ..) start
      simp only []
      cases hp : p start m.tid with
      | ok r => simp
      | err e => exact ih
      | panic => simp
      | nofuel => exact absurd hp this

/-- The fuel that suffices: for every component the number of ids and two more, and for the anonymous members of the
current one the number of ids not seen yet. -/
theorem impl_enough (h : Acyclic ti) (hids : ∀ t u, Depends ti t u → t ∈ ids) :
    ∀ (n : Nat) (t : UInt32) (offset : Offset) (cs : List PathComponent) (seen : Finset UInt32), seen ⊆ ids →
      (∀ s ∈ seen, Relation.TransGen (Depends ti) s t) → (ids.card + 2) * cs.length + ids.card < seen.card + n →
      impl cfg ti clean n offset t cs ≠ .nofuel := by
  intro n
  induction n with
  | zero =>
    intro t offset cs seen hsub _ hlt
    have := Finset.card_le_card hsub
    omega
  | succ n ih =>
    intro t offset cs seen hsub hseen hlt
    have hcard := Finset.card_le_card hsub
    cases cs with
    | nil => unfold impl; split <;> simp
    | cons c cs =>
      rw [List.length_cons, Nat.mul_add, Nat.mul_one] at hlt
      have hrest : ∀ t offset, impl cfg ti clean n offset t cs ≠ .nofuel := fun t offset =>
        ih t offset cs ∅ (by simp) (by simp) (by simp; omega)
      rw [impl_succ]
      refine bind_enough (resolve_enough h hids t (by omega)) fun v hv => ?_
      obtain ⟨a, hc, ha, -⟩ := resolve_ok_iff.1 ⟨n, hv⟩
      split
      · simp
      · cases c with
        | index i =>
          exact bind_enough (stepIndex_enough h hids _ _ _ (by omega)) fun x _ => hrest _ _
        | name name =>
          simp only []
          cases hm : memberListOf v with
          | none => simp
          | some ms =>
            simp only []
            refine bind_enough (probe_enough fun m hmem start => ?_) ?_
            · rw [List.mem_filter] at hmem
              have hd : Depends ti a m.tid :=
                .anonymous ha (by rw [← memberListOf_eq]; exact hm) hmem.1 (by simpa using hmem.2)
              have hta := chain_depends hc
              have hnot : a ∉ seen := fun hs => h a (Relation.TransGen.trans_left (hseen a hs) hta)
              refine ih m.tid start (.name name :: cs) (insert a seen) ?_ ?_ ?_
              · intro x hx
                rcases Finset.mem_insert.1 hx with rfl | hx
                exacts [hids _ _ hd, hsub hx]
              · intro s hs
                rcases Finset.mem_insert.1 hs with rfl | hs
                · exact .single hd
                · exact (Relation.TransGen.trans_left (hseen s hs) hta).tail hd
              · rw [Finset.card_insert_of_notMem hnot, List.length_cons, Nat.mul_add, Nat.mul_one]; omega
            · intro anon _
              cases anon with
              | some r => simp
              | none =>
                simp only []
                cases ms.find? (fun m => m.name = some name) with
                | none => simp
                | some m => exact bind_enough (add_not_nofuel _ _) fun o _ => hrest _ _

end

end Btf

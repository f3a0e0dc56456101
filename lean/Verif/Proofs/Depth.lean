import Verif.Proofs.Queries
import Mathlib.Data.Finset.Card
import Mathlib.Logic.Relation

/-!
# How deep the queries recurse

`ids` is a finite set that contains every id with a type that refers to another one.
-/

namespace Btf

open Spec TypeInformation

section
variable {α : Type} {ti : TypeInformation} {ref : TypeVariant → Option UInt32}
  {post : TypeVariant → α → Outcome α} {leaf : Option TypeVariant → UInt32 → Outcome α}
  {f : Nat → UInt32 → Outcome α}

theorem refers_unique {t u w : UInt32} (h : Refers ti ref t u) (h' : Refers ti ref t w) : u = w := by
  obtain ⟨v, h1, h2⟩ := h
  obtain ⟨v', h3, h4⟩ := h'
  rw [h1] at h3; cases h3
  rw [h2] at h4; cases h4; rfl

theorem transGen_chain {t u : UInt32} (h : Relation.TransGen (Refers ti ref) t u) : Chain ti ref t u := by
  induction h with
  | single h => obtain ⟨v, h1, h2⟩ := h; exact .step h1 h2 .refl
  | tail _ h ih => obtain ⟨v, h1, h2⟩ := h; exact Chain.trans ih (.step h1 h2 .refl)

/-- From a cycle the chain goes round. -/
theorem cycle_chain {t u : UInt32} (hcyc : Relation.TransGen (Refers ti ref) t t) (hc : Chain ti ref t u) :
    Relation.TransGen (Refers ti ref) u u := by
  induction hc with
  | refl => exact hcyc
  | @step t v w u hv hr _ ih =>
    apply ih
    have h1 : Refers ti ref t w := ⟨v, hv, hr⟩
    rcases Relation.TransGen.head'_iff.1 hcyc with ⟨w', h2, h3⟩
    have := refers_unique h1 h2
    subst this
    exact Relation.TransGen.tail' h3 h1

theorem endless_of_cycle {t u : UInt32} (hc : Chain ti ref t u) (hcyc : Relation.TransGen (Refers ti ref) u u) :
    Endless ti ref t := by
  intro w hw
  -- `w` is before or behind `u`
  have key : ∀ {t u w}, Chain ti ref t u → Chain ti ref t w → Chain ti ref u w ∨ Chain ti ref w u := by
    intro t u w h
    induction h with
    | refl => intro h'; exact .inl h'
    | @step t v x u hv hr h ih =>
      intro h'
      cases h' with
      | refl => exact .inr (.step hv hr h)
      | step hv' hr' h'' =>
        rw [hv] at hv'; cases hv'
        rw [hr] at hr'; cases hr'
        exact ih h''
  rcases key hc hw with h | h
  · obtain ⟨y, ⟨v, h1, h2⟩, -⟩ := Relation.TransGen.head'_iff.1 (cycle_chain hcyc h)
    exact ⟨v, y, h1, h2⟩
  · cases h with
    | refl =>
      obtain ⟨y, ⟨v, h1, h2⟩, -⟩ := Relation.TransGen.head'_iff.1 hcyc
      exact ⟨v, y, h1, h2⟩
    | step hv hr _ => exact ⟨_, _, hv, hr⟩

/-- If the fuel does not suffice although it exceeds the number of ids not seen yet, the chain runs into a cycle. -/
theorem Follows.cycle (h : Follows ti ref post leaf f) (hleaf : ∀ o t, leaf o t ≠ .nofuel)
    (hpost : ∀ v a, post v a ≠ .nofuel) (ids : Finset UInt32)
    (hids : ∀ t u, Refers ti ref t u → t ∈ ids) :
    ∀ (n : Nat) (t : UInt32) (seen : Finset UInt32), seen ⊆ ids → ids.card < seen.card + n →
      (∀ s ∈ seen, Relation.TransGen (Refers ti ref) s t) → f n t = .nofuel →
      ∃ u, Chain ti ref t u ∧ Relation.TransGen (Refers ti ref) u u := by
  intro n
  induction n with
  | zero =>
    intro t seen hsub hcard _ _
    have := Finset.card_le_card hsub
    omega
  | succ n ih =>
    intro t seen hsub hcard hseen hf
    rcases goes_on_or_ends ti ref t with ⟨v, u, hv, hu⟩ | hend
    · by_cases ht : t ∈ seen
      · exact ⟨t, .refl, hseen t ht⟩
      · rw [h.next _ _ _ _ hv hu] at hf
        have hfu : f n u = .nofuel := by
          revert hf
          cases f n u with
          | ok a => intro hf; exact absurd hf (hpost _ _)
          | err e => intro hf; cases hf
          | panic => intro hf; cases hf
          | nofuel => intro _; rfl
        have hr : Refers ti ref t u := ⟨v, hv, hu⟩
        obtain ⟨w, hw, hc⟩ := ih u (insert t seen)
          (by intro x hx; rcases Finset.mem_insert.1 hx with rfl | hx; exacts [hids _ _ hr, hsub hx])
          (by rw [Finset.card_insert_of_notMem ht]; omega)
          (by
            intro s hs
            rcases Finset.mem_insert.1 hs with rfl | hs
            · exact .single hr
            · exact (hseen s hs).tail hr) hfu
        exact ⟨w, .step hv hu hw, hc⟩
    · rw [h.last _ _ hend] at hf
      exact absurd hf (hleaf _ _)

/-- A query that returns at all returns with one unit of fuel more than there are ids. -/
theorem Follows.depth (h : Follows ti ref post leaf f) (hleaf : ∀ o t, leaf o t ≠ .nofuel)
    (hpost : ∀ v a, post v a ≠ .nofuel) (ids : Finset UInt32)
    (hids : ∀ t u, Refers ti ref t u → t ∈ ids) (t : UInt32) (o : Outcome α)
    (hr : Returns (fun n => f n t) o) : f (ids.card + 1) t = o := by
  by_cases hn : f (ids.card + 1) t = .nofuel
  · obtain ⟨u, hc, hcyc⟩ := h.cycle hleaf hpost ids hids (ids.card + 1) t ∅ (by simp) (by simp) (by simp) hn
    exact absurd hr (not_returns_of_diverges ((h.diverges_iff hleaf hpost t).2 (endless_of_cycle hc hcyc)))
  · exact (h.mono t).returns_unique ⟨hn, _, rfl⟩ hr

/-- A query diverges exactly if the chain runs into a cycle. -/
theorem Follows.diverges_iff_cycle (h : Follows ti ref post leaf f) (hleaf : ∀ o t, leaf o t ≠ .nofuel)
    (hpost : ∀ v a, post v a ≠ .nofuel) (ids : Finset UInt32)
    (hids : ∀ t u, Refers ti ref t u → t ∈ ids) (t : UInt32) :
    Diverges (fun n => f n t) ↔ ∃ u, Chain ti ref t u ∧ Relation.TransGen (Refers ti ref) u u := by
  constructor
  · intro hd
    exact h.cycle hleaf hpost ids hids (ids.card + 1) t ∅ (by simp) (by simp) (by simp) (hd _)
  · rintro ⟨u, hc, hcyc⟩
    exact (h.diverges_iff hleaf hpost t).2 (endless_of_cycle hc hcyc)

end

end Btf

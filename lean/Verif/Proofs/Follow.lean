import Verif.Spec.Graph

/-!
# Fuel, chains of references
-/

namespace Btf

open Spec TypeInformation

/-- More fuel does not change a result. -/
def FuelMono {α : Type} (f : Nat → Outcome α) : Prop := ∀ n, f n ≠ .nofuel → f (n + 1) = f n

theorem FuelMono.le {α : Type} {f : Nat → Outcome α} (h : FuelMono f) {n m : Nat} (hle : n ≤ m)
    (hn : f n ≠ .nofuel) : f m = f n := by
  induction hle with
  | refl => rfl
  | step _ ih => rw [h _ (by rw [ih]; exact hn), ih]

theorem FuelMono.returns_unique {α : Type} {f : Nat → Outcome α} (h : FuelMono f) {o o' : Outcome α}
    (h1 : Returns f o) (h2 : Returns f o') : o = o' := by
  obtain ⟨hn, n, rfl⟩ := h1
  obtain ⟨hm, m, rfl⟩ := h2
  rcases Nat.le_total n m with hle | hle
  · exact (h.le hle hn).symm
  · exact h.le hle hm

theorem returns_or_diverges {α : Type} (f : Nat → Outcome α) : (∃ o, Returns f o) ∨ Diverges f := by
  by_cases h : ∃ n, f n ≠ .nofuel
  · obtain ⟨n, hn⟩ := h; exact .inl ⟨f n, hn, n, rfl⟩
  · exact .inr fun n => by
      by_cases h' : f n = .nofuel
      · exact h'
      · exact absurd ⟨n, h'⟩ h

theorem not_returns_of_diverges {α : Type} {f : Nat → Outcome α} (h : Diverges f) {o : Outcome α} :
    ¬ Returns f o := by rintro ⟨h1, n, rfl⟩; exact h1 (h n)

/-- The pattern of `sizeOf`, `pointeeTid` and `resolve`: follow references; transform the result on the
way back; answer at the end of the chain. -/
structure Follows {α : Type} (ti : TypeInformation) (ref : TypeVariant → Option UInt32)
    (post : TypeVariant → α → Outcome α) (leaf : Option TypeVariant → UInt32 → Outcome α)
    (f : Nat → UInt32 → Outcome α) : Prop where
  zero : ∀ t, f 0 t = .nofuel
  next : ∀ n t v u, ti.fromId t = some v → ref v = some u → f (n + 1) t = (f n u).bind (post v)
  last : ∀ n t, (∀ v, ti.fromId t = some v → ref v = none) → f (n + 1) t = leaf (ti.fromId t) t

section
variable {α : Type} {ti : TypeInformation} {ref : TypeVariant → Option UInt32}
  {post : TypeVariant → α → Outcome α} {leaf : Option TypeVariant → UInt32 → Outcome α}
  {f : Nat → UInt32 → Outcome α}

/-- Case split: the chain goes on or ends here. -/
theorem goes_on_or_ends (ti : TypeInformation) (ref : TypeVariant → Option UInt32) (t : UInt32) :
    (∃ v u, ti.fromId t = some v ∧ ref v = some u) ∨ (∀ v, ti.fromId t = some v → ref v = none) := by
  cases h : ti.fromId t with
  | none => exact .inr (fun v hv => by cases hv)
  | some v =>
    cases h' : ref v with
    | none => exact .inr (fun w hw => by cases hw; exact h')
    | some u => exact .inl ⟨v, u, rfl, h'⟩

theorem Follows.mono (h : Follows ti ref post leaf f) : ∀ t, FuelMono (fun n => f n t) := by
  intro t n
  induction n generalizing t with
  | zero => intro hne; exact absurd (h.zero t) hne
  | succ n ih =>
    intro hne
    rcases goes_on_or_ends ti ref t with ⟨v, u, hv, hu⟩ | hend
    · simp only [h.next _ t v u hv hu] at hne ⊢
      have : f n u ≠ .nofuel := by intro h0; rw [h0] at hne; exact hne rfl
      exact congrArg (·.bind (post v)) (ih u this)
    · simp only [h.last _ t hend]

/-- The query diverges exactly on endless chains. -/
theorem Follows.diverges_iff (h : Follows ti ref post leaf f) (hleaf : ∀ o t, leaf o t ≠ .nofuel)
    (hpost : ∀ v a, post v a ≠ .nofuel) (t : UInt32) :
    Diverges (fun n => f n t) ↔ Endless ti ref t := by
  constructor
  · intro hd u hc
    induction hc with
    | refl =>
      rename_i t
      rcases goes_on_or_ends ti ref t with h' | hend
      · obtain ⟨v, u, hv, hu⟩ := h'; exact ⟨v, u, hv, hu⟩
      · exact absurd ((h.last 0 t hend).symm.trans (hd 1)) (hleaf _ _)
    | step hv hu _ ih =>
      apply ih
      intro n
      have := hd (n + 1)
      simp only [h.next _ _ _ _ hv hu] at this
      revert this
      show _ → f n _ = .nofuel
      generalize f n _ = o
      cases o with
      | ok a => intro h'; exact absurd h' (hpost _ _)
      | err e => intro h'; cases h'
      | panic => intro h'; cases h'
      | nofuel => intro _; rfl
  · intro hE n
    induction n generalizing t with
    | zero => exact h.zero t
    | succ n ih =>
      obtain ⟨v, u, hv, hu⟩ := hE t .refl
      simp only [h.next _ t v u hv hu]
      have := ih u (fun w hw => hE w (.step hv hu hw))
      simp only [] at this
      rw [this]
      rfl

/-- A chain that is not endless has an end. -/
theorem not_endless_iff (t : UInt32) :
    ¬ Endless ti ref t ↔ ∃ u, Chain ti ref t u ∧ ∀ v, ti.fromId u = some v → ref v = none := by
  constructor
  · intro h
    by_cases h' : ∃ u, Chain ti ref t u ∧ ∀ v, ti.fromId u = some v → ref v = none
    · exact h'
    · exfalso; apply h
      intro u hu
      rcases goes_on_or_ends ti ref u with h1 | h1
      · obtain ⟨v, w, hv, hw⟩ := h1; exact ⟨v, w, hv, hw⟩
      · exact absurd ⟨u, hu, h1⟩ h'
  · rintro ⟨u, hu, hend⟩ hE
    obtain ⟨v, w, hv, hw⟩ := hE u hu
    rw [hend v hv] at hw; cases hw

theorem Chain.trans {t u w : UInt32} (h : Chain ti ref t u) (h' : Chain ti ref u w) : Chain ti ref t w := by
  induction h with
  | refl => exact h'
  | step hv hu _ ih => exact .step hv hu (ih h')

/-- Chains are linear: the end is unique. -/
theorem chain_end_unique {t u w : UInt32} (h : Chain ti ref t u) (h' : Chain ti ref t w)
    (hu : ∀ v, ti.fromId u = some v → ref v = none) (hw : ∀ v, ti.fromId w = some v → ref v = none) :
    u = w := by
  induction h with
  | refl =>
    cases h' with
    | refl => rfl
    | step hv hr _ => rw [hu _ hv] at hr; cases hr
  | step hv hr _ ih =>
    cases h' with
    | refl => rw [hw _ hv] at hr; cases hr
    | step hv' hr' h'' =>
      rw [hv] at hv'; cases hv'
      rw [hr] at hr'; cases hr'
      exact ih h'' hu

/-- An error (or panic) of the leaf is the result along the whole chain. -/
theorem Follows.leaf_fail (h : Follows ti ref post leaf f) {t u : UInt32} (hc : Chain ti ref t u)
    (hend : ∀ v, ti.fromId u = some v → ref v = none) {o : Outcome α}
    (ho : leaf (ti.fromId u) u = o) (hno : ∀ a, o ≠ .ok a) : ∃ n, f n t = o := by
  induction hc with
  | refl => exact ⟨1, by rw [h.last _ _ hend]; exact ho⟩
  | step hv hr _ ih =>
    obtain ⟨n, hn⟩ := ih hend ho
    refine ⟨n + 1, ?_⟩
    rw [h.next _ _ _ _ hv hr, hn]
    cases o with
    | ok a => exact absurd rfl (hno a)
    | err e => rfl
    | panic => rfl
    | nofuel => rfl

/-- If results are passed through unchanged, the query is its leaf at the end of the chain. -/
theorem Follows.pass (h : Follows ti ref (fun _ a => .ok a) leaf f) {t u : UInt32} (hc : Chain ti ref t u)
    (hend : ∀ v, ti.fromId u = some v → ref v = none) : ∃ n, f n t = leaf (ti.fromId u) u := by
  induction hc with
  | refl => exact ⟨1, h.last _ _ hend⟩
  | step hv hr _ ih =>
    obtain ⟨n, hn⟩ := ih hend
    refine ⟨n + 1, ?_⟩
    rw [h.next _ _ _ _ hv hr, hn]
    cases leaf _ _ <;> rfl

end

end Btf

import Verif.Proofs.OffsetApi

/-!
# Queries in builds with and without overflow checks
-/

namespace Btf

open Spec TypeInformation

/-- `b` is what a build without overflow checks does where a build with them does `a`. -/
def Unchecked {α : Type} (a b : Outcome α) : Prop := a = .panic ∨ b = a

theorem Unchecked.refl {α : Type} (a : Outcome α) : Unchecked a a := .inr rfl

theorem Unchecked.bind {α β : Type} {a b : Outcome α} {f g : α → Outcome β} (h : Unchecked a b)
    (hf : ∀ x, Unchecked (f x) (g x)) : Unchecked (a.bind f) (b.bind g) := by
  rcases h with rfl | rfl
  · exact .inl rfl
  · cases b with
    | ok x => exact hf x
    | err e => exact .inr rfl
    | panic => exact .inl rfl
    | nofuel => exact .inr rfl

/-- The two builds for a target. -/
abbrev checked (w : Width) : Cfg := { width := w, overflowChecks := true }
abbrev unchecked (w : Width) : Cfg := { width := w, overflowChecks := false }

theorem usizeMod_checked (w : Width) : (unchecked w).usizeMod = (checked w).usizeMod := by cases w <;> rfl

theorem wrapOr_unchecked (w : Width) (m v : Nat) :
    Unchecked ((checked w).wrapOr m v) ((unchecked w).wrapOr m v) := by
  unfold Cfg.wrapOr
  split
  · exact .refl _
  · exact .inl rfl

theorem sizeOf_unchecked (w : Width) (ti : TypeInformation) (k : Nat) : ∀ t,
    Unchecked (TypeInformation.sizeOf (checked w) ti k t) (TypeInformation.sizeOf (unchecked w) ti k t) := by
  induction k with
  | zero => intro t; exact .refl _
  | succ k ih =>
    intro t
    simp only [TypeInformation.sizeOf]
    split <;> try exact .refl _
    all_goals first
      | exact ih _
      | (refine Unchecked.bind (ih _) fun n => ?_
         rw [Cfg.usizeMul, Cfg.usizeMul, usizeMod_checked]
         exact wrapOr_unchecked w _ _)

theorem stepIndex_unchecked (w : Width) (ti : TypeInformation) (k : Nat) (o : Offset) (v : TypeVariant) (i : Nat) :
    Unchecked (stepIndex (checked w) ti k o v i) (stepIndex (unchecked w) ti k o v i) := by
  unfold stepIndex
  split
  · split
    · exact .refl _
    · exact Unchecked.bind (sizeOf_unchecked w ti k _) fun n => .refl _
  · exact .refl _
  · exact .refl _

theorem probe_unchecked {p q : Offset → UInt32 → Outcome (UInt32 × Offset)} (h : ∀ o t, Unchecked (p o t) (q o t))
    (o : Offset) : ∀ ms, Unchecked (probeAnonymous p o ms) (probeAnonymous q o ms) := by
  intro ms
  induction ms with
  | nil => exact .refl _
  | cons m ms ih =>
    simp only [probeAnonymous]
    split
    · rename_i start _
      rcases h start m.tid with hp | hq
      · rw [hp]; exact .inl rfl
      · rw [hq]
        split
        · exact .refl _
        · exact ih
        · exact .inl rfl
        · exact .refl _
    · exact .refl _
    · exact .inl rfl
    · exact .refl _

theorem parseUsizeLoop_width {c c' : Cfg} (h : c.usizeMod = c'.usizeMod) (s : Str) :
    ∀ a, parseUsizeLoop c s a = parseUsizeLoop c' s a := by
  induction s with
  | nil => intro a; rfl
  | cons b s ih => intro a; simp only [parseUsizeLoop, h, ih]

theorem parseUsize_width {c c' : Cfg} (h : c.usizeMod = c'.usizeMod) (s : Str) : parseUsize c s = parseUsize c' s := by
  simp only [parseUsize, parseUsizeLoop_width h]

theorem next_width {c c' : Cfg} (h : c.usizeMod = c'.usizeMod) (it : PathIter) : it.next c = it.next c' := by
  simp only [PathIter.next, PathIter.parseIndex, parseUsize_width h]

theorem impl_unchecked (w : Width) (ti : TypeInformation) (k : Nat) : ∀ o t it,
    Unchecked (offsetOfImpl (checked w) ti k o t it) (offsetOfImpl (unchecked w) ti k o t it) := by
  induction k with
  | zero => intro o t it; exact .refl _
  | succ k ih =>
    intro o t it
    simp only [offsetOfImpl, next_width (usizeMod_checked w)]
    split
    · exact .refl _
    · exact .inl rfl
    · exact .refl _
    · exact .refl _
    · refine Unchecked.bind (.refl _) fun v => ?_
      split
      · exact .refl _
      · split
        · exact Unchecked.bind (stepIndex_unchecked w ti k _ _ _) fun r => ih _ _ _
        · split
          · exact .refl _
          · refine Unchecked.bind (probe_unchecked (fun o t => ih o t it) _ _) fun r => ?_
            split
            · exact .refl _
            · split
              · exact Unchecked.bind (.refl _) fun o' => ih _ _ _
              · exact .refl _

end Btf

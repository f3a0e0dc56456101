import Verif.Proofs.BuildQueries

/-!
# Queries on 32- and 64-bit targets
-/

namespace Btf

open Spec TypeInformation Props

/-- 32- and 64-bit targets, with overflow checks. -/
abbrev narrow : Cfg := { width := .w32, overflowChecks := true }
abbrev wide : Cfg := { width := .w64, overflowChecks := true }

theorem usizeMul_narrow (a b : Nat) : Unchecked (narrow.usizeMul a b) (wide.usizeMul a b) := by
  simp only [Cfg.usizeMul, Cfg.wrapOr, Cfg.usizeMod, if_true]
  by_cases h : a * b < 2 ^ 32
  · rw [if_pos h, if_pos (by omega)]; exact .refl _
  · rw [if_neg h]; exact .inl rfl

theorem sizeOf_narrow (ti : TypeInformation) (k : Nat) : ∀ t,
    Unchecked (TypeInformation.sizeOf narrow ti k t) (TypeInformation.sizeOf wide ti k t) := by
  induction k with
  | zero => intro t; exact .refl _
  | succ k ih =>
    intro t
    simp only [TypeInformation.sizeOf]
    split <;> try exact .refl _
    all_goals first
      | exact ih _
      | exact Unchecked.bind (ih _) fun n => usizeMul_narrow _ _

theorem stepIndex_narrow (ti : TypeInformation) (k : Nat) (o : Offset) (v : TypeVariant) (i : Nat) :
    Unchecked (stepIndex narrow ti k o v i) (stepIndex wide ti k o v i) := by
  unfold stepIndex
  split
  · split
    · exact .refl _
    · exact Unchecked.bind (sizeOf_narrow ti k _) fun n => .refl _
  · exact .refl _
  · exact .refl _

theorem impl_narrow (ti : TypeInformation) (b : Bool) (k : Nat) : ∀ o t cs,
    Unchecked (impl narrow ti b k o t cs) (impl wide ti b k o t cs) := by
  induction k with
  | zero => intro o t cs; exact .refl _
  | succ k ih =>
    intro o t cs
    cases cs with
    | nil => exact .refl _
    | cons c cs =>
      simp only [impl]
      refine Unchecked.bind (.refl _) fun v => ?_
      split
      · exact .refl _
      · split
        · exact Unchecked.bind (stepIndex_narrow ti k _ _ _) fun r => ih _ _ _
        · split
          · exact .refl _
          · refine Unchecked.bind (probe_unchecked (fun o t => ih o t _) _ _) fun r => ?_
            split
            · exact .refl _
            · split
              · exact Unchecked.bind (.refl _) fun o' => ih _ _ _
              · exact .refl _

/-- All index components are below `l`. -/
def IndicesBelow (l : Nat) (cs : List PathComponent) : Prop := ∀ i, .index i ∈ cs → i < l

theorem isIndex_limit {l l' : Nat} {ds : Str} {i : Nat} (h : IsIndex l ds i) (hi : i < l') : IsIndex l' ds i :=
  ⟨h.nonempty, h.digits, h.value, hi⟩

theorem parts_limit {l l' : Nat} {p : Str} {cs : List PathComponent} (h : Parts l p cs) (hb : IndicesBelow l' cs) :
    Parts l' p cs := by
  induction h with
  | nil => exact .nil
  | name hn _ ih => exact .name hn (ih fun i hi => hb i (List.mem_cons_of_mem _ hi))
  | index hx _ ih =>
    exact .index (isIndex_limit hx (hb _ (List.mem_cons_self ..))) (ih fun i hi => hb i (List.mem_cons_of_mem _ hi))

theorem path_limit {l l' : Nat} {p : Str} {cs : List PathComponent} (h : Path l p cs) (hb : IndicesBelow l' cs) :
    Path l' p cs := by
  cases h with
  | empty => exact .empty
  | name hn hp => exact .name hn (parts_limit hp fun i hi => hb i (List.mem_cons_of_mem _ hi))
  | index hx hp =>
    exact .index (isIndex_limit hx (hb _ (List.mem_cons_self ..)))
      (parts_limit hp fun i hi => hb i (List.mem_cons_of_mem _ hi))

theorem accepted_limit {l l' : Nat} {p : Str} {cs : List PathComponent} (h : AcceptedPath l p cs)
    (hb : IndicesBelow l' cs) : AcceptedPath l' p cs := by
  cases h with
  | strict h => exact .strict (path_limit h hb)
  | danglingDot h hne => exact .danglingDot (path_limit h hb) hne
  | danglingOpen h hl => exact .danglingOpen (path_limit h hb) hl

theorem parts_below {l : Nat} {p : Str} {cs : List PathComponent} (h : Parts l p cs) : IndicesBelow l cs := by
  induction h with
  | nil => intro i hi; cases hi
  | name hn _ ih => intro i hi; simp at hi; exact ih i hi
  | index hx _ ih =>
    intro i hi
    rcases List.mem_cons.1 hi with h | h
    · cases h; exact hx.fits
    · exact ih i h

theorem path_below {l : Nat} {p : Str} {cs : List PathComponent} (h : Path l p cs) : IndicesBelow l cs := by
  cases h with
  | empty => intro i hi; cases hi
  | name hn hp => intro i hi; simp at hi; exact parts_below hp i hi
  | index hx hp =>
    intro i hi
    rcases List.mem_cons.1 hi with h | h
    · cases h; exact hx.fits
    · exact parts_below hp i h

theorem accepted_below {l : Nat} {p : Str} {cs : List PathComponent} (h : AcceptedPath l p cs) :
    IndicesBelow l cs := by
  cases h with
  | strict h => exact path_below h
  | danglingDot h _ => exact path_below h
  | danglingOpen h _ => exact path_below h

theorem access_below {ti : TypeInformation} {t u : UInt32} {cs : List PathComponent} {bits : Nat}
    {w : Option UInt32} (h : Access ti t cs u bits w) : IndicesBelow (2 ^ 32) cs := by
  induction h with
  | here => intro i hi; cases hi
  | @element _ _ d _ _ _ _ _ _ _ hi _ _ ih =>
    intro i hm
    rcases List.mem_cons.1 hm with h | h
    · cases h; have := d.elementCount.toNat_lt; omega
    · exact ih i h
  | member _ _ _ _ _ _ ih => intro i hi; simp at hi; exact ih i hi
  | bitfield => intro i hi; simp at hi
  | anonymous _ _ _ _ _ _ ih => exact ih

end Btf

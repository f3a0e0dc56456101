import Verif.Spec.Search
import Verif.Spec.PathRun
import Verif.Proofs.PathRun
import Mathlib.Tactic.Tauto

/-!
# What the path iterator reads before an error
-/

namespace Btf

open Spec

/-- What may follow a component. -/
def Ends (cs : List PathComponent) (rest : Str) : Prop :=
  ∀ n, cs.getLast? = some (.name n) → rest = [] ∨ ∃ x, rest = 46 :: x ∨ rest = 91 :: x

theorem parts_head {limit : Nat} {q : Str} {cs : List PathComponent} (h : Parts limit q cs) :
    q = [] ∧ cs = [] ∨ ∃ x, q = 46 :: x ∨ q = 91 :: x := by
  cases h with
  | nil => exact .inl ⟨rfl, rfl⟩
  | name => exact .inr ⟨_, .inl rfl⟩
  | index => exact .inr ⟨_, .inr rfl⟩

theorem ends_tail {c : PathComponent} {cs : List PathComponent} {rest : Str} (h : Ends (c :: cs) rest) : Ends cs rest := by
  intro n hn
  exact h n (by rw [List.getLast?_cons, hn]; rfl)

/-- After a name: its end, a dot or a bracket. -/
theorem after_name {limit : Nat} {n q rest : Str} {cs : List PathComponent} (hn : IsName n) (hq : Parts limit q cs)
    (he : Ends (.name n :: cs) rest) :
    ∃ st x, absName (n ++ (q ++ rest)) = .tok (.name n) st x ∧ consumed st ++ x = q ++ rest ∧
      (st = .insideIndex ∨ st = .expectingName ∨ st = .afterIndex ∨ st = .done ∧ q ++ rest = []) := by
  have : q ++ rest = [] ∨ ∃ x, q ++ rest = 46 :: x ∨ q ++ rest = 91 :: x := by
    rcases parts_head hq with ⟨rfl, rfl⟩ | ⟨x, rfl | rfl⟩
    · exact he n rfl
    · exact .inr ⟨_, .inl rfl⟩
    · exact .inr ⟨_, .inr rfl⟩
  rcases this with h | ⟨x, h | h⟩
  · rw [h, List.append_nil]
    exact ⟨.done, [], absName_nil hn, rfl, .inr (.inr (.inr ⟨rfl, rfl⟩))⟩
  · rw [h]
    exact ⟨.expectingName, x, absName_dot hn, rfl, .inr (.inl rfl)⟩
  · rw [h]
    exact ⟨.insideIndex, x, absName_open hn, rfl, .inl rfl⟩

theorem absExpect_isName {n r : Str} (hn : IsName n) : absExpect (n ++ r) = absName (n ++ r) := by
  cases hn with
  | mk c t hc ht => simp [absExpect, (startByte_iff _).2 hc]

theorem toks_tok {cfg : Cfg} {st st' : PathState} {r r' : Str} {c : PathComponent} {ds : List PathComponent} {b : Bool}
    (h : AbsToks cfg st r ds b) (h' : absNext cfg st r = .tok c st' r') :
    ∃ ds', ds = c :: ds' ∧ AbsToks cfg st' r' ds' b := by
  cases h with
  | stop h => rw [h'] at h; cases h
  | bad h => rw [h'] at h; cases h
  | tok h h2 => rw [h'] at h; cases h; exact ⟨_, rfl, h2⟩

theorem absNext_name {cfg : Cfg} {st : PathState} {x n r : Str} (hn : IsName n)
    (hst : st = .insideIndex ∨ st = .expectingName ∨ st = .afterIndex ∨ st = .done ∧ chDot :: (n ++ r) = [])
    (h : consumed st ++ x = chDot :: (n ++ r)) : absNext cfg st x = absName (n ++ r) := by
  have hc : ∃ c t, n ++ r = c :: t := by
    cases hn with
    | mk c t => exact ⟨_, _, rfl⟩
  obtain ⟨c, t, hct⟩ := hc
  rw [← absExpect_isName hn]
  rcases hst with rfl | rfl | rfl | ⟨-, h'⟩
  · exact absurd (List.cons.inj h).1 (by decide)
  · have h : x = _ := (List.cons.inj h).2
    rw [h, hct]
    simp [absNext]
  · rw [show x = chDot :: (n ++ r) from h, hct]
    simp [absNext, show ¬ chDot = chOpen by decide]
  · cases h'

theorem absNext_index {cfg : Cfg} {st : PathState} {x ds r : Str}
    (hst : st = .insideIndex ∨ st = .expectingName ∨ st = .afterIndex ∨ st = .done ∧ chOpen :: (ds ++ chClose :: r) = [])
    (h : consumed st ++ x = chOpen :: (ds ++ chClose :: r)) : absNext cfg st x = absIndex cfg (ds ++ chClose :: r) := by
  have hc : ∃ c t, ds ++ chClose :: r = c :: t := by
    cases ds with
    | nil => exact ⟨_, _, rfl⟩
    | cons c t => exact ⟨_, _, rfl⟩
  obtain ⟨c, t, hct⟩ := hc
  rcases hst with rfl | rfl | rfl | ⟨-, h'⟩
  · have h : x = _ := (List.cons.inj h).2
    rw [h, hct]
    simp [absNext]
  · exact absurd (List.cons.inj h).1 (by decide)
  · rw [show x = chOpen :: (ds ++ chClose :: r) from h]
    simp [absNext]
  · cases h'

/-- The iterator reads all the parts. -/
theorem parts_read {cfg : Cfg} {q : Str} {cs : List PathComponent} (hq : Parts cfg.usizeMod q cs) :
    ∀ {st : PathState} {x rest : Str} {ds : List PathComponent} {b : Bool},
      (st = .insideIndex ∨ st = .expectingName ∨ st = .afterIndex ∨ st = .done ∧ q ++ rest = []) →
      consumed st ++ x = q ++ rest → Ends cs rest → AbsToks cfg st x ds b → cs <+: ds := by
  induction hq with
  | nil => intro st x rest ds b _ _ _ _; exact List.nil_prefix
  | @name n q' cs' hn hq ih =>
    intro st x rest ds b hst hx he h
    obtain ⟨st', x', h1, h2, h3⟩ := after_name hn hq he
    have hx' : consumed st ++ x = chDot :: (n ++ (q' ++ rest)) := by rw [hx]; simp [chDot]
    have hst' : st = .insideIndex ∨ st = .expectingName ∨ st = .afterIndex ∨
        st = .done ∧ chDot :: (n ++ (q' ++ rest)) = [] := by
      rcases hst with h | h | h | ⟨_, h⟩
      · exact .inl h
      · exact .inr (.inl h)
      · exact .inr (.inr (.inl h))
      · simp at h
    obtain ⟨ds', rfl, h4⟩ := toks_tok h ((absNext_name hn hst' hx').trans h1)
    exact List.cons_prefix_cons.2 ⟨rfl, ih h3 h2 (ends_tail he) h4⟩
  | @index dd q' i cs' hi hq ih =>
    intro st x rest ds b hst hx he h
    have hx' : consumed st ++ x = chOpen :: (dd ++ chClose :: (q' ++ rest)) := by rw [hx]; simp [chOpen, chClose]
    have hst' : st = .insideIndex ∨ st = .expectingName ∨ st = .afterIndex ∨
        st = .done ∧ chOpen :: (dd ++ chClose :: (q' ++ rest)) = [] := by
      rcases hst with h | h | h | ⟨_, h⟩
      · exact .inl h
      · exact .inr (.inl h)
      · exact .inr (.inr (.inl h))
      · simp at h
    obtain ⟨ds', rfl, h4⟩ := toks_tok h ((absNext_index hst' hx').trans (absIndex_index hi))
    exact List.cons_prefix_cons.2 ⟨rfl, ih (.inr (.inr (.inl rfl))) rfl (ends_tail he) h4⟩

/-- The iterator reads all the first components. -/
theorem reads_prefix {cfg : Cfg} {s : Str} {cs ds : List PathComponent} {b : Bool} (h : Reads cfg.usizeMod s cs)
    (h' : AbsToks cfg .start s ds b) : cs <+: ds := by
  obtain ⟨p, rest, rfl, hp, he⟩ := h
  cases hp with
  | empty => exact List.nil_prefix
  | @name n q cs hn hq =>
    obtain ⟨st', x', h1, h2, h3⟩ := after_name hn hq he
    have : absNext cfg .start (n ++ q ++ rest) = absName (n ++ (q ++ rest)) := by
      rw [List.append_assoc]
      cases hn with
      | mk c t hc ht =>
        have : c ≠ chOpen := by
          rintro rfl
          revert hc
          simp [NameStart, Letter, chOpen]
        simp [absNext, this, (startByte_iff _).2 hc]
    obtain ⟨ds', rfl, h4⟩ := toks_tok h' (this.trans h1)
    exact List.cons_prefix_cons.2 ⟨rfl, parts_read hq h3 h2 (ends_tail he) h4⟩
  | @index dd q i cs hi hq =>
    have : absNext cfg .start ([91] ++ dd ++ [93] ++ q ++ rest) = absIndex cfg (dd ++ chClose :: (q ++ rest)) := by
      simp [absNext, chOpen, chClose]
    obtain ⟨ds', rfl, h4⟩ := toks_tok h' (this.trans (absIndex_index hi))
    exact List.cons_prefix_cons.2 ⟨rfl, parts_read hq (.inr (.inr (.inl rfl))) rfl (ends_tail he) h4⟩

/-- What the iterator has read is a path. -/
theorem toks_parts {cfg : Cfg} {st : PathState} {r : Str} {ds : List PathComponent} {b : Bool} (h : AbsToks cfg st r ds b) :
    st = .insideIndex ∨ st = .expectingName ∨ st = .afterIndex ∨ st = .done ∧ r = [] →
    ∀ {pre}, pre <+: ds → ∃ q rest, consumed st ++ r = q ++ rest ∧ Parts cfg.usizeMod q pre ∧ Ends pre rest := by
  induction h with
  | stop _ =>
    intro _ pre hp
    rw [List.prefix_nil.1 hp]
    exact ⟨[], _, rfl, .nil, by simp [Ends]⟩
  | bad _ =>
    intro _ pre hp
    rw [List.prefix_nil.1 hp]
    exact ⟨[], _, rfl, .nil, by simp [Ends]⟩
  | @tok st r c st' r' cs b h1 h2 ih =>
    intro hst pre hp
    cases pre with
    | nil => exact ⟨[], _, rfl, .nil, by simp [Ends]⟩
    | cons c' pre =>
      obtain ⟨rfl, hp1⟩ := List.cons_prefix_cons.1 hp
      have hst3 : st = .insideIndex ∨ st = .expectingName ∨ st = .afterIndex := by
        rcases hst with h | h | h | ⟨rfl, rfl⟩
        · exact .inl h
        · exact .inr (.inl h)
        · exact .inr (.inr h)
        · simp [absNext] at h1
      rcases absNext_after hst3 h1 with ⟨n, hn, rfl, hst', e⟩ | ⟨dd, i, hi, rfl, rfl, e⟩
      · obtain ⟨q, rest, e', hq, he⟩ := ih (by tauto) hp1
        refine ⟨_, rest, ?_, .name hn hq, ?_⟩
        · rw [e, e']; simp [chDot]
        · intro m hm
          cases hl : pre.getLast? with
          | some l => rw [List.getLast?_cons, hl] at hm; exact he m (hl.trans hm)
          | none =>
            rw [List.getLast?_eq_none_iff.1 hl] at hq
            cases hq
            rw [List.nil_append] at e'
            rw [← e']
            rcases hst' with ⟨rfl, rfl⟩ | rfl | rfl
            · exact .inl rfl
            · exact .inr ⟨_, .inr rfl⟩
            · exact .inr ⟨_, .inl rfl⟩
      · obtain ⟨q, rest, e', hq, he⟩ := ih (by tauto) hp1
        refine ⟨_, rest, ?_, .index hi hq, ?_⟩
        · rw [e, show r' = q ++ rest from e']; simp [chOpen, chClose]
        · intro m hm
          cases hl : pre.getLast? with
          | some l => rw [List.getLast?_cons, hl] at hm; exact he m (hl.trans hm)
          | none => rw [List.getLast?_eq_none_iff.1 hl] at hm; simp at hm

theorem toks_reads {cfg : Cfg} {s : Str} {ds pre : List PathComponent} {b : Bool} (h : AbsToks cfg .start s ds b)
    (hp : pre <+: ds) : Reads cfg.usizeMod s pre := by
  cases pre with
  | nil => exact ⟨[], s, rfl, .empty, by simp⟩
  | cons c pre =>
    cases h with
    | stop => simp at hp
    | bad => simp at hp
    | @tok _ _ c' st' r' cs _ h1 h2 =>
      obtain ⟨rfl, hp1⟩ := List.cons_prefix_cons.1 hp
      cases s with
      | nil => simp [absNext] at h1
      | cons d r =>
        simp only [absNext] at h1
        by_cases hd : d = chOpen
        · rw [if_pos hd] at h1
          subst hd
          obtain ⟨dd, i, hi, rfl, rfl, rfl⟩ := absIndex_tok h1
          obtain ⟨q, rest, e', hq, he⟩ := toks_parts h2 (by tauto) hp1
          refine ⟨_, rest, ?_, .index hi hq, ?_⟩
          · rw [show r' = q ++ rest from e']; simp [chOpen, chClose]
          · intro m hm
            cases hl : pre.getLast? with
            | some l => rw [List.getLast?_cons, hl] at hm; exact he m (hl.trans hm)
            | none => rw [List.getLast?_eq_none_iff.1 hl] at hm; simp at hm
        · rw [if_neg hd] at h1
          by_cases hs : startByte d = true
          · rw [if_pos hs] at h1
            obtain ⟨n, hn, rfl, hst', e⟩ : ∃ n, IsName n ∧ c = .name n ∧
                (st' = .done ∧ r' = [] ∨ st' = .insideIndex ∨ st' = .expectingName) ∧ d :: r = n ++ (consumed st' ++ r') := by
              obtain ⟨n, hn, rfl, ⟨rfl, rfl, e⟩ | ⟨rfl, e⟩ | ⟨rfl, e⟩⟩ := absName_tok hs h1
              · exact ⟨n, hn, rfl, .inl ⟨rfl, rfl⟩, by rw [e]; simp [consumed]⟩
              · exact ⟨n, hn, rfl, .inr (.inl rfl), e⟩
              · exact ⟨n, hn, rfl, .inr (.inr rfl), e⟩
            obtain ⟨q, rest, e', hq, he⟩ := toks_parts h2 (by tauto) hp1
            refine ⟨_, rest, ?_, .name hn hq, ?_⟩
            · rw [e, e']; simp
            · intro m hm
              cases hl : pre.getLast? with
              | some l => rw [List.getLast?_cons, hl] at hm; exact he m (hl.trans hm)
              | none =>
                rw [List.getLast?_eq_none_iff.1 hl] at hq
                cases hq
                rw [List.nil_append] at e'
                rw [← e']
                rcases hst' with ⟨rfl, rfl⟩ | rfl | rfl
                · exact .inl rfl
                · exact .inr ⟨_, .inr rfl⟩
                · exact .inr ⟨_, .inl rfl⟩
          · rw [if_neg hs] at h1; cases h1

/-- `Breaks` says what the iterator reads of a text that is not a path. -/
theorem breaks_iff (cfg : Cfg) {s : Str} (hs : Utf8Like s) (cs : List PathComponent) :
    Yields cfg (PathIter.new s) cs false ↔ Breaks cfg.usizeMod s cs := by
  obtain ⟨ds, b, h⟩ := absToks_total cfg _ .start s (Nat.le_refl _) (by simp)
  have hy := yields_of_absToks h _ (pathInv_new hs) rfl (by simp [PathIter.new])
  constructor
  · intro h'
    obtain ⟨rfl, rfl⟩ := yields_det h' hy
    refine ⟨toks_reads h (List.prefix_refl _), fun c hc => ?_, fun ds hds => ?_⟩
    · have := (reads_prefix hc h).length_le
      simp at this
      omega
    · have := (yields_det ((yields_iff cfg hs ds).2 hds) hy).2
      cases this
  · rintro ⟨h1, h2, h3⟩
    cases b with
    | true => exact absurd ((yields_iff cfg hs ds).1 hy) (h3 ds)
    | false =>
      obtain ⟨t, rfl⟩ := reads_prefix h1 h
      cases t with
      | nil => rwa [List.append_nil] at hy
      | cons c t => exact absurd (toks_reads h ⟨t, by simp⟩) (h2 c)

end Btf

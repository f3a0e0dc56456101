import Verif.Proofs.PathAbs
import Verif.Spec.Path

/-!
# The abstract iterator accepts exactly `AcceptedPath`
-/

namespace Btf

open Spec

theorem startByte_iff (c : UInt8) : startByte c = true ↔ NameStart c := by
  simp only [startByte, isAlphabetic, NameStart, Letter, chUnderscore, Bool.or_eq_true, Bool.and_eq_true,
    decide_eq_true_eq, beq_iff_eq, UInt8.le_iff_toNat_le, ← UInt8.toNat_inj]
  have := c.toNat_lt
  simp only [UInt8.reduceToNat]
  omega

theorem isNumeric_iff (c : UInt8) : isNumeric c = true ↔ NumericSign c.toNat := by
  simp only [isNumeric, NumericSign, Bool.or_eq_true, Bool.and_eq_true,
    decide_eq_true_eq, beq_iff_eq, UInt8.le_iff_toNat_le, ← UInt8.toNat_inj]
  simp only [UInt8.reduceToNat]
  omega

theorem nameByte_iff (c : UInt8) : nameByte c = true ↔ NameChar c := by
  have h1 := startByte_iff c
  have h2 := isNumeric_iff c
  simp only [nameByte, isAlphanumeric, startByte, NameChar, NameStart, Bool.or_eq_true] at *
  grind

theorem digit_numeric {c : UInt8} (h : Digit c) : isNumeric c = true := by
  rw [isNumeric_iff]; exact .inl h

theorem nameByte_open : nameByte chOpen = false := by decide
theorem nameByte_dot : nameByte chDot = false := by decide
theorem numeric_close : isNumeric chClose = false := by decide

theorem startByte_nameByte {c : UInt8} (h : startByte c = true) : nameByte c = true := by
  rw [startByte_iff] at h; rw [nameByte_iff]; rcases h with h | h
  · exact .inl h
  · exact .inr (.inr h)

/-! ### Numbers -/

theorem parseUsizeLoop_eq_some (cfg : Cfg) (ds : Str) (acc i : Nat) (hacc : acc < cfg.usizeMod) :
    parseUsizeLoop cfg ds acc = some i ↔
      (∀ d ∈ ds, Digit d) ∧ ds.foldl (fun a d => 10 * a + (d.toNat - 48)) acc = i ∧ i < cfg.usizeMod := by
  induction ds generalizing acc with
  | nil => simp [parseUsizeLoop]; rintro rfl; exact hacc
  | cons d rest ih =>
    have hmono : ∀ (l : Str) (a : Nat), a ≤ l.foldl (fun a d => 10 * a + (d.toNat - 48)) a := by
      intro l
      induction l with
      | nil => intro a; exact Nat.le_refl _
      | cons x xs ih => intro a; exact Nat.le_trans (by omega) (ih (10 * a + (x.toNat - 48)))
    have hD : (0x30 ≤ d ∧ d ≤ 0x39) ↔ Digit d := by
      simp only [Digit, UInt8.le_iff_toNat_le, UInt8.reduceToNat]
    unfold parseUsizeLoop
    simp only [List.foldl_cons, List.mem_cons, forall_eq_or_imp]
    by_cases h : Digit d
    · rw [if_pos (hD.2 h)]
      have hm := hmono rest (10 * acc + (d.toNat - 48))
      by_cases h1 : acc * 10 < cfg.usizeMod
      · rw [if_pos h1]
        by_cases h2 : acc * 10 + (d.toNat - 0x30) < cfg.usizeMod
        · rw [if_pos h2, ih _ h2]
          rw [Nat.mul_comm acc 10]
          simp [h]
        · rw [if_neg h2]
          simp only [reduceCtorEq, false_iff]
          rintro ⟨-, rfl, h3⟩; omega
      · rw [if_neg h1]
        simp only [reduceCtorEq, false_iff]
        rintro ⟨-, rfl, h3⟩; omega
    · rw [if_neg (by rw [hD]; exact h)]
      simp [h]

theorem usizeMod_pos (cfg : Cfg) : 0 < cfg.usizeMod := by
  unfold Cfg.usizeMod; cases cfg.width <;> decide

theorem parseUsize_eq_some (cfg : Cfg) (ds : Str) (i : Nat) :
    parseUsize cfg ds = some i ↔ IsIndex cfg.usizeMod ds i := by
  unfold parseUsize
  by_cases h : ds = []
  · simp only [if_pos h, reduceCtorEq, false_iff]
    intro h'; exact h'.nonempty h
  · rw [if_neg h, parseUsizeLoop_eq_some cfg ds 0 i (usizeMod_pos cfg)]
    constructor
    · rintro ⟨h1, h2, h3⟩; exact ⟨h, h1, h2, h3⟩
    · rintro ⟨h0, h1, h2, h3⟩; exact ⟨h1, h2, h3⟩

/-! ### One step -/

theorem takeWhile_append_sep {p : UInt8 → Bool} {a b : Str} (ha : ∀ c ∈ a, p c = true)
    (hb : ∀ c r, b = c :: r → p c = false) :
    (a ++ b).takeWhile p = a ∧ (a ++ b).dropWhile p = b := by
  induction a with
  | nil =>
    cases b with
    | nil => simp
    | cons c r => have := hb c r rfl; simp [this]
  | cons x xs ih =>
    have hx := ha x (by simp)
    have := ih (fun c hc => ha c (by simp [hc]))
    simp [hx, this.1, this.2]

theorem isName_nameByte {n : Str} (h : IsName n) : ∀ c ∈ n, nameByte c = true := by
  cases h with
  | mk b rest hb hr =>
    intro c hc
    rcases List.mem_cons.1 hc with rfl | hc
    · exact startByte_nameByte ((startByte_iff _).2 hb)
    · exact (nameByte_iff _).2 (hr c hc)

theorem takeWhile_isName {c : UInt8} {r : Str} (h : startByte c = true) :
    IsName ((c :: r).takeWhile nameByte) := by
  rw [List.takeWhile_cons, if_pos (startByte_nameByte h)]
  refine .mk c _ ((startByte_iff _).1 h) (fun d hd => (nameByte_iff _).1 ?_)
  exact List.all_eq_true.1 (List.all_takeWhile (l := r)) d hd

/-- What `absName` can produce. -/
theorem absName_tok {c : UInt8} {r : Str} {t : PathComponent} {st : PathState} {r' : Str}
    (hs : startByte c = true) (h : absName (c :: r) = .tok t st r') :
    ∃ n, IsName n ∧ t = .name n ∧
      ((st = .done ∧ r' = [] ∧ c :: r = n) ∨
       (st = .insideIndex ∧ c :: r = n ++ chOpen :: r') ∨
       (st = .expectingName ∧ c :: r = n ++ chDot :: r')) := by
  refine ⟨(c :: r).takeWhile nameByte, takeWhile_isName hs, ?_⟩
  have happ := List.takeWhile_append_dropWhile (p := nameByte) (l := c :: r)
  unfold absName at h
  cases hd : (c :: r).dropWhile nameByte with
  | nil =>
    rw [hd] at h happ
    cases h
    exact ⟨rfl, .inl ⟨rfl, rfl, by simpa using happ.symm⟩⟩
  | cons d r'' =>
    rw [hd] at h happ
    simp only [] at h
    by_cases h1 : d = chOpen
    · rw [if_pos h1] at h; cases h; subst h1
      exact ⟨rfl, .inr (.inl ⟨rfl, happ.symm⟩)⟩
    · rw [if_neg h1] at h
      by_cases h2 : d = chDot
      · rw [if_pos h2] at h; cases h; subst h2
        exact ⟨rfl, .inr (.inr ⟨rfl, happ.symm⟩)⟩
      · rw [if_neg h2] at h; cases h

theorem absName_nil {n : Str} (h : IsName n) : absName n = .tok (.name n) .done [] := by
  have := takeWhile_append_sep (p := nameByte) (a := n) (b := []) (isName_nameByte h) (by simp)
  simp only [List.append_nil] at this
  unfold absName; rw [this.1, this.2]

theorem absName_open {n r : Str} (h : IsName n) :
    absName (n ++ chOpen :: r) = .tok (.name n) .insideIndex r := by
  have := takeWhile_append_sep (p := nameByte) (a := n) (b := chOpen :: r) (isName_nameByte h)
    (by rintro c r' h; cases h; exact nameByte_open)
  unfold absName; rw [this.1, this.2]; simp

theorem absName_dot {n r : Str} (h : IsName n) :
    absName (n ++ chDot :: r) = .tok (.name n) .expectingName r := by
  have := takeWhile_append_sep (p := nameByte) (a := n) (b := chDot :: r) (isName_nameByte h)
    (by rintro c r' h; cases h; exact nameByte_dot)
  unfold absName; rw [this.1, this.2]
  simp only [show ¬ chDot = chOpen by decide, if_false, if_true]

theorem absIndex_tok {cfg : Cfg} {r : Str} {t : PathComponent} {st : PathState} {r' : Str}
    (h : absIndex cfg r = .tok t st r') :
    ∃ ds i, IsIndex cfg.usizeMod ds i ∧ t = .index i ∧ st = .afterIndex ∧ r = ds ++ chClose :: r' := by
  have happ := List.takeWhile_append_dropWhile (p := isNumeric) (l := r)
  unfold absIndex at h
  cases hd : r.dropWhile isNumeric with
  | nil => rw [hd] at h; cases h
  | cons c r'' =>
    rw [hd] at h happ
    simp only [] at h
    by_cases hc : c = chClose
    · rw [if_pos hc] at h
      cases hp : parseUsize cfg (r.takeWhile isNumeric) with
      | none => rw [hp] at h; cases h
      | some i =>
        rw [hp] at h; cases h; subst hc
        exact ⟨_, i, (parseUsize_eq_some ..).1 hp, rfl, rfl, happ.symm⟩
    · rw [if_neg hc] at h; cases h

theorem absIndex_index {cfg : Cfg} {ds r : Str} {i : Nat} (h : IsIndex cfg.usizeMod ds i) :
    absIndex cfg (ds ++ chClose :: r) = .tok (.index i) .afterIndex r := by
  have := takeWhile_append_sep (p := isNumeric) (a := ds) (b := chClose :: r)
    (fun c hc => digit_numeric (h.digits c hc))
    (by rintro c r' h; cases h; exact numeric_close)
  unfold absIndex; rw [this.1, this.2, (parseUsize_eq_some ..).2 h]; simp

theorem absIndex_ne_stop (cfg : Cfg) (r : Str) : absIndex cfg r ≠ .stop := by
  unfold absIndex; repeat' split
  all_goals simp
theorem absName_ne_stop (r : Str) : absName r ≠ .stop := by
  unfold absName; repeat' split
  all_goals simp
theorem absExpect_ne_stop (r : Str) : absExpect r ≠ .stop := by
  unfold absExpect; repeat' split
  all_goals first | exact absName_ne_stop _ | simp

/-! ### The whole run -/

/-- Running the abstract iterator to its end. -/
inductive AbsToks (cfg : Cfg) : PathState → Str → List PathComponent → Bool → Prop where
  | stop {st r} : absNext cfg st r = .stop → AbsToks cfg st r [] true
  | bad {st r} : absNext cfg st r = .bad → AbsToks cfg st r [] false
  | tok {st r c st' r' cs b} : absNext cfg st r = .tok c st' r' → AbsToks cfg st' r' cs b →
      AbsToks cfg st r (c :: cs) b

/-- What may follow a component, dangling separators included. -/
inductive Tail (limit : Nat) : Bool → Str → List PathComponent → Prop where
  | nil {b} : Tail limit b [] []
  | dot {b} : Tail limit b [chDot] []
  | opn : Tail limit true [chOpen] []
  | name {b n rest cs} : IsName n → Tail limit true rest cs →
      Tail limit b (chDot :: (n ++ rest)) (.name n :: cs)
  | index {b ds i rest cs} : IsIndex limit ds i → Tail limit false rest cs →
      Tail limit b (chOpen :: (ds ++ chClose :: rest)) (.index i :: cs)

/-- The text that stands for what was already consumed in a state. -/
def consumed : PathState → Str
  | .insideIndex => [chOpen]
  | .expectingName => [chDot]
  | _ => []

theorem absNext_after {cfg : Cfg} {st : PathState} {r : Str} {t : PathComponent} {st' : PathState}
    {r' : Str} (hst : st = .insideIndex ∨ st = .expectingName ∨ st = .afterIndex)
    (h : absNext cfg st r = .tok t st' r') :
    (∃ n, IsName n ∧ t = .name n ∧ (st' = .done ∧ r' = [] ∨ st' = .insideIndex ∨ st' = .expectingName) ∧
        consumed st ++ r = chDot :: (n ++ (consumed st' ++ r'))) ∨
    (∃ ds i, IsIndex cfg.usizeMod ds i ∧ t = .index i ∧ st' = .afterIndex ∧
        consumed st ++ r = chOpen :: (ds ++ chClose :: r')) := by
  have hexp : ∀ r, absExpect r = .tok t st' r' →
      ∃ n, IsName n ∧ t = .name n ∧ (st' = .done ∧ r' = [] ∨ st' = .insideIndex ∨ st' = .expectingName) ∧
        r = n ++ (consumed st' ++ r') := by
    intro r h
    unfold absExpect at h
    cases r with
    | nil => cases h
    | cons c r =>
      simp only [] at h
      by_cases hs : startByte c = true
      · rw [if_pos hs] at h
        obtain ⟨n, hn, ht, h3⟩ := absName_tok hs h
        refine ⟨n, hn, ht, ?_⟩
        rcases h3 with ⟨rfl, rfl, h3⟩ | ⟨rfl, h3⟩ | ⟨rfl, h3⟩ <;> simp [consumed, h3]
      · rw [if_neg hs] at h; cases h
  rcases hst with rfl | rfl | rfl
  · cases r with
    | nil => simp [absNext] at h
    | cons c r =>
      simp only [absNext] at h
      obtain ⟨ds, i, hi, ht, hst, hr⟩ := absIndex_tok h
      exact .inr ⟨ds, i, hi, ht, hst, by simp [consumed, hr]⟩
  · cases r with
    | nil => simp [absNext] at h
    | cons c r =>
      simp only [absNext] at h
      obtain ⟨n, hn, ht, hst, hr⟩ := hexp _ h
      exact .inl ⟨n, hn, ht, hst, by rw [hr]; rfl⟩
  · cases r with
    | nil => simp [absNext] at h
    | cons c r =>
      simp only [absNext] at h
      by_cases hc : c = chOpen
      · rw [if_pos hc] at h; subst hc
        obtain ⟨ds, i, hi, ht, hst, hr⟩ := absIndex_tok h
        exact .inr ⟨ds, i, hi, ht, hst, by simp [consumed, hr]⟩
      · rw [if_neg hc] at h
        by_cases hd : c = chDot
        · rw [if_pos hd] at h; subst hd
          cases r with
          | nil => cases h
          | cons c' r =>
            obtain ⟨n, hn, ht, hst, hr⟩ := hexp _ h
            exact .inl ⟨n, hn, ht, hst, by rw [hr]; rfl⟩
        · rw [if_neg hd] at h; cases h

theorem absToks_tail {cfg : Cfg} {st : PathState} {r : Str} {cs : List PathComponent}
    (h : AbsToks cfg st r cs true) :
    (st = .insideIndex ∨ st = .expectingName → Tail cfg.usizeMod true (consumed st ++ r) cs) ∧
    (st = .afterIndex → Tail cfg.usizeMod false r cs) ∧
    (st = .done → cs = []) := by
  generalize hb : true = b at h
  induction h with
  | bad => cases hb
  | @stop st r hs =>
    refine ⟨?_, ?_, fun _ => rfl⟩
    · rintro (rfl | rfl) <;> cases r with
      | nil => first | exact .opn | exact .dot
      | cons c r =>
        simp only [absNext] at hs
        first | exact absurd hs (absIndex_ne_stop _ _) | exact absurd hs (absExpect_ne_stop _)
    · rintro rfl
      cases r with
      | nil => exact .nil
      | cons c r =>
        simp only [absNext] at hs
        by_cases hc : c = chOpen
        · rw [if_pos hc] at hs; exact absurd hs (absIndex_ne_stop _ _)
        · rw [if_neg hc] at hs
          by_cases hd : c = chDot
          · rw [if_pos hd] at hs; subst hd
            cases r with
            | nil => exact .dot
            | cons c' r => exact absurd hs (absExpect_ne_stop _)
          · rw [if_neg hd] at hs; cases hs
  | @tok st r c st' r' cs b hn _ ih =>
    subst hb
    have ih := ih rfl
    have key : ∀ b, (st = .insideIndex ∨ st = .expectingName ∨ st = .afterIndex) →
        Tail cfg.usizeMod b (consumed st ++ r) (c :: cs) := by
      intro b hst
      rcases absNext_after hst hn with ⟨n, hname, rfl, hst', hr⟩ | ⟨ds, i, hi, rfl, rfl, hr⟩
      · rw [hr]
        refine .name hname ?_
        rcases hst' with ⟨rfl, rfl⟩ | rfl | rfl
        · rw [ih.2.2 rfl]; exact .nil
        · exact ih.1 (.inl rfl)
        · exact ih.1 (.inr rfl)
      · rw [hr]
        exact .index hi (ih.2.1 rfl)
    refine ⟨fun h => key true (h.elim .inl (.inr ∘ .inl)), ?_, ?_⟩
    · rintro rfl; exact key false (.inr (.inr rfl))
    · rintro rfl; cases r <;> simp [absNext] at hn

theorem startByte_of_isName {c : UInt8} {n : Str} (h : IsName (c :: n)) : startByte c = true := by
  cases h with
  | mk _ _ hb _ => exact (startByte_iff _).2 hb

theorem tail_absToks {limit : Nat} {cfg : Cfg} (hl : limit = cfg.usizeMod) {b : Bool} {r : Str}
    {cs : List PathComponent} (h : Tail limit b r cs) :
    (b = true → ∀ n, IsName n → ∃ st r', absName (n ++ r) = .tok (.name n) st r' ∧ AbsToks cfg st r' cs true) ∧
    (b = false → AbsToks cfg .afterIndex r cs true) := by
  induction h with
  | nil =>
    refine ⟨fun _ n hn => ⟨.done, [], ?_, .stop (by simp [absNext])⟩, fun _ => .stop (by simp [absNext])⟩
    simpa using absName_nil hn
  | dot =>
    refine ⟨fun _ n hn => ⟨.expectingName, [], absName_dot hn, .stop (by simp [absNext])⟩,
      fun _ => .stop ?_⟩
    simp [absNext, show ¬ chDot = chOpen by decide]
  | opn =>
    refine ⟨fun _ n hn => ⟨.insideIndex, [], absName_open hn, .stop (by simp [absNext])⟩, fun h => by cases h⟩
  | @name b n' rest cs hn' _ ih =>
    obtain ⟨st, r', h1, h2⟩ := ih.1 rfl n' hn'
    have hcons : ∃ c t, n' ++ rest = c :: t ∧ startByte c = true := by
      cases hn' with
      | mk c t hc ht => exact ⟨c, t ++ rest, rfl, (startByte_iff _).2 hc⟩
    obtain ⟨c, t, hct, hsb⟩ := hcons
    constructor
    · intro _ n hn
      refine ⟨.expectingName, n' ++ rest, absName_dot hn, .tok (c := .name n') (st' := st) (r' := r') ?_ h2⟩
      rw [hct] at h1 ⊢
      simp [absNext, absExpect, hsb, h1]
    · intro _
      refine .tok (c := .name n') (st' := st) (r' := r') ?_ h2
      rw [hct] at h1 ⊢
      simp [absNext, absExpect, hsb, h1, show ¬ chDot = chOpen by decide]
  | @index b ds i rest cs hi _ ih =>
    have h2 := ih.2 rfl
    subst hl
    have h1 := absIndex_index (r := rest) hi
    constructor
    · intro _ n hn
      refine ⟨.insideIndex, ds ++ chClose :: rest, absName_open hn,
        .tok (c := .index i) (st' := .afterIndex) (r' := rest) ?_ h2⟩
      have : ∃ c t, ds ++ chClose :: rest = c :: t := by
        cases ds with
        | nil => exact ⟨_, _, rfl⟩
        | cons c t => exact ⟨_, _, rfl⟩
      obtain ⟨c, t, hct⟩ := this
      rw [hct] at h1 ⊢
      simp [absNext, h1]
    · intro _
      refine .tok (c := .index i) (st' := .afterIndex) (r' := rest) ?_ h2
      simp [absNext, h1]

/-- `Tail` is `Parts` with an optional dangling separator. -/
theorem tail_iff {limit : Nat} {b : Bool} {r : Str} {cs : List PathComponent} :
    Tail limit b r cs ↔
      Parts limit r cs ∨ (∃ q, r = q ++ [chDot] ∧ Parts limit q cs) ∨
      (∃ q, r = q ++ [chOpen] ∧ Parts limit q cs ∧
        ((cs = [] ∧ b = true) ∨ ∃ n, cs.getLast? = some (.name n))) := by
  constructor
  · intro h
    induction h with
    | nil => exact .inl .nil
    | dot => exact .inr (.inl ⟨[], rfl, .nil⟩)
    | opn => exact .inr (.inr ⟨[], rfl, .nil, .inl ⟨rfl, rfl⟩⟩)
    | @name b n rest cs hn _ ih =>
      rcases ih with h | ⟨q, rfl, h⟩ | ⟨q, rfl, h, h'⟩
      · exact .inl (by simpa [chDot] using Parts.name hn h)
      · exact .inr (.inl ⟨[46] ++ n ++ q, by simp [chDot], Parts.name hn h⟩)
      · refine .inr (.inr ⟨[46] ++ n ++ q, by simp [chDot], Parts.name hn h, .inr ?_⟩)
        rcases h' with ⟨rfl, -⟩ | ⟨m, hm⟩
        · exact ⟨n, rfl⟩
        · exact ⟨m, by simp [List.getLast?_cons, hm]⟩
    | @index b ds i rest cs hi _ ih =>
      rcases ih with h | ⟨q, rfl, h⟩ | ⟨q, rfl, h, h'⟩
      · exact .inl (by simpa [chOpen, chClose] using Parts.index hi h)
      · exact .inr (.inl ⟨[91] ++ ds ++ [93] ++ q, by simp [chOpen, chClose], Parts.index hi h⟩)
      · refine .inr (.inr ⟨[91] ++ ds ++ [93] ++ q, by simp [chOpen, chClose], Parts.index hi h, .inr ?_⟩)
        rcases h' with ⟨rfl, h'⟩ | ⟨m, hm⟩
        · exact absurd h' (by decide)
        · exact ⟨m, by simp [List.getLast?_cons, hm]⟩
  · rintro (h | ⟨q, rfl, h⟩ | ⟨q, rfl, h, h'⟩)
    · induction h generalizing b with
      | nil => exact .nil
      | name hn _ ih => simpa [chDot, chOpen] using Tail.name hn ih
      | index hi _ ih => simpa [chOpen, chClose, chDot] using Tail.index hi ih
    · induction h generalizing b with
      | nil => exact .dot
      | name hn _ ih => simpa [chDot, chOpen] using Tail.name hn ih
      | index hi _ ih => simpa [chOpen, chClose, chDot] using Tail.index hi ih
    · induction h generalizing b with
      | nil =>
        rcases h' with ⟨-, rfl⟩ | ⟨n, h⟩
        · exact .opn
        · cases h
      | @name n rest cs hn _ ih =>
        have : Tail limit true (rest ++ [chOpen]) cs := by
          apply ih
          cases cs with
          | nil => exact .inl ⟨rfl, rfl⟩
          | cons c cs =>
            rcases h' with ⟨h, -⟩ | ⟨m, h⟩
            · cases h
            · exact .inr ⟨m, by rwa [List.getLast?_cons_cons] at h⟩
        simpa [chDot, chOpen] using Tail.name hn this
      | @index ds rest i cs hi _ ih =>
        have : Tail limit false (rest ++ [chOpen]) cs := by
          apply ih
          cases cs with
          | nil =>
            rcases h' with ⟨h, -⟩ | ⟨m, h⟩
            · cases h
            · cases h
          | cons c cs =>
            rcases h' with ⟨h, -⟩ | ⟨m, h⟩
            · cases h
            · exact .inr ⟨m, by rwa [List.getLast?_cons_cons] at h⟩
        simpa [chOpen, chClose, chDot] using Tail.index hi this

/-- The abstract run from the start accepts exactly the accepted paths. -/
theorem absToks_iff (cfg : Cfg) (p : Str) (cs : List PathComponent) :
    AbsToks cfg .start p cs true ↔ AcceptedPath cfg.usizeMod p cs := by
  constructor
  · intro h
    cases h with
    | stop h =>
      cases p with
      | nil => exact .strict .empty
      | cons c r =>
        simp only [absNext] at h
        repeat' split at h
        · exact absurd h (absIndex_ne_stop _ _)
        · exact absurd h (absName_ne_stop _)
        · cases h
    | @tok _ _ c st' r' cs _ h1 h2 =>
      cases p with
      | nil => simp [absNext] at h1
      | cons d r =>
        have ht := absToks_tail h2
        simp only [absNext] at h1
        by_cases hd : d = chOpen
        · rw [if_pos hd] at h1; subst hd
          obtain ⟨ds, i, hi, rfl, rfl, hr⟩ := absIndex_tok h1
          subst hr
          rcases tail_iff.1 (ht.2.1 rfl) with h | ⟨q, rfl, h⟩ | ⟨q, rfl, h, h'⟩
          · exact .strict (by simpa [chOpen, chClose] using Path.index hi h)
          · simpa [chDot, chOpen, chClose] using AcceptedPath.danglingDot (Path.index hi h) (by simp)
          · rcases h' with ⟨-, h'⟩ | ⟨n, h'⟩
            · cases h'
            · simpa [chOpen, chClose] using AcceptedPath.danglingOpen (Path.index hi h) (n := n)
                (by simp [List.getLast?_cons, h'])
        · rw [if_neg hd] at h1
          by_cases hs : startByte d = true
          · rw [if_pos hs] at h1
            obtain ⟨n, hn, rfl, h⟩ := absName_tok hs h1
            have ht' : Tail cfg.usizeMod true (consumed st' ++ r') cs := by
              rcases h with ⟨rfl, rfl, h⟩ | ⟨rfl, h⟩ | ⟨rfl, h⟩
              · rw [ht.2.2 rfl]; exact .nil
              · exact ht.1 (.inl rfl)
              · exact ht.1 (.inr rfl)
            have hp : d :: r = n ++ (consumed st' ++ r') := by
              rcases h with ⟨rfl, rfl, h⟩ | ⟨rfl, h⟩ | ⟨rfl, h⟩ <;> simp [consumed, h]
            rw [hp]
            rcases tail_iff.1 ht' with h | ⟨q, hq, h⟩ | ⟨q, hq, h, h'⟩
            · exact .strict (Path.name hn h)
            · rw [hq]
              simpa [chDot] using AcceptedPath.danglingDot (Path.name hn h) (by simp)
            · rw [hq]
              have hl : ∃ m, (PathComponent.name n :: cs).getLast? = some (.name m) := by
                rcases h' with ⟨rfl, -⟩ | ⟨m, h'⟩
                · exact ⟨n, rfl⟩
                · exact ⟨m, by simp [List.getLast?_cons, h']⟩
              obtain ⟨m, hm⟩ := hl
              simpa [chOpen] using AcceptedPath.danglingOpen (Path.name hn h) hm
          · rw [if_neg hs] at h1; cases h1
  · intro h
    have hname : ∀ n r cs, IsName n → Tail cfg.usizeMod true r cs →
        AbsToks cfg .start (n ++ r) (.name n :: cs) true := by
      intro n r cs hn ht
      obtain ⟨st, r', h1, h2⟩ := (tail_absToks rfl ht).1 rfl n hn
      refine .tok ?_ h2
      obtain ⟨c, t, hct, hsb⟩ : ∃ c t, n ++ r = c :: t ∧ startByte c = true := by
        cases hn with
        | mk c t hc ht => exact ⟨c, t ++ r, rfl, (startByte_iff _).2 hc⟩
      rw [hct] at h1 ⊢
      have : c ≠ chOpen := by rintro rfl; revert hsb; decide
      simp [absNext, hsb, this, h1]
    have hindex : ∀ ds i r cs, IsIndex cfg.usizeMod ds i → Tail cfg.usizeMod false r cs →
        AbsToks cfg .start (chOpen :: (ds ++ chClose :: r)) (.index i :: cs) true := by
      intro ds i r cs hi ht
      refine .tok ?_ ((tail_absToks rfl ht).2 rfl)
      simp [absNext, absIndex_index hi]
    cases h with
    | strict h =>
      cases h with
      | empty => exact .stop (by simp [absNext])
      | name hn h => exact hname _ _ _ hn (tail_iff.2 (.inl h))
      | index hi h => simpa [chOpen, chClose] using hindex _ _ _ _ hi (tail_iff.2 (.inl h))
    | danglingDot h hne =>
      cases h with
      | empty => exact absurd rfl hne
      | name hn h =>
        rw [List.append_assoc]
        exact hname _ _ _ hn (tail_iff.2 (.inr (.inl ⟨_, rfl, h⟩)))
      | index hi h =>
        simpa [chOpen, chClose, chDot] using
          hindex _ _ _ _ hi (tail_iff.2 (.inr (.inl ⟨_, rfl, h⟩)))
    | danglingOpen h hl =>
      cases h with
      | empty => cases hl
      | @name n rest cs hn h =>
        rw [List.append_assoc]
        refine hname _ _ _ hn (tail_iff.2 (.inr (.inr ⟨_, rfl, h, ?_⟩)))
        cases cs with
        | nil => exact .inl ⟨rfl, rfl⟩
        | cons c cs => exact .inr ⟨_, by rwa [List.getLast?_cons_cons] at hl⟩
      | @index ds rest i cs hi h =>
        have : AbsToks cfg .start (chOpen :: (ds ++ chClose :: (rest ++ [chOpen]))) (.index i :: cs) true := by
          refine hindex _ _ _ _ hi (tail_iff.2 (.inr (.inr ⟨_, rfl, h, ?_⟩)))
          cases cs with
          | nil => cases hl
          | cons c cs => exact .inr ⟨_, by rwa [List.getLast?_cons_cons] at hl⟩
        simpa [chOpen, chClose] using this

end Btf

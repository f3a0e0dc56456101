import Verif.Proofs.MessagePath

/-!
# Runs of the iterator, and the texts they have read
-/

namespace Btf

open Spec PathIter

theorem isIndex_mono {l l' : Nat} (h : l ≤ l') {ds : Str} {i : Nat} (hi : IsIndex l ds i) : IsIndex l' ds i :=
  ⟨hi.nonempty, hi.digits, hi.value, Nat.lt_of_lt_of_le hi.fits h⟩

theorem parts_mono {l l' : Nat} (h : l ≤ l') {p : Str} {cs : List PathComponent} (hp : Parts l p cs) : Parts l' p cs := by
  induction hp with
  | nil => exact .nil
  | name hn _ ih => exact .name hn ih
  | index hi _ ih => exact .index (isIndex_mono h hi) ih

theorem path_mono {l l' : Nat} (h : l ≤ l') {p : Str} {cs : List PathComponent} (hp : Path l p cs) : Path l' p cs := by
  cases hp with
  | empty => exact .empty
  | name hn hp => exact .name hn (parts_mono h hp)
  | index hi hp => exact .index (isIndex_mono h hi) (parts_mono h hp)

theorem path_append_parts {limit : Nat} {p q : Str} {cs ds : List PathComponent} (hp : Path limit p cs) (hne : cs ≠ [])
    (hq : Parts limit q ds) : Path limit (p ++ q) (cs ++ ds) := by
  cases hp with
  | empty => exact absurd rfl hne
  | name hn hp => rw [List.append_assoc]; exact .name hn (parts_append hp hq)
  | index hi hp => rw [List.append_assoc]; exact .index hi (parts_append hp hq)

/-- Numeric bytes after an ASCII byte are digits. -/
theorem digits_of_numeric {s : Str} (hu : Utf8Like s) : ∀ (ds a x : Str) (b : UInt8), b < 0x80 → s = a ++ b :: (ds ++ x) →
    (∀ d ∈ ds, isNumeric d = true) → ∀ d ∈ ds, Digit d
  | [], _, _, _, _, _, _, _, h => by cases h
  | c :: ds, a, x, b, hb, hs, hn, d, hd => by
    have hc : c < 0x80 := by
      by_contra hc
      have hc1 : (0x80 : UInt8) ≤ c := by simpa using hc
      have hnum := (isNumeric_iff c).1 (hn c (by simp))
      have hc2 : c < 0xC0 := by
        rw [UInt8.lt_iff_toNat_lt]
        unfold NumericSign at hnum
        simp
        omega
      obtain ⟨j, e, hj, he, he'⟩ := hu (a.length + 1) c (by rw [hs]; simp) hc1 hc2
      have : j = a.length := by omega
      subst this
      rw [hs] at he
      simp at he
      subst he
      exact absurd hb (by simpa using he')
    have hdig : Digit c := by
      have hnum := (isNumeric_iff c).1 (hn c (by simp))
      rw [UInt8.lt_iff_toNat_lt] at hc
      unfold NumericSign at hnum
      unfold Digit
      simp at hc
      omega
    rcases List.mem_cons.1 hd with rfl | hd
    · exact hdig
    · exact digits_of_numeric hu ds (a ++ [b]) x c hc (by rw [hs]; simp) (fun d h => hn d (List.mem_cons_of_mem _ h)) d hd

theorem parseUsizeError_digits (cfg : Cfg) : ∀ (ds : Str) (acc : Nat), (∀ d ∈ ds, Digit d) →
    parseUsizeLoop cfg ds acc = none → parseUsizeError cfg ds acc = true
  | [], _, _, h => by cases h
  | b :: ds, acc, hd, h => by
    have hb : (0x30 : UInt8) ≤ b ∧ b ≤ 0x39 := by
      have := hd b (by simp)
      unfold Digit at this
      rw [UInt8.le_iff_toNat_le, UInt8.le_iff_toNat_le]
      exact this
    rw [parseUsizeLoop, if_pos hb] at h
    rw [parseUsizeError, if_pos hb]
    split
    · rename_i h1
      rw [if_pos h1] at h
      split
      · rename_i h2
        rw [if_pos h2] at h
        exact parseUsizeError_digits cfg ds _ (fun d h => hd d (List.mem_cons_of_mem _ h)) h
      · rfl
    · rfl

theorem parseUsize_digits {cfg : Cfg} {ds : Str} (hne : ds ≠ []) (hd : ∀ d ∈ ds, Digit d) (h : parseUsize cfg ds = none) :
    cfg.usizeMod ≤ decimal ds ∧ parseUsizeError cfg ds 0 = true := by
  constructor
  · by_contra hlt
    have := (parseUsize_eq_some cfg ds (decimal ds)).2 ⟨hne, hd, rfl, by omega⟩
    rw [h] at this
    cases this
  · rw [parseUsize, if_neg hne] at h
    exact parseUsizeError_digits cfg ds 0 hd h

/-- What a component looks like, and that it does not depend on what follows. -/
theorem absNext_step {cfg : Cfg} {st : PathState} {r : Str} {t : PathComponent} {st' : PathState} {r' : Str}
    (hst : st ≠ .insideName) (h : absNext cfg st r = .tok t st' r') :
    ((∃ n, IsName n ∧ t = .name n ∧ (st' = .done ∧ r' = [] ∨ st' = .insideIndex ∨ st' = .expectingName) ∧
        consumed st ++ r = (if st = .start then [] else [chDot]) ++ n ++ (consumed st' ++ r')) ∨
      (∃ ds i, IsIndex cfg.usizeMod ds i ∧ t = .index i ∧ st' = .afterIndex ∧
        consumed st ++ r = chOpen :: (ds ++ chClose :: r'))) ∧
    (st' ≠ .done → ∃ w, r = w ++ r' ∧ ∀ x, absNext cfg st (w ++ x) = .tok t st' x) := by
  -- names and indices, from where they start
  have name : ∀ {c r}, startByte c = true → absName (c :: r) = .tok t st' r' →
      ∃ n, IsName n ∧ t = .name n ∧ (st' = .done ∧ r' = [] ∨ st' = .insideIndex ∨ st' = .expectingName) ∧
        c :: r = n ++ (consumed st' ++ r') ∧ (st' ≠ .done → ∃ m w, w = c :: m ∧ c :: r = w ++ r' ∧
          ∀ x, absName (w ++ x) = .tok t st' x) := by
    intro c r hs h
    obtain ⟨n, hn, ht, h3⟩ := absName_tok hs h
    refine ⟨n, hn, ht, ?_⟩
    have hcons : ∀ {s : UInt8}, c :: r = n ++ s :: r' → ∃ m, n = c :: m := by
      intro s h
      cases hn with
      | mk b rest _ _ => injection h with h _; subst h; exact ⟨rest, rfl⟩
    rcases h3 with ⟨rfl, rfl, h3⟩ | ⟨rfl, h3⟩ | ⟨rfl, h3⟩
    · exact ⟨.inl ⟨rfl, rfl⟩, by simpa [consumed] using h3, fun h => absurd rfl h⟩
    · obtain ⟨m, hm⟩ := hcons h3
      refine ⟨.inr (.inl rfl), by simpa [consumed] using h3, fun _ => ⟨m ++ [chOpen], n ++ [chOpen], by rw [hm]; rfl, by simp [h3], fun x => ?_⟩⟩
      rw [List.append_assoc, List.singleton_append, absName_open hn, ht]
    · obtain ⟨m, hm⟩ := hcons h3
      refine ⟨.inr (.inr rfl), by simpa [consumed] using h3, fun _ => ⟨m ++ [chDot], n ++ [chDot], by rw [hm]; rfl, by simp [h3], fun x => ?_⟩⟩
      rw [List.append_assoc, List.singleton_append, absName_dot hn, ht]
  have index : ∀ {r}, absIndex cfg r = .tok t st' r' →
      ∃ ds i, IsIndex cfg.usizeMod ds i ∧ t = .index i ∧ st' = .afterIndex ∧ r = ds ++ chClose :: r' ∧
        ∃ w, w ≠ [] ∧ r = w ++ r' ∧ ∀ x, absIndex cfg (w ++ x) = .tok t st' x := by
    intro r h
    obtain ⟨ds, i, hi, ht, hst, hr⟩ := absIndex_tok h
    refine ⟨ds, i, hi, ht, hst, hr, ds ++ [chClose], by simp, by simp [hr], fun x => ?_⟩
    rw [List.append_assoc, List.singleton_append, absIndex_index hi, ht, hst]
  cases r with
  | nil => cases st <;> simp [absNext] at h
  | cons c r =>
    cases st with
    | insideName => exact absurd rfl hst
    | done => simp [absNext] at h
    | error => simp [absNext] at h
    | start =>
      rw [absNext] at h
      by_cases hc : c = chOpen
      · rw [if_pos hc] at h
        subst hc
        obtain ⟨ds, i, hi, ht, hst', hr, w, _, hw, hw'⟩ := index h
        refine ⟨.inr ⟨ds, i, hi, ht, hst', by simp [consumed, hr]⟩, fun _ => ⟨chOpen :: w, by simp [hw], fun x => ?_⟩⟩
        rw [List.cons_append, absNext, if_pos rfl, hw']
      · rw [if_neg hc] at h
        by_cases hs : startByte c = true
        · rw [if_pos hs] at h
          obtain ⟨n, hn, ht, hst', hr, hw⟩ := name hs h
          refine ⟨.inl ⟨n, hn, ht, hst', by simpa [consumed] using hr⟩, fun hnd => ?_⟩
          obtain ⟨m, w, rfl, hw1, hw2⟩ := hw hnd
          refine ⟨_, hw1, fun x => ?_⟩
          rw [List.cons_append, absNext, if_neg hc, if_pos hs, ← List.cons_append, hw2]
        · rw [if_neg hs] at h; cases h
    | insideIndex =>
      simp only [absNext] at h
      obtain ⟨ds, i, hi, ht, hst', hr, w, hne, hw, hw'⟩ := index h
      refine ⟨.inr ⟨ds, i, hi, ht, hst', by simp [consumed, hr]⟩, fun _ => ⟨w, by simp [hw], fun x => ?_⟩⟩
      obtain ⟨b, w', rfl⟩ := List.exists_cons_of_ne_nil hne
      rw [List.cons_append]
      simp only [absNext]
      exact hw' x
    | expectingName =>
      simp only [absNext, absExpect] at h
      by_cases hs : startByte c = true
      · rw [if_pos hs] at h
        obtain ⟨n, hn, ht, hst', hr, hw⟩ := name hs h
        refine ⟨.inl ⟨n, hn, ht, hst', by rw [hr]; simp [consumed]⟩, fun hnd => ?_⟩
        obtain ⟨m, w, rfl, hw1, hw2⟩ := hw hnd
        refine ⟨_, hw1, fun x => ?_⟩
        rw [List.cons_append]
        simp only [absNext, absExpect]
        rw [if_pos hs, ← List.cons_append, hw2]
      · rw [if_neg hs] at h; cases h
    | afterIndex =>
      simp only [absNext] at h
      by_cases hc : c = chOpen
      · rw [if_pos hc] at h
        subst hc
        obtain ⟨ds, i, hi, ht, hst', hr, w, _, hw, hw'⟩ := index h
        refine ⟨.inr ⟨ds, i, hi, ht, hst', by simp [consumed, hr]⟩, fun _ => ⟨chOpen :: w, by simp [hw], fun x => ?_⟩⟩
        simp only [List.cons_append, absNext, if_pos]
        exact hw' x
      · rw [if_neg hc] at h
        by_cases hd : c = chDot
        · rw [if_pos hd] at h
          subst hd
          cases r with
          | nil => cases h
          | cons c r =>
            simp only [absExpect] at h
            by_cases hs : startByte c = true
            · rw [if_pos hs] at h
              obtain ⟨n, hn, ht, hst', hr, hw⟩ := name hs h
              refine ⟨.inl ⟨n, hn, ht, hst', by rw [hr]; simp [consumed]⟩, fun hnd => ?_⟩
              obtain ⟨m, w, rfl, hw1, hw2⟩ := hw hnd
              refine ⟨chDot :: c :: m, by rw [hw1]; rfl, fun x => ?_⟩
              simp only [List.cons_append, absNext, absExpect]
              rw [if_neg (by decide), if_pos trivial, if_pos hs, ← List.cons_append, hw2]
            · rw [if_neg hs] at h; cases h
        · rw [if_neg hd] at h; cases h

theorem nextT_eq {cfg : Cfg} {it it' : PathIter} {c : PathComponent} (h : it.nextT cfg = (.ok (some c), it')) :
    it.next cfg = (.ok (some c), it') := by rw [← nextT_outcome, h]; rfl

/-- What the iterator has read of `s` after yielding `pre`: `p`, and a separator in some states. -/
structure Read (cfg : Cfg) (s : Str) (pre : List PathComponent) (it : PathIter) (p : Str) : Prop where
  path : it.path = s
  inv : PathInv it
  notInside : it.state ≠ .insideName
  notError : it.state ≠ .error
  split : s = p ++ (consumed it.state ++ it.path.drop it.position)
  taken : it.position = (p ++ consumed it.state).length
  isPath : Path cfg.usizeMod p pre
  start : it.state = .start ↔ pre = []
  name : ∀ n, pre.getLast? = some (.name n) → it.state ≠ .afterIndex
  done : it.state = .done → it.path.drop it.position = []
  resume : it.state ≠ .done → ∀ x cs, AbsToks cfg .start (p ++ (consumed it.state ++ x)) cs true → ∃ cs', AbsToks cfg it.state x cs' true

theorem read_new {cfg : Cfg} {s : Str} (hu : Utf8Like s) : Read cfg s [] (PathIter.new s) [] where
  path := rfl
  inv := pathInv_new hu
  notInside := by simp [PathIter.new]
  notError := by simp [PathIter.new]
  split := by simp [PathIter.new, consumed]
  taken := rfl
  isPath := .empty
  start := by simp [PathIter.new]
  name := by simp
  done := by simp [PathIter.new]
  resume := fun _ x cs h => ⟨cs, h⟩

theorem read_step {cfg : Cfg} {s : Str} {pre : List PathComponent} {it it' : PathIter} {p : Str} {c : PathComponent}
    (h : Read cfg s pre it p) (hn : it.nextT cfg = (.ok (some c), it')) : ∃ p', Read cfg s (pre ++ [c]) it' p' := by
  have hag := next_agrees cfg it h.inv
  rw [nextT_eq hn] at hag
  generalize hx : absNext cfg it.state (it.path.drop it.position) = x at hag
  cases hag with
  | @tok c st' r' _ h1 h2 h3 h4 =>
    subst h2 h3
    obtain ⟨hshape, hext⟩ := absNext_step h.notInside hx
    have hpos : ∀ p', s = p' ++ (consumed it'.state ++ it'.path.drop it'.position) →
        it'.position = (p' ++ consumed it'.state).length := by
      intro p' hs
      have hl := congrArg List.length hs
      have := h4.bound
      rw [h1, h.path] at hl this
      simp at hl ⊢
      omega
    have hresume : ∀ p', s = p' ++ (consumed it'.state ++ it'.path.drop it'.position) → it'.state ≠ .done →
        ∀ x cs, AbsToks cfg .start (p' ++ (consumed it'.state ++ x)) cs true → ∃ cs', AbsToks cfg it'.state x cs' true := by
      intro p' hs hnd x cs hcs
      obtain ⟨w, hw, hw'⟩ := hext hnd
      have heq : p' ++ consumed it'.state = p ++ consumed it.state ++ w := by
        have e := h.split
        rw [hs, hw, ← List.append_assoc, ← List.append_assoc, ← List.append_assoc] at e
        exact List.append_cancel_right e
      rw [← List.append_assoc, heq, List.append_assoc, List.append_assoc] at hcs
      have hnd0 : it.state ≠ .done := by
        intro hd; rw [hd] at hx; simp [absNext] at hx
      obtain ⟨cs', hcs'⟩ := h.resume hnd0 _ _ hcs
      generalize hb : true = b at hcs'
      cases hcs' with
      | stop hh => rw [hw'] at hh; cases hh
      | bad hh => cases hb
      | tok hh hh' => rw [hw'] at hh; cases hh; subst hb; exact ⟨_, hh'⟩
    rcases hshape with ⟨n, hname, rfl, hst', hr⟩ | ⟨ds, i, hi, rfl, hst', hr⟩
    · have hs : s = p ++ ((if it.state = .start then [] else [chDot]) ++ n) ++ (consumed it'.state ++ it'.path.drop it'.position) := by
        rw [h.split, hr, h1]; simp
      refine ⟨_, h1.trans h.path, h4, ?_, ?_, hs, hpos _ hs, ?_, ?_, ?_, ?_, hresume _ hs⟩
      · rcases hst' with ⟨h, _⟩ | h | h <;> rw [h] <;> simp
      · rcases hst' with ⟨h, _⟩ | h | h <;> rw [h] <;> simp
      · by_cases hst : it.state = .start
        · have hpre := h.start.1 hst
          have hp := h.isPath
          subst hpre
          rw [if_pos hst]
          have : p = [] := by
            cases hp
            rfl
          subst this
          have := Path.name (limit := cfg.usizeMod) hname .nil
          simpa using this
        · rw [if_neg hst]
          refine path_append_parts h.isPath (fun e => hst (h.start.2 e)) ?_
          have := Parts.name (limit := cfg.usizeMod) hname .nil
          simpa [chDot] using this
      · constructor
        · intro h'; rcases hst' with ⟨h, _⟩ | h | h <;> rw [h] at h' <;> cases h'
        · intro h'; simp at h'
      · intro n _; rcases hst' with ⟨h, _⟩ | h | h <;> rw [h] <;> simp
      · intro h'; rcases hst' with ⟨_, h⟩ | h | h
        · exact h
        · rw [h] at h'; cases h'
        · rw [h] at h'; cases h'
    · have hs : s = p ++ (chOpen :: (ds ++ [chClose])) ++ (consumed it'.state ++ it'.path.drop it'.position) := by
        rw [h.split, hr, hst', h1]; simp [consumed]
      refine ⟨_, h1.trans h.path, h4, ?_, ?_, hs, hpos _ hs, ?_, ?_, ?_, ?_, hresume _ hs⟩
      · rw [hst']; simp
      · rw [hst']; simp
      · by_cases hst : it.state = .start
        · have hpre := h.start.1 hst
          have hp := h.isPath
          subst hpre
          have : p = [] := by
            cases hp
            rfl
          subst this
          have := Path.index (limit := cfg.usizeMod) hi .nil
          simpa [chOpen, chClose] using this
        · refine path_append_parts h.isPath (fun e => hst (h.start.2 e)) ?_
          have := Parts.index (limit := cfg.usizeMod) hi .nil
          simpa [chOpen, chClose] using this
      · constructor
        · intro h'; rw [hst'] at h'; cases h'
        · intro h'; simp at h'
      · intro n hn; simp at hn
      · intro h'; rw [hst'] at h'; cases h'

theorem steps_read {cfg : Cfg} {s : Str} {it it' : PathIter} {cs : List PathComponent} (h : Steps cfg it cs it') :
    ∀ {pre p}, Read cfg s pre it p → ∃ p', Read cfg s (pre ++ cs) it' p' := by
  induction h with
  | refl => intro pre p h; exact ⟨p, by simpa using h⟩
  | step hn _ ih =>
    intro pre p h
    obtain ⟨p1, h1⟩ := read_step h hn
    obtain ⟨p2, h2⟩ := ih h1
    exact ⟨p2, by simpa using h2⟩

/-- What is read so far can be completed. -/
theorem completes {cfg : Cfg} {s : Str} {pre : List PathComponent} {it : PathIter} {p w x : Str} (h : Read cfg s pre it p)
    (hw : it.path.drop it.position = w ++ x) (hp : Partial it.state w) :
    ∃ limit more cs, Path limit (p ++ (consumed it.state ++ w) ++ more) cs := by
  have hpre : it.state = .start → p = [] ∧ pre = [] := by
    intro hst
    have hp := h.isPath
    have := h.start.1 hst
    subst this
    cases hp
    exact ⟨rfl, rfl⟩
  have hne : it.state ≠ .start → pre ≠ [] := fun hst e => hst (h.start.2 e)
  have zero : IsName [97] := .mk 97 [] (by simp [NameStart, Letter]) (by simp)
  generalize hs : it.state = st at hp
  cases hp with
  | start => exact ⟨0, [], [], by rw [(hpre hs).1]; exact .empty⟩
  | first hn =>
    refine ⟨0, [], [.name w], ?_⟩
    rw [(hpre hs).1, show consumed .start = [] from rfl]
    have := Path.name (limit := 0) hn .nil
    simpa using this
  | @index _ _ ds hc hd =>
    rw [hc]
    have hdig : ∀ d ∈ ds, Digit d := by
      have e := h.split
      rw [hw, ← List.append_assoc (consumed it.state), hs, hc] at e
      refine digits_of_numeric (h.path ▸ h.inv.utf8) ds p x chOpen (by decide) (by rw [e]; simp) hd
    have hi : ∃ more n, IsIndex (cfg.usizeMod + (n + 1)) (ds ++ more) n := by
      cases ds with
      | nil => exact ⟨[48], 0, by simp, by simp [Digit], rfl, by omega⟩
      | cons b ds => exact ⟨[], _, by simp, by simpa using hdig, rfl, by omega⟩
    obtain ⟨more, n, hi⟩ := hi
    have hm := path_mono (Nat.le_add_right cfg.usizeMod (n + 1)) h.isPath
    by_cases hst : it.state = .start
    · refine ⟨cfg.usizeMod + (n + 1), more ++ [chClose], [.index n], ?_⟩
      rw [(hpre hst).1]
      have := Path.index hi .nil
      simpa [chOpen, chClose] using this
    · refine ⟨cfg.usizeMod + (n + 1), more ++ [chClose], pre ++ [.index n], ?_⟩
      rw [List.append_assoc]
      refine path_append_parts hm (hne hst) (ds := [.index n]) ?_
      have := Parts.index hi .nil
      simpa [chOpen, chClose] using this
  | after => exact ⟨_, [], _, by simpa [consumed] using h.isPath⟩
  | dot hst hc =>
    refine ⟨cfg.usizeMod, [97], pre ++ [.name [97]], ?_⟩
    rw [hc, List.append_assoc]
    refine path_append_parts h.isPath (hne (hs ▸ hst)) (ds := [.name [97]]) ?_
    have := Parts.name (limit := cfg.usizeMod) zero .nil
    simpa [chDot] using this
  | @dotName _ _ n hst hc hn =>
    refine ⟨cfg.usizeMod, [], pre ++ [.name n], ?_⟩
    rw [hc, List.append_assoc]
    refine path_append_parts h.isPath (hne (hs ▸ hst)) (ds := [.name n]) ?_
    have := Parts.name (limit := cfg.usizeMod) hn .nil
    simpa [chDot] using this

/-- The reasons of the iterator are true. -/
theorem pathReason_of_fault {cfg : Cfg} {s : Str} {pre : List PathComponent} {it : PathIter} {p : Str} {r : Reason}
    (h : Read cfg s pre it p) (hnd : it.state ≠ .done) (hf : Fault cfg it.state (it.path.drop it.position) it.position r) :
    PathReason cfg.usizeMod s r := by
  have hu : Utf8Like s := h.path ▸ h.inv.utf8
  cases hf with
  | @char w c x hw hpart hbad =>
    have e := h.split
    rw [hw] at e
    have hlen : it.position + w.length = (p ++ (consumed it.state ++ w)).length := by rw [h.taken]; simp; omega
    have e1 : s = (p ++ (consumed it.state ++ w)) ++ c :: x := by rw [e]; simp
    have e2 : s = (p ++ (consumed it.state ++ (w ++ [c]))) ++ x := by rw [e]; simp
    have t1 : s.take (it.position + w.length) = p ++ (consumed it.state ++ w) := by
      rw [hlen]; conv => lhs; rw [e1]
      exact List.take_left
    have t2 : s.take (it.position + w.length + 1) = p ++ (consumed it.state ++ (w ++ [c])) := by
      have : it.position + w.length + 1 = (p ++ (consumed it.state ++ (w ++ [c]))).length := by rw [hlen]; simp; omega
      rw [this]; conv => lhs; rw [e2]
      exact List.take_left
    refine .character ?_ ?_ ?_
    · have := congrArg List.length e1
      rw [List.length_append, ← hlen, List.length_cons] at this
      omega
    · rw [t1]
      exact completes h hw hpart
    · intro more cs hcs
      rw [t2] at hcs
      have := (absToks_iff cfg _ _).2 hcs
      rw [show p ++ (consumed it.state ++ (w ++ [c])) ++ more = p ++ (consumed it.state ++ (w ++ c :: more)) by simp] at this
      obtain ⟨cs', h'⟩ := h.resume hnd _ _ this
      generalize hb : true = b at h'
      cases h' with
      | stop hh => rw [hbad] at hh; cases hh
      | bad => cases hb
      | tok hh _ => rw [hbad] at hh; cases hh
  | @unclosed ds hr hd =>
    have e := h.split
    rw [hr] at e
    exact .unclosed (p := p) (ds := ds) (by rw [e]; simp [chOpen]) h.isPath
      (digits_of_numeric hu ds p [] chOpen (by decide) (by rw [e]; simp) hd)
  | @empty x hr =>
    have e := h.split
    rw [hr] at e
    exact .empty (p := p) (rest := x) (by rw [e]; simp [chOpen, chClose]) h.isPath
  | @value ds x hr hne hd hu' =>
    have e := h.split
    rw [hr] at e
    have hdig := digits_of_numeric hu ds p (chClose :: x) chOpen (by decide) (by rw [e]) hd
    obtain ⟨h1, h2⟩ := parseUsize_digits hne hdig hu'
    rw [h2]
    exact .tooLarge (p := p) (ds := ds) (rest := x) (by rw [e]; simp [chOpen, chClose]) h.isPath hdig h1

theorem begins_of_read {cfg : Cfg} {s : Str} {pre : List PathComponent} {it : PathIter} {p : Str} (h : Read cfg s pre it p) :
    Begins cfg.usizeMod s pre := by
  refine ⟨p, _, h.split, h.isPath, fun n hn b hb => ?_⟩
  have hna := h.name n hn
  have hst : it.state ≠ .start := by
    intro e
    rw [h.start.1 e] at hn
    cases hn
  cases hs : it.state with
  | done => rw [hs, h.done hs] at hb; cases hb
  | insideIndex => rw [hs] at hb; injection hb with hb; subst hb; simp [NameChar, Letter, NumericSign, chOpen]
  | expectingName => rw [hs] at hb; injection hb with hb; subst hb; simp [NameChar, Letter, NumericSign, chDot]
  | afterIndex => exact absurd hs hna
  | start => exact absurd hs hst
  | insideName => exact absurd hs h.notInside
  | error => exact absurd hs h.notError

theorem steps_yields {cfg : Cfg} {it it' : PathIter} {pre : List PathComponent} (h : Steps cfg it pre it') :
    ∀ {cs b}, Yields cfg it cs b → ∃ cs', cs = pre ++ cs' ∧ Yields cfg it' cs' b := by
  induction h with
  | refl => intro cs b h; exact ⟨cs, rfl, h⟩
  | step hn _ ih =>
    intro cs b h
    have hn' := nextT_eq hn
    cases h with
    | stop h => rw [hn'] at h; cases h
    | fail h => rw [hn'] at h; cases h
    | tok h h' =>
      rw [hn'] at h
      injection h with h1 h2
      injection h1 with h1
      injection h1 with h1
      subst h1 h2
      obtain ⟨cs', rfl, h''⟩ := ih h'
      exact ⟨cs', rfl, h''⟩

theorem steps_snoc {cfg : Cfg} {it it' it'' : PathIter} {pre : List PathComponent} {c : PathComponent} (h : Steps cfg it pre it')
    (hn : it'.nextT cfg = (.ok (some c), it'')) : Steps cfg it (pre ++ [c]) it'' := by
  induction h with
  | refl => exact .step hn .refl
  | step h1 _ ih => exact .step h1 (ih hn)

theorem nextT_err_state {cfg : Cfg} {it : PathIter} {r : Reason} (h : (it.nextT cfg).1 = .err r) : it.state ≠ .done := by
  intro hd
  rw [nextT, if_pos (.inl hd)] at h
  cases h

end Btf

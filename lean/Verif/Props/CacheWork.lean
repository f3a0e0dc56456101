import Verif.Props.Cache
import Verif.Spec.Schedule

/-!
# Property C95: the cache saves work, and calls come to an end

C49 says that the cache changes no answer. Here: it is used. As long as no insertion has panicked, an answer that was
returned once is in the cache for ever, so a later call with the same arguments does not look it up again. And a call
takes a bounded number of steps of its own thread, and can always be brought to its end.
-/

namespace Btf.Props

open Btf Spec TypeInformation CacheState

variable {cfg : Cfg} {ti : TypeInformation}

theorem moves_reachable {s s' : CacheState} {l : List Nat} (hm : Moves cfg ti s l s') (h : Reachable cfg ti s) :
    Reachable cfg ti s' := by
  induction hm with
  | nil => exact h
  | cons hs _ ih => exact ih (.step h hs)

theorem moves_append {s s' s'' : CacheState} {l l' : List Nat} (h : Moves cfg ti s l s') (h' : Moves cfg ti s' l' s'') :
    Moves cfg ti s (l ++ l') s'' := by
  induction h with
  | nil => exact h'
  | cons hs _ ih => exact .cons hs (ih h')

/-- A step leaves what is in the cache there. -/
theorem step_cached {s s' : CacheState} {i : Nat} (hs : Step cfg ti i s s') {key : CacheKey} (h : s.cache key ≠ none) :
    s'.cache key ≠ none := by
  cases hs with
  | insert k r h0 =>
    change (if key = k then some r else s.cache key) ≠ none
    split
    · simp
    · exact h
  | insertPanic k r b h0 =>
    cases b with
    | false => exact h
    | true =>
      change (if key = k then some r else s.cache key) ≠ none
      split
      · simp
      · exact h
  | _ => exact h

theorem step_poisoned {s s' : CacheState} {i : Nat} (hs : Step cfg ti i s s') (h : s'.poisoned = false) :
    s.poisoned = false := by
  cases hs with
  | insertPanic k r b h0 => cases h
  | _ => exact h

/-- What a step does to the history. -/
theorem step_history {s s' : CacheState} {i : Nat} (hs : Step cfg ti i s s') :
    s'.history = s.history ∨ ∃ ev, eventThread ev = i ∧ s'.history = ev :: s.history := by
  cases hs with
  | call key h0 => exact .inr ⟨_, rfl, rfl⟩
  | hit key r h0 h1 => exact .inr ⟨_, rfl, rfl⟩
  | failed key e fuel h0 h1 => exact .inr ⟨_, rfl, rfl⟩
  | panicked key fuel h0 h1 => exact .inr ⟨_, rfl, rfl⟩
  | writePoisoned key r h0 h1 h2 h3 => exact .inr ⟨_, rfl, rfl⟩
  | insert key r h0 => exact .inr ⟨_, rfl, rfl⟩
  | insertPanic key r b h0 =>
    refine .inr ⟨.ended i .insertPanic, rfl, ?_⟩
    cases b <;> rfl
  | _ => exact .inl rfl

/-- A thread that does not move stays where it is. -/
theorem step_other {s s' : CacheState} {i j : Nat} (hs : Step cfg ti i s s') (hne : j ≠ i) : s'.pc j = s.pc j := by
  cases hs with
  | insertPanic key r b h0 => cases b <;> exact if_neg hne
  | _ => exact if_neg hne

theorem answered_cached {s : CacheState} (h : Reachable cfg ti s) (hp : s.poisoned = false) (i : Nat) (key : CacheKey)
    (r : UInt32 × Offset) (he : Ended s.history i key (.outcome (.ok r))) : s.cache key ≠ none := by
  induction h with
  | init => obtain ⟨l, m, e, h1, -⟩ := he; change [] = _ at h1; simp at h1
  | @step s s' j h hs ih =>
    have hp0 := step_poisoned hs hp
    have old : Ended s.history i key (.outcome (.ok r)) → s'.cache key ≠ none := fun he => step_cached hs (ih hp0 he)
    have hpc := (inv_reachable h).pcs j
    cases hs with
    | call k h0 =>
      rcases ended_cons.1 he with he | ⟨he, -⟩
      · exact old he
      · cases he
    | hit k v h0 h1 =>
      rcases ended_cons.1 he with he | ⟨he, hpe⟩
      · exact old he
      · cases he
        rw [h0] at hpc
        obtain rfl := pending_unique hpe hpc
        change s.cache key ≠ none
        rw [h1]; simp
    | failed k e fuel h0 h1 =>
      rcases ended_cons.1 he with he | ⟨he, -⟩
      · exact old he
      · cases he
    | panicked k fuel h0 h1 =>
      rcases ended_cons.1 he with he | ⟨he, -⟩
      · exact old he
      · cases he
    | writePoisoned k v h0 h1 h2 h3 => rw [h3] at hp0; cases hp0
    | insert k v h0 =>
      rcases ended_cons.1 he with he | ⟨he, hpe⟩
      · exact old he
      · cases he
        rw [h0] at hpc
        obtain rfl := pending_unique hpe hpc.1
        change (if key = key then some r else s.cache key) ≠ none
        simp
    | insertPanic k v b h0 => cases hp
    | _ => exact old he

theorem unpoisoned {s : CacheState} (h : Reachable cfg ti s) (hp : ∀ j, .ended j .insertPanic ∉ s.history) :
    s.poisoned = false := by
  cases hc : s.poisoned with
  | false => rfl
  | true =>
    obtain ⟨j, hj⟩ := (cache_poison cfg ti s h).1 hc
    exact absurd hj (hp j)

/-- C95: as long as no insertion has panicked, every answer that was returned is in the cache. -/
theorem cache_remembers (cfg : Cfg) (ti : TypeInformation) (s : CacheState) (h : Reachable cfg ti s)
    (hp : ∀ j, .ended j .insertPanic ∉ s.history) (i : Nat) (t : UInt32) (p : String) (r : UInt32 × Offset)
    (he : Ended s.history i ⟨t, str p⟩ (.outcome (.ok r))) : s.cache ⟨t, str p⟩ = some r := by
  cases hc : s.cache ⟨t, str p⟩ with
  | none => exact absurd hc (answered_cached h (unpoisoned h hp) i _ r he)
  | some r' =>
    have := offset_of_deterministic cfg ti t p _ _ ((inv_reachable h).cache _ _ hc)
      (cache_invisible cfg ti s h i t _ _ he)
    cases this
    rfl

/-- C95: an entry of the cache stays there and does not change. -/
theorem cache_keeps (cfg : Cfg) (ti : TypeInformation) (s s' : CacheState) (l : List Nat) (h : Reachable cfg ti s)
    (hm : Moves cfg ti s l s') (t : UInt32) (p : String) (r : UInt32 × Offset) (hc : s.cache ⟨t, str p⟩ = some r) :
    s'.cache ⟨t, str p⟩ = some r := by
  have h' := moves_reachable hm h
  have : s'.cache ⟨t, str p⟩ ≠ none := by
    have h0 : s.cache ⟨t, str p⟩ ≠ none := by rw [hc]; simp
    clear hc h h'
    induction hm with
    | nil => exact h0
    | cons hs _ ih => exact ih (step_cached hs h0)
  cases hc' : s'.cache ⟨t, str p⟩ with
  | none => exact absurd hc' this
  | some r' =>
    have := offset_of_deterministic cfg ti t p _ _ ((inv_reachable h').cache _ _ hc') ((inv_reachable h).cache _ _ hc)
    cases this
    rfl

theorem computing_unanswered {s : CacheState} (h : Reachable cfg ti s)
    (hp : s.poisoned = false) (i : Nat) (key : CacheKey) (hi : s.pc i = .computing key) :
    ∃ later earlier, s.history = later ++ .call i key :: earlier ∧ (∀ ev ∈ later, eventThread ev ≠ i) ∧
      ∀ j r, ¬ Ended earlier j key (.outcome (.ok r)) := by
  induction h with
  | init => cases hi
  | @step s s' j h hs ih =>
    have hp0 := step_poisoned hs hp
    by_cases hij : i = j
    · subst hij
      have hpc := (inv_reachable h).pcs i
      cases hs with
      | miss k h0 h1 =>
        have hk : k = key := by
          have : (s.goto i (.computing k)).pc i = .computing k := if_pos rfl
          rw [this] at hi
          cases hi
          rfl
        subst hk
        rw [h0] at hpc
        obtain ⟨later, earlier, hh, hl⟩ := hpc
        refine ⟨later, earlier, hh, hl, fun j r he => ?_⟩
        refine answered_cached h hp0 j k r ?_ h1
        rw [hh]
        obtain ⟨l, m, e, h2, h3⟩ := he
        exact ⟨later ++ .call i k :: l, m, e, by rw [h2]; simp, h3⟩
      | readPoisoned k h0 h1 h2 => rw [h2] at hp0; cases hp0
      | insertPanic k r b h0 => cases hp
      | _ =>
        exfalso
        revert hi
        simp [goto, finish, CacheState.insert]
    · have hpc : s.pc i = .computing key := by rw [← step_other hs hij]; exact hi
      obtain ⟨later, earlier, hh, hl, hn⟩ := ih hp0 hpc
      rcases step_history hs with he | ⟨ev, hev, he⟩
      · exact ⟨later, earlier, by rw [he, hh], hl, hn⟩
      · refine ⟨ev :: later, earlier, by rw [he, hh]; rfl, fun e hm => ?_, hn⟩
        rcases List.mem_cons.1 hm with rfl | hm
        · rw [hev]; exact Ne.symm hij
        · exact hl e hm

/-- C95: as long as no insertion has panicked, a thread looks an answer up itself only if no call with the same
arguments had been answered when it made its call. -/
theorem cache_used (cfg : Cfg) (ti : TypeInformation) (s : CacheState) (h : Reachable cfg ti s)
    (hp : ∀ j, .ended j .insertPanic ∉ s.history) (i : Nat) (key : CacheKey) (hi : s.pc i = .computing key) :
    ∃ later earlier, s.history = later ++ .call i key :: earlier ∧ (∀ ev ∈ later, eventThread ev ≠ i) ∧
      ∀ j r, ¬ Ended earlier j key (.outcome (.ok r)) := by
  exact computing_unanswered h (unpoisoned h hp) i key hi

/-- How many steps inside the call are left. -/
def stepsLeft : Pc → Nat
  | .idle => 5
  | .lookup _ => 4
  | .reading _ => 3
  | .computing _ => 2
  | .store _ _ => 1
  | .writing _ _ => 0

/-- C95: the number of steps of a call is bounded: a thread that is inside a call takes at most four steps before the
step that ends it (waiting for the lock is not a step). -/
theorem cache_bounded (cfg : Cfg) (ti : TypeInformation) (s s' : CacheState) (l : List Nat) (h : Reachable cfg ti s)
    (hm : Moves cfg ti s l s') (i : Nat) (key : CacheKey) (hi : Pending s.history i key) (new : List Event)
    (hn : s'.history = new ++ s.history) (hni : ∀ ev ∈ new, eventThread ev ≠ i) : l.count i ≤ 4 := by
  have hidle : s.pc i ≠ .idle := by
    intro h0
    have := (inv_reachable h).pcs i
    rw [h0] at this
    exact this key hi
  suffices hsuff : s'.pc i ≠ .idle ∧ l.count i + stepsLeft (s'.pc i) ≤ stepsLeft (s.pc i) by
    have : stepsLeft (s.pc i) ≤ 4 := by
      cases hp : s.pc i with
      | idle => exact absurd hp hidle
      | _ => simp [stepsLeft]
    omega
  clear hi h
  induction hm generalizing new with
  | nil => exact ⟨hidle, by simp⟩
  | @cons s s1 s2 j l hs hm ih =>
    -- the history of the last state extends that of the middle one
    have ext : ∀ {a b : CacheState} {l : List Nat}, Moves cfg ti a l b → ∃ new, b.history = new ++ a.history := by
      intro a b l hm
      induction hm with
      | nil => exact ⟨[], rfl⟩
      | cons hs _ ih =>
        obtain ⟨new, hn⟩ := ih
        rcases step_history hs with he | ⟨ev, -, he⟩
        · exact ⟨new, by rw [hn, he]⟩
        · exact ⟨new ++ [ev], by rw [hn, he]; simp⟩
    obtain ⟨new1, h1⟩ := ext hm
    have hsub : ∀ ev ∈ new1, ev ∈ new := by
      rcases step_history hs with he | ⟨ev, -, he⟩
      · have : new1 = new := by rw [h1, he] at hn; exact List.append_cancel_right hn
        rw [this]; exact fun _ h => h
      · have : new1 ++ [ev] = new := by
          rw [h1, he] at hn
          exact List.append_cancel_right (bs := s.history) (by rw [← hn]; simp)
        rw [← this]
        exact fun e h => List.mem_append_left _ h
    by_cases hij : i = j
    · subst hij
      have hmid : s1.history = s.history := by
        rcases step_history hs with he | ⟨ev, hev, he⟩
        · exact he
        · exfalso
          have : new1 ++ [ev] = new := by
            rw [h1, he] at hn
            exact List.append_cancel_right (bs := s.history) (by rw [← hn]; simp)
          exact hni ev (by rw [← this]; simp) hev
      have key1 : s1.pc i ≠ .idle ∧ 1 + stepsLeft (s1.pc i) ≤ stepsLeft (s.pc i) := by
        cases hs with
        | call k h0 => exact absurd h0 hidle
        | lockRead k h0 h1 h2 => simp [goto, h0, stepsLeft]
        | readPoisoned k h0 h1 h2 => simp [goto, h0, stepsLeft]
        | miss k h0 h1 => simp [goto, h0, stepsLeft]
        | computed k r fuel h0 h1 => simp [goto, h0, stepsLeft]
        | lockWrite k r h0 h1 h2 h3 => simp [goto, h0, stepsLeft]
        | insertPanic k r b h0 => cases b <;> simp [finish, CacheState.insert, goto] at hmid
        | _ => simp [finish, CacheState.insert, goto] at hmid
      obtain ⟨h2, h3⟩ := ih new1 h1 (fun ev he => hni ev (hsub ev he)) key1.1
      refine ⟨h2, ?_⟩
      rw [List.count_cons_self]
      omega
    · have hpc := step_other hs hij
      obtain ⟨h2, h3⟩ := ih new1 h1 (fun ev he => hni ev (hsub ev he)) (by rw [hpc]; exact hidle)
      refine ⟨h2, ?_⟩
      rw [List.count_cons_of_ne (Ne.symm hij), ← hpc]
      exact h3

/-! ### Every call can be brought to its end -/

theorem finitely_many {s : CacheState} (h : Reachable cfg ti s) : ∃ n, ∀ j, n ≤ j → s.pc j = .idle := by
  induction h with
  | init => exact ⟨0, fun _ _ => rfl⟩
  | @step s s' i h hs ih =>
    obtain ⟨n, hn⟩ := ih
    exact ⟨max n (i + 1), fun j hj => by rw [step_other hs (by omega)]; exact hn j (by omega)⟩

/-- Let the other threads below `n` give up their guards. -/
theorem release {s : CacheState} (i : Nat) (hi : ¬ HoldsGuard s i) (n : Nat) :
    ∃ l s', Moves cfg ti s l s' ∧ s'.pc i = s.pc i ∧ (∀ j, n ≤ j → s'.pc j = s.pc j) ∧ ∀ j < n, ¬ HoldsGuard s' j := by
  induction n with
  | zero => exact ⟨[], s, .nil s, rfl, fun _ _ => rfl, fun j hj => absurd hj (by omega)⟩
  | succ n ih =>
    obtain ⟨l, s1, hm, h1, h2, h3⟩ := ih
    by_cases hg : HoldsGuard s1 n
    · have hne : n ≠ i := by
        rintro rfl
        apply hi
        unfold HoldsGuard at hg ⊢
        rw [← h1]; exact hg
      have : ∃ s2, Step cfg ti n s1 s2 ∧ ¬ HoldsGuard s2 n := by
        rcases hg with ⟨key, hk⟩ | ⟨key, r, hk⟩
        · cases hc : s1.cache key with
          | none => exact ⟨_, .miss key hk hc, by simp [HoldsGuard, goto]⟩
          | some r => exact ⟨_, .hit key r hk hc, by simp [HoldsGuard, finish, goto]⟩
        · exact ⟨_, .insert key r hk, by simp [HoldsGuard, finish, goto]⟩
      obtain ⟨s2, hs, hng⟩ := this
      refine ⟨l ++ [n], s2, moves_append hm (.cons hs (.nil _)), ?_, fun j hj => ?_, fun j hj => ?_⟩
      · rw [step_other hs (Ne.symm hne), h1]
      · rw [step_other hs (by omega), h2 j (by omega)]
      · by_cases hjn : j = n
        · rw [hjn]; exact hng
        · have := h3 j (by omega)
          unfold HoldsGuard at this ⊢
          rw [step_other hs hjn]
          exact this
    · refine ⟨l, s1, hm, h1, fun j hj => h2 j (by omega), fun j hj => ?_⟩
      by_cases hjn : j = n
      · rw [hjn]; exact hg
      · exact h3 j (by omega)

theorem free {s : CacheState} (h : Reachable cfg ti s) (i : Nat) (hi : ¬ HoldsGuard s i) :
    ∃ l s', Moves cfg ti s l s' ∧ s'.pc i = s.pc i ∧ ¬ s'.Written ∧ ¬ s'.BeingRead := by
  obtain ⟨n, hn⟩ := finitely_many h
  obtain ⟨l, s', hm, h1, h2, h3⟩ := release (cfg := cfg) (ti := ti) i hi n
  have hno : ∀ j, ¬ HoldsGuard s' j := by
    intro j
    by_cases hj : j < n
    · exact h3 j hj
    · unfold HoldsGuard
      rw [h2 j (by omega), hn j (by omega)]
      simp
  exact ⟨l, s', hm, h1, fun ⟨j, key, r, hj⟩ => hno j (.inr ⟨key, r, hj⟩), fun ⟨j, key, hj⟩ => hno j (.inl ⟨key, hj⟩)⟩

/-- The call ends at the next step. -/
theorem ended_now {h : List Event} {i : Nat} {key : CacheKey} {e : Ending} (hp : Pending h i key) :
    Ended (.ended i e :: h) i key e := ended_cons.2 (.inr ⟨rfl, hp⟩)

theorem end_writing {s : CacheState} (h : Reachable cfg ti s) {i : Nat} {key : CacheKey} {r : UInt32 × Offset}
    (hp : s.pc i = .writing key r) : ∃ l s' o, Moves cfg ti s l s' ∧ Ended s'.history i key (.outcome o) := by
  have hpc := (inv_reachable h).pcs i
  rw [hp] at hpc
  exact ⟨[i], _, .ok r, .cons (.insert key r hp) (.nil _), ended_now hpc.1⟩

theorem end_store {s : CacheState} (h : Reachable cfg ti s) {i : Nat} {key : CacheKey} {r : UInt32 × Offset}
    (hp : s.pc i = .store key r) : ∃ l s' o, Moves cfg ti s l s' ∧ Ended s'.history i key (.outcome o) := by
  obtain ⟨l, s1, hm, h1, h2, h3⟩ := free h i (by simp [HoldsGuard, hp])
  have hr := moves_reachable hm h
  have hpc := (inv_reachable hr).pcs i
  rw [hp] at h1
  rw [h1] at hpc
  cases hpo : s1.poisoned with
  | true => exact ⟨l ++ [i], _, .ok r, moves_append hm (.cons (.writePoisoned key r h1 h2 h3 hpo) (.nil _)), ended_now hpc.1⟩
  | false =>
    have hs : Step cfg ti i s1 (s1.goto i (.writing key r)) := .lockWrite key r h1 h2 h3 hpo
    obtain ⟨l', s', o, hm', he⟩ := end_writing (.step hr hs) (i := i) (key := key) (r := r) (if_pos rfl)
    exact ⟨l ++ i :: l', s', o, moves_append hm (.cons hs hm'), he⟩

theorem end_computing {s : CacheState} (h : Reachable cfg ti s) {i : Nat} {key : CacheKey} {o : Outcome (UInt32 × Offset)}
    (ho : OffsetOf cfg ti key.tid key.path o) (hp : s.pc i = .computing key) :
    ∃ l s' o, Moves cfg ti s l s' ∧ Ended s'.history i key (.outcome o) := by
  have hpc := (inv_reachable h).pcs i
  rw [hp] at hpc
  obtain ⟨hne, k, hk⟩ := ho
  cases o with
  | nofuel => exact absurd rfl hne
  | err e => exact ⟨[i], _, .err e, .cons (.failed key e k hp hk) (.nil _), ended_now hpc⟩
  | panic => exact ⟨[i], _, .panic, .cons (.panicked key k hp hk) (.nil _), ended_now hpc⟩
  | ok r =>
    have hs : Step cfg ti i s (s.goto i (.store key r)) := .computed key r k hp hk
    obtain ⟨l', s', o, hm', he⟩ := end_store (.step h hs) (i := i) (key := key) (r := r) (if_pos rfl)
    exact ⟨i :: l', s', o, .cons hs hm', he⟩

theorem end_reading {s : CacheState} (h : Reachable cfg ti s) {i : Nat} {key : CacheKey} {o : Outcome (UInt32 × Offset)}
    (ho : OffsetOf cfg ti key.tid key.path o) (hp : s.pc i = .reading key) :
    ∃ l s' o, Moves cfg ti s l s' ∧ Ended s'.history i key (.outcome o) := by
  have hpc := (inv_reachable h).pcs i
  rw [hp] at hpc
  cases hc : s.cache key with
  | some r => exact ⟨[i], _, .ok r, .cons (.hit key r hp hc) (.nil _), ended_now hpc⟩
  | none =>
    have hs : Step cfg ti i s (s.goto i (.computing key)) := .miss key hp hc
    obtain ⟨l', s', o, hm', he⟩ := end_computing (.step h hs) (i := i) ho (if_pos rfl)
    exact ⟨i :: l', s', o, .cons hs hm', he⟩

theorem end_lookup {s : CacheState} (h : Reachable cfg ti s) {i : Nat} {key : CacheKey} {o : Outcome (UInt32 × Offset)}
    (ho : OffsetOf cfg ti key.tid key.path o) (hp : s.pc i = .lookup key) :
    ∃ l s' o, Moves cfg ti s l s' ∧ Ended s'.history i key (.outcome o) := by
  obtain ⟨l, s1, hm, h1, h2, -⟩ := free h i (by simp [HoldsGuard, hp])
  have hr := moves_reachable hm h
  rw [hp] at h1
  cases hpo : s1.poisoned with
  | true =>
    have hs : Step cfg ti i s1 (s1.goto i (.computing key)) := .readPoisoned key h1 h2 hpo
    obtain ⟨l', s', o, hm', he⟩ := end_computing (.step hr hs) (i := i) ho (if_pos rfl)
    exact ⟨l ++ i :: l', s', o, moves_append hm (.cons hs hm'), he⟩
  | false =>
    have hs : Step cfg ti i s1 (s1.goto i (.reading key)) := .lockRead key h1 h2 hpo
    obtain ⟨l', s', o, hm', he⟩ := end_reading (.step hr hs) (i := i) ho (if_pos rfl)
    exact ⟨l ++ i :: l', s', o, moves_append hm (.cons hs hm'), he⟩

/-- C95: whatever the threads have done so far, a call whose lookup without the cache comes to an end can be brought to
its end, and then it ends with the outcome of that lookup. -/
theorem cache_can_finish (cfg : Cfg) (ti : TypeInformation) (s : CacheState) (h : Reachable cfg ti s) (i : Nat)
    (t : UInt32) (p : String) (hi : Pending s.history i ⟨t, str p⟩) (o : Outcome (UInt32 × Offset))
    (ho : OffsetOf cfg ti t (str p) o) :
    ∃ l s', Moves cfg ti s l s' ∧ Ended s'.history i ⟨t, str p⟩ (.outcome o) := by
  suffices hsuff : ∃ l s' o', Moves cfg ti s l s' ∧ Ended s'.history i ⟨t, str p⟩ (.outcome o') by
    obtain ⟨l, s', o', hm, he⟩ := hsuff
    have := offset_of_deterministic cfg ti t p _ _ (cache_invisible cfg ti s' (moves_reachable hm h) i t _ _ he) ho
    exact ⟨l, s', hm, this ▸ he⟩
  have hpc := (inv_reachable h).pcs i
  cases hp : s.pc i with
  | idle => rw [hp] at hpc; exact absurd hi (hpc _)
  | lookup key =>
    rw [hp] at hpc
    obtain rfl := pending_unique hpc hi
    exact end_lookup h ho hp
  | reading key =>
    rw [hp] at hpc
    obtain rfl := pending_unique hpc hi
    exact end_reading h ho hp
  | computing key =>
    rw [hp] at hpc
    obtain rfl := pending_unique hpc hi
    exact end_computing h ho hp
  | store key r =>
    rw [hp] at hpc
    obtain rfl := pending_unique hpc.1 hi
    exact end_store h hp
  | writing key r =>
    rw [hp] at hpc
    obtain rfl := pending_unique hpc.1 hi
    exact end_writing h hp

/-! ### Examples -/

/-- `cache_bounded`, `cache_can_finish`: in `midway` (C49) both threads are inside their calls; the second one can be
brought to its end (the first one has to give up the write lock before). -/
example : Pending midway.history 1 sampleKey ∧
    ∃ l s', Moves Samples.dbg Samples.zoo midway l s' ∧ Ended s'.history 1 sampleKey (.outcome (.ok (1, .byteOffset 8))) :=
  have hp : Pending midway.history 1 sampleKey := ⟨[], [.call 0 sampleKey], rfl, by simp⟩
  ⟨hp, cache_can_finish _ _ _ midway_reachable 1 7 "a" hp _ ⟨by simp, 20, by decide +kernel⟩⟩

/-- Thread 0 inserts. -/
def inserted : CacheState := (midway.insert sampleKey (1, .byteOffset 8)).finish 0 (.outcome (.ok (1, .byteOffset 8)))

theorem inserted_reachable : Reachable Samples.dbg Samples.zoo inserted :=
  .step midway_reachable (.insert (i := 0) sampleKey (1, .byteOffset 8) rfl)

/-- `cache_remembers`, `cache_keeps`: the answer of thread 0 is in the cache, and stays there whatever happens. -/
example : ∀ l s', Moves Samples.dbg Samples.zoo inserted l s' → s'.cache sampleKey = some (1, .byteOffset 8) := by
  intro l s' hm
  refine cache_keeps _ _ _ _ l inserted_reachable hm 7 "a" _ ?_
  exact cache_remembers _ _ _ inserted_reachable (by simp [inserted, midway, finish, CacheState.insert, goto]) 0 7 "a" _
    ⟨[], [.call 1 sampleKey], [], rfl, by decide⟩

/-- `cache_used`: a thread that computes: nobody had the answer when it called. A thread that calls after thread 0 has
been answered never does. -/
example : (∃ s, Reachable Samples.dbg Samples.zoo s ∧ (∀ j, .ended j .insertPanic ∉ s.history) ∧ s.pc 0 = .computing sampleKey) ∧
    ∀ s, Reachable Samples.dbg Samples.zoo s →
      s.history = .call 2 sampleKey :: inserted.history → s.pc 2 ≠ .computing sampleKey := by
  constructor
  · have h1 := Reachable.step .init (.call (cfg := Samples.dbg) (ti := Samples.zoo) (i := 0) sampleKey rfl)
    have h2 := Reachable.step h1 (.lockRead (i := 0) sampleKey rfl
      (by rintro ⟨j, h⟩; by_cases h0 : j = 0 <;> simp [goto, init, h0] at h) rfl)
    exact ⟨_, .step h2 (.miss (i := 0) sampleKey rfl rfl), by simp [goto, init], rfl⟩
  · intro s h hh hpc
    have hp : ∀ j, .ended j .insertPanic ∉ s.history := by rw [hh]; simp [inserted, midway, finish, CacheState.insert, goto]
    obtain ⟨later, earlier, h1, h2, h3⟩ := cache_used _ _ s h hp 2 sampleKey hpc
    rw [hh] at h1
    cases later with
    | cons ev later =>
      simp only [List.cons_append, List.cons.injEq] at h1
      exact h2 ev (by simp) (by rw [← h1.1]; rfl)
    | nil =>
      simp only [List.nil_append, List.cons.injEq] at h1
      refine h3 0 (1, .byteOffset 8) ?_
      rw [← h1.2]
      exact ⟨[], [.call 1 sampleKey], [], rfl, by decide⟩

end Btf.Props

import Verif.Proofs.Cache
import Verif.Spec.Schedule
import Verif.Samples

/-!
# Property C49: the cache is invisible

For every reachable state: any number of threads, any interleaving, any calls, and also if a thread panics
while it holds the write guard.
-/

namespace Btf.Props

open Btf Spec TypeInformation CacheState

/-- C49: every call that has ended returned (or panicked with) what `offset_of` without the cache does with
the same arguments. -/
theorem cache_invisible (cfg : Cfg) (ti : TypeInformation) (s : CacheState) (h : Reachable cfg ti s)
    (i : Nat) (t : UInt32) (p : Str) (o : Outcome (UInt32 × Offset))
    (he : Ended s.history i ⟨t, p⟩ (.outcome o)) : OffsetOf cfg ti t p o :=
  (inv_reachable h).good i _ o he

/-- C49: in particular, calls with the same arguments have the same outcome, whichever threads make them and
whatever happens in between. -/
theorem cache_repeatable (cfg : Cfg) (ti : TypeInformation) (s : CacheState) (h : Reachable cfg ti s)
    (i j : Nat) (t : UInt32) (p : String) (o o' : Outcome (UInt32 × Offset))
    (he : Ended s.history i ⟨t, str p⟩ (.outcome o)) (he' : Ended s.history j ⟨t, str p⟩ (.outcome o')) : o = o' :=
  offset_of_deterministic cfg ti t p o o' (cache_invisible cfg ti s h i t _ o he)
    (cache_invisible cfg ti s h j t _ o' he')

/-- Ends and calls are matched: the history is a history of calls. -/
theorem cache_matched (cfg : Cfg) (ti : TypeInformation) (s : CacheState) (h : Reachable cfg ti s) :
    Matched s.history := (inv_reachable h).matched

/-- The cache holds successful answers of calls that were made, nothing else. -/
theorem cache_entries (cfg : Cfg) (ti : TypeInformation) (s : CacheState) (h : Reachable cfg ti s)
    (t : UInt32) (p : Str) (r : UInt32 × Offset) (hr : s.cache ⟨t, p⟩ = some r) :
    OffsetOf cfg ti t p (.ok r) ∧ ∃ i e, Ended s.history i ⟨t, p⟩ e :=
  ⟨(inv_reachable h).cache ⟨t, p⟩ r hr, (inv_reachable h).asked _ _ hr⟩

theorem poison_history {cfg : Cfg} {ti : TypeInformation} {s : CacheState} (h : Reachable cfg ti s)
    (hi : ∃ i, .ended i .insertPanic ∈ s.history) : s.poisoned = true := by
  induction h with
  | init => obtain ⟨i, hi⟩ := hi; cases hi
  | @step s s' j h hs ih =>
    obtain ⟨i, hi⟩ := hi
    have old : .ended i .insertPanic ∈ s.history → s.poisoned = true := fun h => ih ⟨i, h⟩
    cases hs with
    | insertPanic k r b h0 => cases b <;> rfl
    | call k h0 => rcases List.mem_cons.1 hi with hi | hi; cases hi; exact old hi
    | hit k r h0 h1 => rcases List.mem_cons.1 hi with hi | hi; cases hi; exact old hi
    | failed k e fuel h0 h1 => rcases List.mem_cons.1 hi with hi | hi; cases hi; exact old hi
    | panicked k fuel h0 h1 => rcases List.mem_cons.1 hi with hi | hi; cases hi; exact old hi
    | writePoisoned k r h0 h1 h2 h3 => rcases List.mem_cons.1 hi with hi | hi; cases hi; exact old hi
    | insert k r h0 => rcases List.mem_cons.1 hi with hi | hi; cases hi; exact old hi
    | _ => exact old hi

/-- The lock is poisoned exactly if an insertion into the map panicked: a panic of the computation itself does
not poison it. -/
theorem cache_poison (cfg : Cfg) (ti : TypeInformation) (s : CacheState) (h : Reachable cfg ti s) :
    s.poisoned = true ↔ ∃ i, .ended i .insertPanic ∈ s.history := ⟨(inv_reachable h).poison, poison_history h⟩

/-- The thread holds a guard of the lock. -/
def HoldsGuard (s : CacheState) (j : Nat) : Prop := (∃ key, s.pc j = .reading key) ∨ ∃ key r, s.pc j = .writing key r

/-- Threads never wait for each other in a circle: a thread that is inside `offset_of` can take a step, or it
waits for another thread that holds a guard and can give it up with its next step, or its own lookup does not
terminate even without the cache (C32). -/
theorem cache_no_deadlock (cfg : Cfg) (ti : TypeInformation) (s : CacheState) (h : Reachable cfg ti s) (i : Nat)
    (hi : s.pc i ≠ .idle) :
    (∃ s', Step cfg ti i s s') ∨ (∃ j s', j ≠ i ∧ HoldsGuard s j ∧ Step cfg ti j s s' ∧ ¬ HoldsGuard s' j) ∨
    (∃ key, Pending s.history i key ∧ Diverges (fun k => offsetOf cfg ti k key.tid key.path)) := by
  have hpcs := (inv_reachable h).pcs i
  have hread : ∀ j key, s.pc j = .reading key → ∃ s', HoldsGuard s j ∧ Step cfg ti j s s' ∧ ¬ HoldsGuard s' j := by
    intro j key hj
    cases hc : s.cache key with
    | none => exact ⟨_, .inl ⟨key, hj⟩, .miss key hj hc, by simp [HoldsGuard, goto]⟩
    | some r => exact ⟨_, .inl ⟨key, hj⟩, .hit key r hj hc, by simp [HoldsGuard, finish, goto]⟩
  have hwrite : ∀ j key r, s.pc j = .writing key r → ∃ s', HoldsGuard s j ∧ Step cfg ti j s s' ∧ ¬ HoldsGuard s' j := by
    intro j key r hj
    exact ⟨_, .inr ⟨key, r, hj⟩, .insert key r hj, by simp [HoldsGuard, finish, goto]⟩
  cases hp : s.pc i with
  | idle => exact absurd hp hi
  | reading key => exact .inl ((hread i key hp).imp fun _ h => h.2.1)
  | writing key r => exact .inl ((hwrite i key r hp).imp fun _ h => h.2.1)
  | lookup key =>
    by_cases hw : s.Written
    · obtain ⟨j, key', r, hj⟩ := hw
      obtain ⟨s', h1⟩ := hwrite j key' r hj
      exact .inr (.inl ⟨j, s', (by rintro rfl; rw [hp] at hj; cases hj), h1⟩)
    · cases hpo : s.poisoned with
      | true => exact .inl ⟨_, .readPoisoned key hp hw hpo⟩
      | false => exact .inl ⟨_, .lockRead key hp hw hpo⟩
  | store key r =>
    by_cases hw : s.Written
    · obtain ⟨j, key', r', hj⟩ := hw
      obtain ⟨s', h1⟩ := hwrite j key' r' hj
      exact .inr (.inl ⟨j, s', (by rintro rfl; rw [hp] at hj; cases hj), h1⟩)
    · by_cases hb : s.BeingRead
      · obtain ⟨j, key', hj⟩ := hb
        obtain ⟨s', h1⟩ := hread j key' hj
        exact .inr (.inl ⟨j, s', (by rintro rfl; rw [hp] at hj; cases hj), h1⟩)
      · cases hpo : s.poisoned with
        | true => exact .inl ⟨_, .writePoisoned key r hp hw hb hpo⟩
        | false => exact .inl ⟨_, .lockWrite key r hp hw hb hpo⟩
  | computing key =>
    rw [hp] at hpcs
    by_cases hd : ∃ k, offsetOf cfg ti k key.tid key.path ≠ .nofuel
    · obtain ⟨k, hk⟩ := hd
      cases ho : offsetOf cfg ti k key.tid key.path with
      | ok r => exact .inl ⟨_, .computed key r k hp ho⟩
      | err e => exact .inl ⟨_, .failed key e k hp ho⟩
      | panic => exact .inl ⟨_, .panicked key k hp ho⟩
      | nofuel => exact absurd ho hk
    · exact .inr (.inr ⟨key, hpcs, fun k => by
        by_contra hk
        exact hd ⟨k, hk⟩⟩)

/-- At most one thread holds the write guard, and then no thread holds a read guard. -/
theorem cache_exclusive (cfg : Cfg) (ti : TypeInformation) (s : CacheState) (h : Reachable cfg ti s) (i j : Nat)
    (key : CacheKey) (r : UInt32 × Offset) (hi : s.pc i = .writing key r) (hne : i ≠ j) :
    (∀ key', s.pc j ≠ .reading key') ∧ (∀ key' r', s.pc j ≠ .writing key' r') := by
  have := (inv_reachable h).exclusive i j (by rw [hi]; rfl) hne
  constructor
  · intro key' hj; rw [hj] at this; cases this.1
  · intro key' r' hj; rw [hj] at this; cases this.2

/-- Nobody holds a guard of a poisoned lock. -/
theorem poisoned_unheld {cfg : Cfg} {ti : TypeInformation} {s : CacheState} (h : Reachable cfg ti s) (hp : s.poisoned = true)
    (j : Nat) : ¬ HoldsGuard s j := by
  induction h with
  | init => cases hp
  | @step s s' i h hs ih =>
    have inv := inv_reachable h
    have other : s'.pc j = s.pc j → s.poisoned = true → ¬ HoldsGuard s' j := fun e hp => by
      have := ih hp
      unfold HoldsGuard at this ⊢
      rwa [e]
    by_cases hij : j = i
    · subst hij
      cases hs with
      | lockRead k h0 h1 h2 => rw [show s.poisoned = true from hp] at h2; cases h2
      | lockWrite k r h0 h1 h2 h3 => rw [show s.poisoned = true from hp] at h3; cases h3
      | insertPanic k r b h0 => cases b <;> simp [HoldsGuard, finish, goto, CacheState.insert]
      | _ => simp [HoldsGuard, finish, goto]
    · cases hs with
      | insertPanic k r b h0 =>
        have := inv.exclusive i j (by rw [h0]; rfl) (Ne.symm hij)
        have e : ∀ c : CacheState, c.pc = s.pc → (CacheState.finish { c with poisoned := true } i .insertPanic).pc j = s.pc j := by
          intro c hc
          show (if j = i then _ else c.pc j) = _
          rw [if_neg hij, hc]
        have e : (CacheState.finish { (if b = true then s.insert k r else s) with poisoned := true } i .insertPanic).pc j = s.pc j :=
          e _ (by cases b <;> rfl)
        rintro (⟨key, hk⟩ | ⟨key, r', hk⟩) <;> rw [e] at hk <;> rw [hk] at this
        · cases this.1
        · cases this.2
      | _ => exact other (if_neg hij) hp

/-- After a panic of an insertion nothing happens to the cache and its lock any more: no thread holds a guard, the entries
stay as they are, and no other insertion panics. -/
theorem cache_frozen (cfg : Cfg) (ti : TypeInformation) (s s' : CacheState) (l : List Nat) (h : Reachable cfg ti s)
    (hp : ∃ i, .ended i .insertPanic ∈ s.history) (hm : Moves cfg ti s l s') :
    s'.cache = s.cache ∧ (∀ j, ¬ HoldsGuard s' j) ∧
      ∃ new, s'.history = new ++ s.history ∧ ∀ j, .ended j .insertPanic ∉ new := by
  induction hm with
  | nil s => exact ⟨rfl, poisoned_unheld h (poison_history h hp), [], rfl, by simp⟩
  | @cons s s1 s2 i l hs hm ih =>
    have free := poisoned_unheld h (poison_history h hp)
    have key : s1.cache = s.cache ∧ ∃ new, s1.history = new ++ s.history ∧ ∀ j, .ended j .insertPanic ∉ new := by
      cases hs with
      | insert k r h0 => exact absurd (.inr ⟨k, r, h0⟩) (free i)
      | insertPanic k r b h0 => exact absurd (.inr ⟨k, r, h0⟩) (free i)
      | call k h0 => exact ⟨rfl, [_], rfl, by simp⟩
      | hit k r h0 h1 => exact ⟨rfl, [_], rfl, by simp⟩
      | failed k e fuel h0 h1 => exact ⟨rfl, [_], rfl, by simp⟩
      | panicked k fuel h0 h1 => exact ⟨rfl, [_], rfl, by simp⟩
      | writePoisoned k r h0 h1 h2 h3 => exact ⟨rfl, [_], rfl, by simp⟩
      | _ => exact ⟨rfl, [], rfl, by simp⟩
    obtain ⟨h1, new, h2, h3⟩ := key
    obtain ⟨i0, hi0⟩ := hp
    obtain ⟨h4, h5, new', h6, h7⟩ := ih (.step h hs) ⟨i0, by rw [h2]; exact List.mem_append_right _ hi0⟩
    refine ⟨h4.trans h1, h5, new' ++ new, by rw [h6, h2, List.append_assoc], fun j hj => ?_⟩
    rcases List.mem_append.1 hj with hj | hj
    · exact h7 j hj
    · exact h3 j hj

/-! ### Examples: two threads ask for `outer.a` at the same time -/

/-- The arguments. -/
def sampleKey : CacheKey := ⟨7, str "a"⟩

/-- Both threads have called; thread 0 has looked into the empty cache, computed and taken the write lock. -/
def midway : CacheState where
  pc j := if j = 0 then .writing sampleKey (1, .byteOffset 8) else if j = 1 then .lookup sampleKey else .idle
  cache _ := none
  poisoned := false
  history := [.call 1 sampleKey, .call 0 sampleKey]

/-- Shows that no thread holds a guard. -/
local macro "no_guard" : tactic => `(tactic| (
  rintro ⟨j, h⟩
  by_cases h0 : j = 0 <;> by_cases h1 : j = 1 <;>
    simp [goto, finish, CacheState.insert, init, midway, h0, h1] at h))

theorem midway_reachable : Reachable Samples.dbg Samples.zoo midway := by
  have h1 := Reachable.step .init (.call (cfg := Samples.dbg) (ti := Samples.zoo) (i := 0) sampleKey rfl)
  have h2 := Reachable.step h1 (.call (i := 1) sampleKey rfl)
  have h3 := Reachable.step h2 (.lockRead (i := 0) sampleKey rfl (by no_guard) rfl)
  have h4 := Reachable.step h3 (.miss (i := 0) sampleKey rfl rfl)
  have h5 := Reachable.step h4 (.computed (i := 0) sampleKey (1, .byteOffset 8) 20 rfl (by decide +kernel))
  have h6 := Reachable.step h5 (.lockWrite (i := 0) sampleKey (1, .byteOffset 8) rfl (by no_guard) (by no_guard) rfl)
  refine (congrArg (Reachable Samples.dbg Samples.zoo) ?_).mp h6
  simp only [midway, goto, CacheState.mk.injEq]
  refine ⟨funext fun j => ?_, rfl, rfl, rfl⟩
  by_cases h0 : j = 0
  · simp [h0]
  · simp [h0, init]

/-- `cache_exclusive`, `cache_no_deadlock`: while the first thread is writing, the second one cannot be reading, and waits. -/
example : midway.pc 0 = .writing sampleKey (1, .byteOffset 8) ∧ midway.pc 1 ≠ .idle ∧ ∀ key, midway.pc 1 ≠ .reading key :=
  ⟨rfl, by simp [midway], (cache_exclusive _ _ _ midway_reachable 0 1 _ _ rfl (by decide)).1⟩

/-- `cache_invisible`, `cache_repeatable`, `cache_entries`, `cache_matched`: the first thread inserts; the second one finds the entry. -/
example : ∃ s, Reachable Samples.dbg Samples.zoo s ∧ s.cache sampleKey = some (1, .byteOffset 8) ∧
    Ended s.history 0 sampleKey (.outcome (.ok (1, .byteOffset 8))) ∧
    Ended s.history 1 sampleKey (.outcome (.ok (1, .byteOffset 8))) := by
  have h1 := Reachable.step midway_reachable (.insert (i := 0) sampleKey (1, .byteOffset 8) rfl)
  have h2 := Reachable.step h1 (.lockRead (i := 1) sampleKey rfl (by no_guard) rfl)
  have h3 := Reachable.step h2 (.hit (i := 1) sampleKey (1, .byteOffset 8) rfl rfl)
  exact ⟨_, h3, rfl, ⟨[.ended 1 (.outcome (.ok (1, .byteOffset 8)))], [.call 1 sampleKey], [], rfl, by decide⟩,
    ⟨[], [.ended 0 (.outcome (.ok (1, .byteOffset 8)))], [.call 0 sampleKey], rfl, by decide⟩⟩

/-- `cache_poison`, `cache_frozen`: the insertion of the first thread panics; the second one computes the answer itself. -/
example : ∃ s, Reachable Samples.dbg Samples.zoo s ∧ s.poisoned = true ∧
    Ended s.history 0 sampleKey .insertPanic ∧
    Ended s.history 1 sampleKey (.outcome (.ok (1, .byteOffset 8))) := by
  have h1 := Reachable.step midway_reachable (.insertPanic (i := 0) sampleKey (1, .byteOffset 8) false rfl)
  have h2 := Reachable.step h1 (.readPoisoned (i := 1) sampleKey rfl (by no_guard) rfl)
  have h3 := Reachable.step h2 (.computed (i := 1) sampleKey (1, .byteOffset 8) 20 rfl (by decide +kernel))
  have h4 := Reachable.step h3
    (.writePoisoned (i := 1) sampleKey (1, .byteOffset 8) rfl (by no_guard) (by no_guard) rfl)
  exact ⟨_, h4, rfl, ⟨[.ended 1 (.outcome (.ok (1, .byteOffset 8)))], [.call 1 sampleKey], [], rfl, by decide⟩,
    ⟨[], [.ended 0 .insertPanic], [.call 0 sampleKey], rfl, by decide⟩⟩

end Btf.Props

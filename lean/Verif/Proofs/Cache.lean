import Verif.Spec.History
import Verif.Props.OffsetOf

/-!
# The invariant of the cache
-/

namespace Btf

open Spec TypeInformation Props CacheState

theorem pending_cons_other {h : List Event} {ev : Event} {i : Nat} {key : CacheKey} (hne : eventThread ev ≠ i) :
    Pending (ev :: h) i key ↔ Pending h i key := by
  constructor
  · rintro ⟨later, earlier, h1, h2⟩
    cases later with
    | nil =>
      simp only [List.nil_append, List.cons.injEq] at h1
      obtain ⟨rfl, -⟩ := h1
      exact absurd rfl hne
    | cons x later =>
      simp only [List.cons_append, List.cons.injEq] at h1
      exact ⟨later, earlier, h1.2, fun e he => h2 e (List.mem_cons_of_mem _ he)⟩
  · rintro ⟨later, earlier, rfl, h2⟩
    refine ⟨ev :: later, earlier, rfl, fun e he => ?_⟩
    rcases List.mem_cons.1 he with rfl | he
    · exact hne
    · exact h2 e he

theorem pending_cons_call {h : List Event} {i : Nat} {key key' : CacheKey} :
    Pending (.call i key :: h) i key' ↔ key' = key := by
  constructor
  · rintro ⟨later, earlier, h1, h2⟩
    cases later with
    | nil =>
      simp only [List.nil_append, List.cons.injEq, Event.call.injEq, true_and] at h1
      exact h1.1.symm
    | cons x later =>
      simp only [List.cons_append, List.cons.injEq] at h1
      obtain ⟨rfl, -⟩ := h1
      exact absurd rfl (h2 _ (List.mem_cons_self ..))
  · rintro rfl
    exact ⟨[], h, rfl, by simp⟩

theorem pending_cons_ended {h : List Event} {i : Nat} {e : Ending} {key : CacheKey} :
    ¬ Pending (.ended i e :: h) i key := by
  rintro ⟨later, earlier, h1, h2⟩
  cases later with
  | nil => simp at h1
  | cons x later =>
    simp only [List.cons_append, List.cons.injEq] at h1
    obtain ⟨rfl, -⟩ := h1
    exact absurd rfl (h2 _ (List.mem_cons_self ..))

theorem pending_unique {h : List Event} {i : Nat} {k k' : CacheKey} (hp : Pending h i k) (hp' : Pending h i k') :
    k = k' := by
  induction h with
  | nil => obtain ⟨l, e, h1, -⟩ := hp; simp at h1
  | cons ev h ih =>
    by_cases hi : eventThread ev = i
    · cases ev with
      | call j key =>
        obtain rfl : j = i := hi
        rw [pending_cons_call] at hp hp'
        rw [hp, hp']
      | ended j e =>
        obtain rfl : j = i := hi
        exact absurd hp pending_cons_ended
    · rw [pending_cons_other hi] at hp hp'
      exact ih hp hp'

theorem ended_cons {h : List Event} {ev : Event} {i : Nat} {key : CacheKey} {e : Ending} :
    Ended (ev :: h) i key e ↔ Ended h i key e ∨ (ev = .ended i e ∧ Pending h i key) := by
  constructor
  · rintro ⟨later, mid, earlier, h1, h2⟩
    cases later with
    | nil =>
      simp only [List.nil_append, List.cons_append, List.cons.injEq] at h1
      exact .inr ⟨h1.1, mid, earlier, h1.2, h2⟩
    | cons x later =>
      simp only [List.cons_append, List.cons.injEq] at h1
      exact .inl ⟨later, mid, earlier, by simpa using h1.2, h2⟩
  · rintro (⟨later, mid, earlier, rfl, h2⟩ | ⟨rfl, mid, earlier, rfl, h2⟩)
    · exact ⟨ev :: later, mid, earlier, rfl, h2⟩
    · exact ⟨[], mid, earlier, rfl, h2⟩

theorem matched_call {h : List Event} {i : Nat} {key : CacheKey} (hm : Matched h) : Matched (.call i key :: h) := by
  intro later j e earlier h1
  cases later with
  | nil => simp at h1
  | cons x later =>
    simp only [List.cons_append, List.cons.injEq] at h1
    exact hm later j e earlier h1.2

theorem matched_ended {h : List Event} {i : Nat} {e : Ending} {key : CacheKey} (hm : Matched h)
    (hp : Pending h i key) : Matched (.ended i e :: h) := by
  intro later j e' earlier h1
  cases later with
  | nil =>
    simp only [List.nil_append, List.cons.injEq, Event.ended.injEq] at h1
    obtain ⟨⟨rfl, rfl⟩, rfl⟩ := h1
    exact ⟨key, hp⟩
  | cons x later =>
    simp only [List.cons_append, List.cons.injEq] at h1
    exact hm later j e' earlier h1.2

/-- What is known about a thread. -/
def PcOk (cfg : Cfg) (ti : TypeInformation) (h : List Event) (i : Nat) : Pc → Prop
  | .idle => ∀ key, ¬ Pending h i key
  | .lookup key | .reading key | .computing key => Pending h i key
  | .store key r | .writing key r => Pending h i key ∧ OffsetOf cfg ti key.tid key.path (.ok r)

/-- The thread holds a guard. -/
def holdsRead : Pc → Bool
  | .reading _ => true
  | _ => false

def holdsWrite : Pc → Bool
  | .writing _ _ => true
  | _ => false

structure CacheInv (cfg : Cfg) (ti : TypeInformation) (s : CacheState) : Prop where
  cache : ∀ k v, s.cache k = some v → OffsetOf cfg ti k.tid k.path (.ok v)
  pcs : ∀ i, PcOk cfg ti s.history i (s.pc i)
  good : ∀ i key o, Ended s.history i key (.outcome o) → OffsetOf cfg ti key.tid key.path o
  matched : Matched s.history
  exclusive : ∀ i j, holdsWrite (s.pc i) = true → i ≠ j → holdsRead (s.pc j) = false ∧ holdsWrite (s.pc j) = false
  poison : s.poisoned = true → ∃ i, .ended i .insertPanic ∈ s.history
  asked : ∀ k v, s.cache k = some v → ∃ i e, Ended s.history i k e

theorem pcOk_other {cfg : Cfg} {ti : TypeInformation} {h : List Event} {ev : Event} {i : Nat} {p : Pc}
    (hne : eventThread ev ≠ i) (hp : PcOk cfg ti h i p) : PcOk cfg ti (ev :: h) i p := by
  cases p with
  | idle => intro key; rw [pending_cons_other hne]; exact hp key
  | lookup key => exact (pending_cons_other hne).2 hp
  | reading key => exact (pending_cons_other hne).2 hp
  | computing key => exact (pending_cons_other hne).2 hp
  | store key r => exact ⟨(pending_cons_other hne).2 hp.1, hp.2⟩
  | writing key r => exact ⟨(pending_cons_other hne).2 hp.1, hp.2⟩

/-- Moving inside the call without taking the write guard. -/
theorem inv_goto {cfg : Cfg} {ti : TypeInformation} {s : CacheState} (h : CacheInv cfg ti s) (i : Nat) (p : Pc)
    (hp : PcOk cfg ti s.history i p) (hw : holdsWrite p = false)
    (hr : holdsRead p = true → ¬ s.Written) : CacheInv cfg ti (s.goto i p) where
  cache := h.cache
  pcs := by
    intro j
    change PcOk cfg ti s.history j (if j = i then p else s.pc j)
    split
    · rename_i hj; subst hj; exact hp
    · exact h.pcs j
  good := h.good
  matched := h.matched
  exclusive := by
    intro a b ha hab
    change holdsWrite (if a = i then p else s.pc a) = true at ha
    change holdsRead (if b = i then p else s.pc b) = false ∧ holdsWrite (if b = i then p else s.pc b) = false
    split at ha
    · rw [hw] at ha; cases ha
    · split
      · refine ⟨?_, hw⟩
        cases hq : holdsRead p with
        | false => rfl
        | true =>
          refine absurd ?_ (hr hq)
          cases hpa : s.pc a with
          | writing key r => exact ⟨a, key, r, hpa⟩
          | _ => rw [hpa] at ha; cases ha
      · exact h.exclusive a b ha hab
  poison := h.poison
  asked := h.asked

/-- Leaving the call. -/
theorem inv_finish {cfg : Cfg} {ti : TypeInformation} {s : CacheState} {i : Nat} {e : Ending} {key : CacheKey}
    (hc : ∀ k v, s.cache k = some v → OffsetOf cfg ti k.tid k.path (.ok v))
    (hpcs : ∀ i, PcOk cfg ti s.history i (s.pc i))
    (hg : ∀ i key o, Ended s.history i key (.outcome o) → OffsetOf cfg ti key.tid key.path o)
    (hm : Matched s.history)
    (hx : ∀ i j, holdsWrite (s.pc i) = true → i ≠ j → holdsRead (s.pc j) = false ∧ holdsWrite (s.pc j) = false)
    (hpo : s.poisoned = true → (∃ i, .ended i .insertPanic ∈ s.history) ∨ e = .insertPanic)
    (ha : ∀ k v, s.cache k = some v → (∃ i e, Ended s.history i k e) ∨ k = key)
    (hp : Pending s.history i key)
    (ho : ∀ o, e = .outcome o → OffsetOf cfg ti key.tid key.path o) : CacheInv cfg ti (s.finish i e) where
  cache := hc
  pcs := by
    intro j
    change PcOk cfg ti (.ended i e :: s.history) j (if j = i then .idle else s.pc j)
    split
    · rename_i hj; subst hj; intro key; exact pending_cons_ended
    · rename_i hj
      exact pcOk_other (Ne.symm hj) (hpcs j)
  good := by
    intro j key' o he
    rcases ended_cons.1 he with he | ⟨he, hp'⟩
    · exact hg j key' o he
    · cases he
      rw [pending_unique hp' hp]
      exact ho o rfl
  matched := matched_ended hm hp
  exclusive := by
    intro a b ha hab
    change holdsWrite (if a = i then .idle else s.pc a) = true at ha
    change holdsRead (if b = i then .idle else s.pc b) = false ∧ holdsWrite (if b = i then .idle else s.pc b) = false
    split at ha
    · cases ha
    · split
      · exact ⟨rfl, rfl⟩
      · exact hx a b ha hab
  poison := by
    intro hp
    rcases hpo hp with ⟨j, hj⟩ | rfl
    · exact ⟨j, List.mem_cons_of_mem _ hj⟩
    · exact ⟨i, List.mem_cons_self ..⟩
  asked := by
    intro k v hk
    rcases ha k v hk with ⟨j, e', h⟩ | rfl
    · exact ⟨j, e', ended_cons.2 (.inl h)⟩
    · exact ⟨i, e, ended_cons.2 (.inr ⟨rfl, hp⟩)⟩

theorem inv_finish' {cfg : Cfg} {ti : TypeInformation} {s : CacheState} {i : Nat} {o : Outcome (UInt32 × Offset)} {key : CacheKey}
    (h : CacheInv cfg ti s) (hp : Pending s.history i key) (ho : OffsetOf cfg ti key.tid key.path o) :
    CacheInv cfg ti (s.finish i (.outcome o)) :=
  inv_finish h.cache h.pcs h.good h.matched h.exclusive (fun hp => .inl (h.poison hp))
    (fun k v hk => .inl (h.asked k v hk)) hp (by rintro o' ⟨⟩; exact ho)

theorem inv_insert {cfg : Cfg} {ti : TypeInformation} {s : CacheState} {key : CacheKey} {r : UInt32 × Offset}
    (h : CacheInv cfg ti s) (hr : OffsetOf cfg ti key.tid key.path (.ok r)) :
    (∀ k v, (s.insert key r).cache k = some v → OffsetOf cfg ti k.tid k.path (.ok v)) ∧
    (∀ k v, (s.insert key r).cache k = some v → (∃ i e, Ended s.history i k e) ∨ k = key) := by
  refine ⟨fun k v hk => ?_, fun k v hk => ?_⟩ <;> change (if k = key then some r else s.cache k) = some v at hk <;> split at hk
  · rename_i hkk; subst hkk; cases hk; exact hr
  · exact h.cache k v hk
  · rename_i hkk; exact .inr hkk
  · exact .inl (h.asked k v hk)

theorem inv_step {cfg : Cfg} {ti : TypeInformation} {s s' : CacheState} {i : Nat} (h : CacheInv cfg ti s)
    (hs : Step cfg ti i s s') : CacheInv cfg ti s' := by
  have hpc := h.pcs i
  cases hs with
  | call key h0 =>
    refine ⟨h.cache, ?_, ?_, matched_call h.matched, ?_, ?_, ?_⟩
    · intro j
      change PcOk cfg ti (.call i key :: s.history) j (if j = i then .lookup key else s.pc j)
      split
      · rename_i hj; subst hj; exact pending_cons_call.2 rfl
      · rename_i hj; exact pcOk_other (Ne.symm hj) (h.pcs j)
    · intro j key' o he
      rcases ended_cons.1 he with he | ⟨he, -⟩
      · exact h.good j key' o he
      · cases he
    · intro a b ha hab
      change holdsWrite (if a = i then .lookup key else s.pc a) = true at ha
      change holdsRead (if b = i then .lookup key else s.pc b) = false ∧ holdsWrite (if b = i then .lookup key else s.pc b) = false
      split at ha
      · cases ha
      · split
        · exact ⟨rfl, rfl⟩
        · exact h.exclusive a b ha hab
    · intro hp
      obtain ⟨j, hj⟩ := h.poison hp
      exact ⟨j, List.mem_cons_of_mem _ hj⟩
    · intro k v hk
      obtain ⟨j, e, hj⟩ := h.asked k v hk
      exact ⟨j, e, ended_cons.2 (.inl hj)⟩
  | lockRead key h0 h1 h2 =>
    rw [h0] at hpc
    exact inv_goto h i _ hpc rfl (fun _ => h1)
  | readPoisoned key h0 h1 h2 =>
    rw [h0] at hpc
    exact inv_goto h i _ hpc rfl (fun h => by cases h)
  | hit key r h0 h1 =>
    rw [h0] at hpc
    exact inv_finish' h hpc (h.cache key r h1)
  | miss key h0 h1 =>
    rw [h0] at hpc
    exact inv_goto h i _ hpc rfl (fun h => by cases h)
  | computed key r fuel h0 h1 =>
    rw [h0] at hpc
    exact inv_goto h i _ ⟨hpc, by simp, fuel, h1⟩ rfl (fun h => by cases h)
  | failed key e fuel h0 h1 =>
    rw [h0] at hpc
    exact inv_finish' h hpc ⟨by simp, fuel, h1⟩
  | panicked key fuel h0 h1 =>
    rw [h0] at hpc
    exact inv_finish' h hpc ⟨by simp, fuel, h1⟩
  | lockWrite key r h0 h1 h2 h3 =>
    rw [h0] at hpc
    have hall : ∀ j, holdsRead (s.pc j) = false ∧ holdsWrite (s.pc j) = false := by
      intro j
      cases hj : s.pc j with
      | reading key => exact absurd ⟨j, key, hj⟩ h2
      | writing key r => exact absurd ⟨j, key, r, hj⟩ h1
      | _ => exact ⟨rfl, rfl⟩
    refine ⟨h.cache, ?_, h.good, h.matched, ?_, h.poison, h.asked⟩
    · intro j
      change PcOk cfg ti s.history j (if j = i then .writing key r else s.pc j)
      split
      · rename_i hj; subst hj; exact hpc
      · exact h.pcs j
    · intro a b ha hab
      change holdsWrite (if a = i then .writing key r else s.pc a) = true at ha
      change holdsRead (if b = i then .writing key r else s.pc b) = false ∧ holdsWrite (if b = i then .writing key r else s.pc b) = false
      split at ha
      · rename_i hai
        rw [if_neg (by rw [← hai]; exact Ne.symm hab)]
        exact hall b
      · rw [(hall a).2] at ha; cases ha
  | writePoisoned key r h0 h1 h2 h3 =>
    rw [h0] at hpc
    exact inv_finish' h hpc.1 hpc.2
  | insert key r h0 =>
    rw [h0] at hpc
    obtain ⟨h1, h2⟩ := inv_insert h hpc.2
    exact inv_finish (key := key) h1 h.pcs h.good h.matched h.exclusive (fun hp => .inl (h.poison hp)) h2 hpc.1
      (by rintro o ⟨⟩; exact hpc.2)
  | insertPanic key r inserted h0 =>
    rw [h0] at hpc
    obtain ⟨h1, h2⟩ := inv_insert h hpc.2
    cases inserted with
    | true =>
      exact inv_finish (key := key) h1 h.pcs h.good h.matched h.exclusive (fun _ => .inr rfl) h2 hpc.1
        (by rintro o ⟨⟩)
    | false =>
      exact inv_finish (key := key) h.cache h.pcs h.good h.matched h.exclusive (fun _ => .inr rfl)
        (fun k v hk => .inl (h.asked k v hk)) hpc.1 (by rintro o ⟨⟩)

theorem inv_reachable {cfg : Cfg} {ti : TypeInformation} {s : CacheState} (h : Reachable cfg ti s) : CacheInv cfg ti s := by
  induction h with
  | init =>
    refine ⟨fun k v h => (by cases h), ?_, ?_, ?_, ?_, ?_, fun k v h => (by cases h)⟩
    · intro i key hp
      obtain ⟨l, e, h1, -⟩ := hp
      change [] = _ at h1; simp at h1
    · intro i key o he
      obtain ⟨l, m, e, h1, -⟩ := he
      change [] = _ at h1; simp at h1
    · intro l i e ea h1
      change [] = _ at h1; simp at h1
    · intro i j h; cases h
    · intro h; cases h
  | step _ hs ih => exact inv_step ih hs

end Btf

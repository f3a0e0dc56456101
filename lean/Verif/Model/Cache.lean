import Verif.Model.TypeInfo

/-!
# `offset_of` with the `caching` feature: src/btf/type_information.rs:607-627

`offset_of` takes `&self`, so any number of threads may be inside it at the same time. Their steps
interleave arbitrarily; the only shared mutable state is `offset_cache`, an `RwLock<HashMap<..>>`
(line 359). Every step below is one access to the lock, to the map, or the (unshared) computation.
-/

namespace Btf

open TypeInformation

/-- The key of the cache (src/btf/type_information.rs:359, 611): the arguments of a call. -/
structure CacheKey where
  tid : UInt32
  path : Str
  deriving DecidableEq, Repr

/-- Where a thread is inside `offset_of` (src/btf/type_information.rs:607-627; line numbers below are in that
file). -/
inductive Pc where
  /-- Not inside `offset_of`. -/
  | idle
  /-- About to take the read lock (line 612). -/
  | lookup (key : CacheKey)
  /-- Holding the read guard (line 613). -/
  | reading (key : CacheKey)
  /-- Computing, without any guard (line 619): the guard, or the one inside the `PoisonError`, is dropped
  at the end of the `if let` (lines 612-616). -/
  | computing (key : CacheKey)
  /-- About to take the write lock (line 622). -/
  | store (key : CacheKey) (result : UInt32 × Offset)
  /-- Holding the write guard (line 623). -/
  | writing (key : CacheKey) (result : UInt32 × Offset)
  deriving DecidableEq

/-- How a call ends (src/btf/type_information.rs:614, 619, 623, 626). -/
inductive Ending where
  /-- It returns, or panics in `offset_of_uncached`. -/
  | outcome (o : Outcome (UInt32 × Offset))
  /-- `HashMap::insert` (line 623) panics, because the map cannot grow. -/
  | insertPanic
  deriving DecidableEq

/-- What can be seen from outside: calls and their ends (src/btf/type_information.rs:607-627). -/
inductive Event where
  | call (thread : Nat) (key : CacheKey)
  | ended (thread : Nat) (ending : Ending)
  deriving DecidableEq

/-- All threads and the shared cache (src/btf/type_information.rs:359). `history` (latest event first) is a ghost. -/
structure CacheState where
  pc : Nat → Pc
  cache : CacheKey → Option (UInt32 × Offset)
  poisoned : Bool
  history : List Event

namespace CacheState

/-- `offset_cache: RwLock::new(HashMap::new())` (src/btf/type_information.rs:485-486), before any call. -/
def init : CacheState :=
  { pc := fun _ => .idle, cache := fun _ => none, poisoned := false, history := [] }

/-- Thread `i` goes to `p` (control flow of src/btf/type_information.rs:607-627). -/
def goto (s : CacheState) (i : Nat) (p : Pc) : CacheState :=
  { s with pc := fun j => if j = i then p else s.pc j }

/-- Thread `i` leaves `offset_of` (src/btf/type_information.rs:614, 619, 626). -/
def finish (s : CacheState) (i : Nat) (e : Ending) : CacheState :=
  { s.goto i .idle with history := .ended i e :: s.history }

/-- `cache.insert(cache_key, result)` (src/btf/type_information.rs:623). -/
def insert (s : CacheState) (key : CacheKey) (result : UInt32 × Offset) : CacheState :=
  { s with cache := fun k => if k = key then some result else s.cache k }

/-- A thread holds the write guard (src/btf/type_information.rs:622-624). -/
def Written (s : CacheState) : Prop := ∃ j key r, s.pc j = .writing key r

/-- A thread holds a read guard (src/btf/type_information.rs:612-616). -/
def BeingRead (s : CacheState) : Prop := ∃ j key, s.pc j = .reading key

/-- One step of thread `i` inside src/btf/type_information.rs:607-627 (std's `RwLock`: `read()` waits while there is a writer, `write()` waits while
there is a reader or a writer; both return `Err` if the lock is poisoned; a panic of a thread that holds the
write guard poisons it). -/
inductive Step (cfg : Cfg) (ti : TypeInformation) (i : Nat) (s : CacheState) : CacheState → Prop where
  /-- `offset_of(tid, path)` is called (line 607-611). -/
  | call (key) : s.pc i = .idle →
      Step cfg ti i s { s.goto i (.lookup key) with history := .call i key :: s.history }
  /-- `read()` succeeds (line 612). -/
  | lockRead (key) : s.pc i = .lookup key → ¬ s.Written → s.poisoned = false →
      Step cfg ti i s (s.goto i (.reading key))
  /-- `read()` fails since the lock is poisoned (line 612). -/
  | readPoisoned (key) : s.pc i = .lookup key → ¬ s.Written → s.poisoned = true →
      Step cfg ti i s (s.goto i (.computing key))
  /-- The key is found: `return Ok(cached)` (lines 613-615). -/
  | hit (key r) : s.pc i = .reading key → s.cache key = some r →
      Step cfg ti i s (s.finish i (.outcome (.ok r)))
  /-- The key is not found (line 613); the guard is dropped. -/
  | miss (key) : s.pc i = .reading key → s.cache key = none →
      Step cfg ti i s (s.goto i (.computing key))
  /-- `offset_of_uncached` succeeds (line 619). `fuel` is the recursion bound of the model. -/
  | computed (key r fuel) : s.pc i = .computing key → offsetOf cfg ti fuel key.tid key.path = .ok r →
      Step cfg ti i s (s.goto i (.store key r))
  /-- `offset_of_uncached` fails: `?` returns the error (line 619). -/
  | failed (key e fuel) : s.pc i = .computing key → offsetOf cfg ti fuel key.tid key.path = .err e →
      Step cfg ti i s (s.finish i (.outcome (.err e)))
  /-- `offset_of_uncached` panics (line 619). No guard is held, so the lock is not poisoned. -/
  | panicked (key fuel) : s.pc i = .computing key → offsetOf cfg ti fuel key.tid key.path = .panic →
      Step cfg ti i s (s.finish i (.outcome .panic))
  /-- `write()` succeeds (line 622). -/
  | lockWrite (key r) : s.pc i = .store key r → ¬ s.Written → ¬ s.BeingRead → s.poisoned = false →
      Step cfg ti i s (s.goto i (.writing key r))
  /-- `write()` fails since the lock is poisoned: `Ok(result)` (lines 622, 626). -/
  | writePoisoned (key r) : s.pc i = .store key r → ¬ s.Written → ¬ s.BeingRead → s.poisoned = true →
      Step cfg ti i s (s.finish i (.outcome (.ok r)))
  /-- The result is inserted and returned (lines 623, 626). -/
  | insert (key r) : s.pc i = .writing key r →
      Step cfg ti i s ((s.insert key r).finish i (.outcome (.ok r)))
  /-- `insert` panics, before or after the entry is in the map; the lock is poisoned. -/
  | insertPanic (key r) (inserted : Bool) : s.pc i = .writing key r →
      Step cfg ti i s
        ({ (if inserted then s.insert key r else s) with poisoned := true }.finish i .insertPanic)

/-- The states that can be reached from `init` by calls of `offset_of`
(src/btf/type_information.rs:607-627), for any number of threads and any interleaving. -/
inductive Reachable (cfg : Cfg) (ti : TypeInformation) : CacheState → Prop where
  | init : Reachable cfg ti init
  | step {s s' i} : Reachable cfg ti s → Step cfg ti i s s' → Reachable cfg ti s'

end CacheState

end Btf

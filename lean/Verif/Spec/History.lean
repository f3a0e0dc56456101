import Verif.Model.Cache

/-!
# Histories of calls

A history lists the calls of `offset_of` and their ends, for all threads, latest event first.
-/

namespace Btf.Spec

open Btf

/-- The thread of an event. -/
def eventThread : Event → Nat
  | .call i _ => i
  | .ended i _ => i

/-- The call of thread `i` with arguments `key` ended with `e`: the history contains both, and nothing of
thread `i` in between. -/
def Ended (history : List Event) (i : Nat) (key : CacheKey) (e : Ending) : Prop :=
  ∃ later mid earlier, history = later ++ .ended i e :: mid ++ .call i key :: earlier ∧
    ∀ ev ∈ mid, eventThread ev ≠ i

/-- Thread `i` has called with arguments `key`, and this call has not ended. -/
def Pending (history : List Event) (i : Nat) (key : CacheKey) : Prop :=
  ∃ later earlier, history = later ++ .call i key :: earlier ∧ ∀ ev ∈ later, eventThread ev ≠ i

/-- Every end belongs to a call. -/
def Matched (history : List Event) : Prop :=
  ∀ later i e earlier, history = later ++ .ended i e :: earlier → ∃ key, Pending earlier i key

end Btf.Spec

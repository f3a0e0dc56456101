import Verif.Spec.History

/-!
# How many entries the cache holds
-/

namespace Btf.Spec

open Btf

/-- The cache holds exactly `n` entries. -/
def Entries (s : CacheState) (n : Nat) : Prop :=
  ∃ keys : List CacheKey, keys.Nodup ∧ keys.length = n ∧ ∀ key, s.cache key ≠ none ↔ key ∈ keys

/-- The end of a call that came as far as storing its answer, or was answered from the cache. -/
def answers : Event → Bool
  | .ended _ (.outcome (.ok _)) => true
  | .ended _ .insertPanic => true
  | _ => false

end Btf.Spec

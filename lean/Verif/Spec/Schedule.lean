import Verif.Spec.History

/-!
# Schedules

A run of the program is cut into steps of its threads; a schedule says which thread takes each step.
-/

namespace Btf.Spec

open Btf CacheState

/-- The steps of a schedule, first step first, lead from one state to another. -/
inductive Moves (cfg : Cfg) (ti : TypeInformation) : CacheState → List Nat → CacheState → Prop where
  | nil (s) : Moves cfg ti s [] s
  | cons {s s' s'' i l} : Step cfg ti i s s' → Moves cfg ti s' l s'' → Moves cfg ti s (i :: l) s''

end Btf.Spec

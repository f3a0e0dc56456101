import Verif.Spec.Access

/-!
# What a lookup has to search

Names of members of anonymous members, and the number of structs and unions that are searched for a name.
-/

namespace Btf.Spec

open Btf

/-- The struct or union `v` has a member called `name`, directly or inside unnamed members. -/
inductive Offers (ti : TypeInformation) : TypeVariant → Str → Prop where
  | direct {v ms m name} : membersOf v = some ms → m ∈ ms → m.name = some name → Offers ti v name
  | nested {v ms a w name} : membersOf v = some ms → a ∈ ms → a.name = none → Resolves ti a.tid w →
      Offers ti w name → Offers ti v name

/-- `name` is the name of the member, or it has none and `name` is found inside it. -/
def MemberOffers (ti : TypeInformation) (m : Member) (name : Str) : Prop :=
  m.name = some name ∨ m.name = none ∧ ∃ w, Resolves ti m.tid w ∧ Offers ti w name

/-- C's rule for the names of members of unnamed members: they are different from the names in the other members
of the struct or union. -/
def ClearNames (ti : TypeInformation) : Prop :=
  ∀ t v ms, ti.fromId t = some v → membersOf v = some ms →
    ms.Pairwise fun m m' => m.name = none ∨ m'.name = none → ∀ name, ¬ (MemberOffers ti m name ∧ MemberOffers ti m' name)

/-- `w t` is at least the number of structs and unions that make up type `t`: itself and its unnamed members. -/
def Weighs (ti : TypeInformation) (w : UInt32 → Nat) : Prop :=
  (∀ t, 1 ≤ w t) ∧ ∀ t v ms, Resolves ti t v → membersOf v = some ms →
    1 + ((ms.filter fun m => m.name.isNone).map fun m => w m.tid).sum ≤ w t

end Btf.Spec

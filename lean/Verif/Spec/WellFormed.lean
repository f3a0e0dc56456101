import Verif.Spec.Access
import Mathlib.Logic.Relation

/-!
# Well-formed type graphs

The conditions every type graph produced by a C compiler meets and that the completeness results about
`offset_of` need. They speak only about `from_id` and the specification of sizes.
-/

namespace Btf.Spec

open Btf

/-- Knowing `t` requires knowing `u`: `t` is an alias of `u`, an array of `u`, or has an anonymous member
of type `u`. Pointers and named members are not dependencies. -/
inductive Depends (ti : TypeInformation) : UInt32 → UInt32 → Prop where
  | alias {t v u} : ti.fromId t = some v → accessAlias v = some u → Depends ti t u
  | size {t v u} : ti.fromId t = some v → sizeRef v = some u → Depends ti t u
  | anonymous {t v ms m} : ti.fromId t = some v → membersOf v = some ms → m ∈ ms → m.name = none →
      Depends ti t m.tid

/-- No type depends on itself. -/
def Acyclic (ti : TypeInformation) : Prop := ∀ t, ¬ Relation.TransGen (Depends ti) t t

/-- An array, a struct or a union. -/
def IsAggregate : TypeVariant → Prop
  | .array _ _ => True
  | .struct _ _ => True
  | .union _ _ => True
  | _ => False

/-- `m` lies inside an object of `s` bytes. -/
def Inside (ti : TypeInformation) (m : Member) (s : Nat) : Prop :=
  match bitWidth m.offset with
  | none => ∃ n, HasSize none ti m.tid n ∧ bitPos m.offset + 8 * n ≤ 8 * s
  | some w => bitPos m.offset + w.toNat ≤ 8 * s

/-- Objects lie inside the objects they belong to. -/
structure Layout (ti : TypeInformation) : Prop where
  /-- Objects are smaller than 512 MiB, so that bit positions fit in 32 bits (BTF member offsets are
  32-bit bit positions). -/
  small : ∀ t n, HasSize none ti t n → n < 2 ^ 29
  /-- Members lie inside their struct or union. -/
  inside : ∀ t v ms m s, ti.fromId t = some v → membersOf v = some ms → m ∈ ms → ownSize v = some s →
    Inside ti m s
  /-- Bitfields are scalars and have names. -/
  bitfields : ∀ t v ms m, ti.fromId t = some v → membersOf v = some ms → m ∈ ms →
    IsBitfield m.offset → m.name ≠ none ∧ ∀ u, Resolves ti m.tid u → ¬ IsAggregate u

/-- Moreover, no type depends on itself, and the member names of one struct or union are distinct. -/
structure WellFormed (ti : TypeInformation) : Prop extends Layout ti where
  acyclic : Acyclic ti
  distinct : ∀ t v ms m m' name, ti.fromId t = some v → membersOf v = some ms → m ∈ ms → m' ∈ ms →
    m.name = some name → m'.name = some name → m = m'

/-- `m` is the member called `name` of the struct or union `v`, `bits` bits after its start, directly or
inside anonymous members. -/
inductive Field (ti : TypeInformation) : TypeVariant → Str → Member → Nat → Prop where
  | direct {v ms m name} : membersOf v = some ms → m ∈ ms → m.name = some name →
      Field ti v name m (bitPos m.offset)
  | nested {v ms a w m name bits} : membersOf v = some ms → a ∈ ms → a.name = none →
      bitWidth a.offset = none → Resolves ti a.tid w → Field ti w name m bits →
      Field ti v name m (bitPos a.offset + bits)

/-- C's rule that the members of a struct, including those of its anonymous members, have distinct
names: a name denotes at most one place. -/
def Unambiguous (ti : TypeInformation) : Prop :=
  ∀ t v name m bits m' bits', ti.fromId t = some v → Field ti v name m bits → Field ti v name m' bits' →
    m = m' ∧ bits = bits'

end Btf.Spec

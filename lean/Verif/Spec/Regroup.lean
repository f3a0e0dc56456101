import Verif.Spec.WellFormed

/-!
# Other orders of members, and unnamed members that are opened

`Regroups ti ti'`: `ti'` is `ti`, but the members of structs and unions may be listed in another order, and instead of an
unnamed member its members may be listed, each at its place in the outer struct (so that
`struct { int x; union { int a; long b; }; }` becomes `struct { long b; int a; int x; }` with the same positions). Everything
else is the same. (Names and headers of structs and unions may differ, too.)
-/

namespace Btf.Spec

open Btf

/-- `x'` is `x`, a member of the unnamed member `a`, as a member of the outer struct. -/
structure Lifted (a x x' : Member) : Prop where
  nameOffset : x'.nameOffset = x.nameOffset
  name : x'.name = x.name
  type : x'.tid = x.tid
  position : bitPos x'.offset = bitPos a.offset + bitPos x.offset
  width : bitWidth x'.offset = bitWidth x.offset

/-- `a` is an unnamed member, not a bitfield, that is a struct or union with the members `inner`. -/
structure Unnamed (ti : TypeInformation) (a : Member) (inner : List Member) : Prop where
  unnamed : a.name = none
  bytes : bitWidth a.offset = none
  members : ∃ v, Resolves ti a.tid v ∧ membersOf v = some inner

/-- The members `ms'` are the members `ms` in some order; instead of an unnamed member there may be its members. -/
structure SameMembers (ti : TypeInformation) (ms ms' : List Member) : Prop where
  all : ∀ m ∈ ms, m ∈ ms' ∨ ∃ inner, Unnamed ti m inner ∧ ∀ x ∈ inner, ∃ x' ∈ ms', Lifted m x x'
  only : ∀ m' ∈ ms', m' ∈ ms ∨ ∃ a ∈ ms, ∃ inner, Unnamed ti a inner ∧ ∃ x ∈ inner, Lifted a x m'

/-- The type `v'` is the type `v` with its members in another order or grouped in another way. -/
inductive Regrouped (ti : TypeInformation) : TypeVariant → TypeVariant → Prop where
  | same {v} : membersOf v = none → Regrouped ti v v
  | struct {h h' d d'} : d'.size = d.size → SameMembers ti d.memberList d'.memberList →
      Regrouped ti (.struct h d) (.struct h' d')
  | union {h h' d d'} : d'.size = d.size → SameMembers ti d.memberList d'.memberList →
      Regrouped ti (.union h d) (.union h' d')

structure Regroups (ti ti' : TypeInformation) : Prop where
  present : ∀ t v, ti.fromId t = some v → ∃ v', ti'.fromId t = some v' ∧ Regrouped ti v v'
  missing : ∀ t, ti.fromId t = none → ti'.fromId t = none
  pointers : ∀ t v, ti.fromId t = some v → IsPtr v → ∀ n, PointerSize ti n ↔ PointerSize ti' n

end Btf.Spec

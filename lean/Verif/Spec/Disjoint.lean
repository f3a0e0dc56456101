import Verif.Spec.WellFormed

/-!
# Members that do not overlap

C lays out the members of a struct one after the other; only the members of a union share storage.
-/

namespace Btf.Spec

open Btf

/-- A member occupies `e` bits. -/
def MemberExtent (ti : TypeInformation) (m : Member) (e : Nat) : Prop :=
  match bitWidth m.offset with
  | none => ∃ n, HasSize none ti m.tid n ∧ e = 8 * n
  | some w => e = w.toNat

/-- One of the members ends before the other begins. -/
def Apart (ti : TypeInformation) (m m' : Member) : Prop :=
  (∀ e, MemberExtent ti m e → bitPos m.offset + e ≤ bitPos m'.offset) ∨
    (∀ e, MemberExtent ti m' e → bitPos m'.offset + e ≤ bitPos m.offset)

/-- The members of one struct do not overlap. Nothing is said about unions. -/
def NoOverlap (ti : TypeInformation) : Prop :=
  ∀ t hd d, ti.fromId t = some (.struct hd d) → d.memberList.Pairwise (Apart ti)

/-- `w` is `v`, or belongs to `v` through unnamed members. -/
inductive Belongs (ti : TypeInformation) : TypeVariant → TypeVariant → Prop where
  | self {v} : Belongs ti v v
  | unnamed {v ms m v' w} : membersOf v = some ms → m ∈ ms → m.name = none → Resolves ti m.tid v' →
      Belongs ti v' w → Belongs ti v w

/-- `c` and `d` are members of one union that is `v` or belongs to `v` through unnamed members. -/
def Share (ti : TypeInformation) (v : TypeVariant) (c d : Str) : Prop :=
  ∃ hd x m b m' b', Belongs ti v (.union hd x) ∧ Field ti (.union hd x) c m b ∧ Field ti (.union hd x) d m' b'

end Btf.Spec

import Verif.Model.TypeInfo

/-!
# What the lookup functions should answer for a list of types

The records of a file, in file order, are numbered 1, 2, 3, …; id 0 is `void`.
-/

namespace Btf.Spec

open Btf

/-- The name a type carries. -/
def typeName : TypeVariant → Option Str
  | .void => some (str "void")
  | .int _ d => d.name
  | .typedef _ d | .fwd _ d | .typeTag _ d => d.name
  | .enum _ d => d.name
  | .enum64 _ d => d.name
  | .struct _ d | .union _ d => d.name
  | .var _ d => d.name
  | .func _ d => d.name
  | .float _ d => d.name
  | .dataSec _ d => d.name
  | .declTag _ d => d.name
  | .ptr _ _ | .const _ _ | .volatile _ _ | .restrict _ _ | .array _ _ | .funcProto _ _ => none

/-- The list with ids: the first type has id 1. -/
def numbered (vs : List TypeVariant) : List (UInt32 × TypeVariant) :=
  vs.zipIdx.map (fun p => (UInt32.ofNat (p.2 + 1), p.1))

/-- The type with id `t`. -/
def typeAt (vs : List TypeVariant) (t : Nat) : Option TypeVariant := (TypeVariant.void :: vs)[t]?

/-- `ti` answers every lookup as the list of types `vs` demands. -/
structure Holds (ti : TypeInformation) (vs : List TypeVariant) : Prop where
  /-- `get()` iterates over the numbered types, in order. -/
  get : ti.get = numbered vs
  /-- `from_id(t)`. -/
  fromId : ∀ t, ti.fromId t = typeAt vs t.toNat
  /-- `name_of(t)`. -/
  nameOf : ∀ t, ti.nameOf t = (typeAt vs t.toNat).bind typeName
  /-- `id_of(s)` is the greatest id with the name `s`. -/
  idOf_some : ∀ s t, s ≠ str "void" → (ti.idOf s = some t ↔
    ((typeAt vs t.toNat).bind typeName = some s ∧ ∀ u, t.toNat < u → (typeAt vs u).bind typeName ≠ some s))
  idOf_none : ∀ s, ti.idOf s = none ↔ ∀ u, (typeAt vs u).bind typeName ≠ some s
  idOf_void : ti.idOf (str "void") = some 0

end Btf.Spec

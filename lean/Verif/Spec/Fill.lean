import Verif.Model.TypeInfo

/-!
# How many bytes the record of a type takes

Every record has a header of 12 bytes; what follows depends on the kind.
-/

namespace Btf.Spec

open Btf

/-- The size of the record that describes a type, in bytes. -/
def recordBytes : TypeVariant → Nat
  | .void => 0
  | .int _ _ | .var _ _ | .declTag _ _ => 12 + 4
  | .array _ _ => 12 + 12
  | .struct _ d | .union _ d => 12 + 12 * d.memberList.length
  | .enum _ d => 12 + 8 * d.namedValueList.length
  | .enum64 _ d => 12 + 12 * d.namedValueList.length
  | .funcProto _ d => 12 + 8 * d.parameterList.length
  | .dataSec _ d => 12 + 12 * d.variableList.length
  | .ptr _ _ | .const _ _ | .volatile _ _ | .restrict _ _ | .typedef _ _ | .fwd _ _ | .typeTag _ _ | .func _ _ | .float _ _ => 12

/-- How many members, values, parameters or variables a type has. -/
def itemCount : TypeVariant → Nat
  | .struct _ d | .union _ d => d.memberList.length
  | .enum _ d => d.namedValueList.length
  | .enum64 _ d => d.namedValueList.length
  | .funcProto _ d => d.parameterList.length
  | .dataSec _ d => d.variableList.length
  | _ => 0

/-- All strings of a type: its own name and those of its members, values or parameters. -/
def strings : TypeVariant → List Str
  | .int _ d => d.name.toList
  | .struct _ d | .union _ d => d.name.toList ++ d.memberList.flatMap fun m => m.name.toList
  | .enum _ d => d.name.toList ++ d.namedValueList.map fun x => x.name
  | .enum64 _ d => d.name.toList ++ d.namedValueList.map fun x => x.name
  | .typedef _ d | .fwd _ d | .typeTag _ d => d.name.toList
  | .func _ d => d.name.toList
  | .float _ d => d.name.toList
  | .funcProto _ d => d.parameterList.flatMap fun x => x.name.toList
  | .var _ d => d.name.toList
  | .dataSec _ d => d.name.toList
  | .declTag _ d => d.name.toList
  | _ => []

end Btf.Spec

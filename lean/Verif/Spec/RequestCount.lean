import Verif.Model.TypeInfo

/-!
# How many requests a type costs

Reading a type takes one request per 32-bit word of its record (the 64-bit values of enum64 take one request each) and
one request per character of each name, and one for the terminator.
-/

namespace Btf.Spec

open Btf

/-- The number of characters of a UTF-8 string: the bytes that are not continuation bytes (10xxxxxx). -/
def chars (s : Str) : Nat := s.countP (fun b => b.toNat / 64 != 2)

/-- A name: its characters and the terminator. -/
def stringRequests (s : Str) : Nat := chars s + 1

/-- A name that may be missing. -/
def nameRequests : Option Str → Nat
  | none => 0
  | some s => stringRequests s

/-- The record of a type: the header, the body and all names. -/
def variantRequests : TypeVariant → Nat
  | .void => 0
  | .int _ d => 3 + 1 + nameRequests d.name
  | .ptr _ _ | .const _ _ | .volatile _ _ | .restrict _ _ => 3
  | .array _ _ => 3 + 3
  | .struct _ d | .union _ d => 3 + (d.memberList.map fun m => 3 + nameRequests m.name).sum + nameRequests d.name
  | .enum _ d => 3 + (d.namedValueList.map fun x => 2 + stringRequests x.name).sum + nameRequests d.name
  | .enum64 _ d => 3 + (d.namedValueList.map fun x => 2 + stringRequests x.name).sum + nameRequests d.name
  | .typedef _ d | .fwd _ d | .typeTag _ d => 3 + nameRequests d.name
  | .func _ d => 3 + nameRequests d.name
  | .float _ d => 3 + nameRequests d.name
  | .funcProto _ d => 3 + (d.parameterList.map fun p => 2 + nameRequests p.name).sum
  | .var _ d => 3 + 1 + nameRequests d.name
  | .dataSec _ d => 3 + 3 * d.variableList.length + nameRequests d.name
  | .declTag _ d => 3 + 1 + nameRequests d.name

end Btf.Spec

import Verif.Model.Offset

/-!
# What an offset denotes

The location of a member is a bit position (counted from the start of the outer object) and, for a
bitfield, its width. Nothing here mentions addition.
-/

namespace Btf.Spec

/-- Exact bit position denoted by an offset. -/
def bitPos : Offset → Nat
  | .byteOffset b => 8 * b.toNat
  | .bitOffsetAndSize o _ => o.toNat

/-- Width of the bitfield, if the offset denotes one. -/
def bitWidth : Offset → Option UInt32
  | .byteOffset _ => none
  | .bitOffsetAndSize _ s => some s

/-- The offset denotes a bitfield. -/
def IsBitfield (o : Offset) : Prop := bitWidth o ≠ none

end Btf.Spec

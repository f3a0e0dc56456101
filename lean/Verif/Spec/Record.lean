import Verif.Spec.Format

/-!
# Where the record of an id is, and what its words mean
-/

namespace Btf.Spec

open Btf

/-- In the file `f` with header `fh`, in byte order `e`, the record with id `t` (the `t`-th one) starts at
`pos`. -/
structure StartsAt (f : List UInt8) (t : UInt32) (e : Endianness) (fh : FileHeader) (pos : Nat) : Prop where
  preamble : Preamble f e fh
  bounded : typeEnd fh < 2 ^ 32
  before : ∃ vs, vs.length + 1 = t.toNat ∧ Records .crate f e fh (typeStart fh) vs pos

/-- The offset of a member, computed from its third word. -/
def documentedOffset (kindFlag : Bool) (raw : Nat) : Offset :=
  if kindFlag then
    if raw / 2 ^ 24 = 0 ∧ raw % 2 ^ 24 % 8 = 0 then .byteOffset (UInt32.ofNat (raw % 2 ^ 24 / 8))
    else .bitOffsetAndSize (UInt32.ofNat (raw % 2 ^ 24)) (UInt32.ofNat (raw / 2 ^ 24))
  else .byteOffset (UInt32.ofNat (raw / 8))

/-- The bit `i` of a word. -/
def bit (w : UInt32) (i : Nat) : Bool := w.toNat / 2 ^ i % 2 == 1

end Btf.Spec

import Verif.Spec.Format

/-!
# Two files with the same content

The files may differ in byte order, in the version and flags bytes, in the reserved bits of the records and
in all bytes that belong to nothing.
-/

namespace Btf.Spec

open Btf

/-- The file `f'` (in byte order `e'`, with header `fh'`) says the same as the file `f` (in byte order `e`, with
header `fh`). -/
structure SameContent (dl : Dialect) (f : List UInt8) (e : Endianness) (fh : FileHeader)
    (f' : List UInt8) (e' : Endianness) (fh' : FileHeader) : Prop where
  preamble : Preamble f e fh
  preamble' : Preamble f' e' fh'
  /-- The sections are at the same places (but `version` and `flags` may differ). -/
  sections : fh'.hdrLen = fh.hdrLen ∧ fh'.typeOff = fh.typeOff ∧ fh'.typeLen = fh.typeLen ∧
    fh'.strOff = fh.strOff ∧ fh'.strLen = fh.strLen
  /-- The headers of the records contain the same (but the bits 16-23 and 29-30 of the second word may differ). -/
  headers : ∀ vs pos v next th, Records dl f e fh (typeStart fh) vs pos → RecordAt dl f e fh pos v next →
    HeaderAt f e pos th → HeaderAt f' e' pos th
  /-- The words of the bodies of the records are the same. -/
  bodies : ∀ vs pos v next th i w, Records dl f e fh (typeStart fh) vs pos → RecordAt dl f e fh pos v next →
    HeaderAt f e pos th → 4 * i + 4 ≤ bodySize th.kind th.vlen →
    Word f e (pos + 12 + 4 * i) w → Word f' e' (pos + 12 + 4 * i) w
  /-- The bytes of the string section are the same. -/
  strings : ∀ i, strStart fh ≤ i → i < strEnd fh → f'[i]? = f[i]?

/-- The bytes of a 32-bit word. -/
def wordBytes (e : Endianness) (w : UInt32) : List UInt8 :=
  match e with
  | .little => [UInt8.ofNat w.toNat, UInt8.ofNat (w.toNat / 2 ^ 8), UInt8.ofNat (w.toNat / 2 ^ 16), UInt8.ofNat (w.toNat / 2 ^ 24)]
  | .big => [UInt8.ofNat (w.toNat / 2 ^ 24), UInt8.ofNat (w.toNat / 2 ^ 16), UInt8.ofNat (w.toNat / 2 ^ 8), UInt8.ofNat w.toNat]

/-- A file written in byte order `e`: the header, then the type section (given as words), then the string
section. -/
def fileOf (e : Endianness) (version flags : UInt8) (types : List UInt32) (strings : List UInt8) : List UInt8 :=
  magic e ++ [version, flags] ++ wordBytes e 24 ++ wordBytes e 0 ++ wordBytes e (UInt32.ofNat (4 * types.length)) ++
    wordBytes e (UInt32.ofNat (4 * types.length)) ++ wordBytes e (UInt32.ofNat strings.length) ++
    types.flatMap (wordBytes e) ++ strings

/-- The answers to a request for `n` bytes are the same error, or contain the same integer, in byte order `e` and
`e'`. -/
def SameInt (e e' : Endianness) (n : Nat) : Except Error (Nat → UInt8) → Except Error (Nat → UInt8) → Prop
  | .ok b, .ok b' => intOf e ((List.range n).map b) = intOf e' ((List.range n).map b')
  | .error k, .error k' => k = k'
  | _, _ => False

end Btf.Spec

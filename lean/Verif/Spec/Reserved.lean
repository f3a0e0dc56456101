import Verif.Spec.Format

/-!
# Files that differ only in what the format does not use

The version and flags bytes of the file header (bytes 2 and 3), and the bits 16-23 and 29-30 of the second word of a
record.
-/

namespace Btf.Spec

open Btf

/-- Two second words of a record with the same length (bits 0-15), kind (bits 24-28) and kind flag (bit 31). -/
def SameFields (w w' : UInt32) : Prop :=
  w.toNat % 2 ^ 16 = w'.toNat % 2 ^ 16 ∧ w.toNat / 2 ^ 24 % 32 = w'.toNat / 2 ^ 24 % 32 ∧ w.toNat / 2 ^ 31 = w'.toNat / 2 ^ 31

/-- The header of a record, well-formed or not, starts at `pos`: everything before it in the type section can be
decoded, and it fits into the section. -/
def RecordStart (f : List UInt8) (e : Endianness) (fh : FileHeader) (pos : Nat) : Prop :=
  pos + 12 ≤ typeEnd fh ∧ ∃ vs, Records .crate f e fh (typeStart fh) vs pos

/-- The files `f` and `f'` differ at most in the version and flags bytes and in unused bits of records. -/
structure OnlyReserved (f f' : List UInt8) : Prop where
  length : f'.length = f.length
  bytes : ∀ i, f'[i]? ≠ f[i]? → i = 2 ∨ i = 3 ∨
    ∃ e fh pos, Preamble f e fh ∧ RecordStart f e fh pos ∧ pos + 4 ≤ i ∧ i < pos + 8
  fields : ∀ e fh pos w w', Preamble f e fh → RecordStart f e fh pos → Word f e (pos + 4) w → Word f' e (pos + 4) w' →
    SameFields w w'

/-- The type section does not overlap the file header or the string section, and the string section does not overlap
the version and flags bytes. -/
def SectionsApart (fh : FileHeader) : Prop :=
  24 ≤ typeStart fh ∧ 4 ≤ strStart fh ∧ (strEnd fh ≤ typeStart fh ∨ typeEnd fh ≤ strStart fh)

end Btf.Spec

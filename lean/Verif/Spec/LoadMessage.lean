import Verif.Spec.Flaws

/-!
# The texts of the errors of `TypeInformation::new`

Written as the documentation of the crate would write them. `hexText` uses Lean's own conversion of numbers to
digits.
-/

namespace Btf.Spec

open Btf

/-- A number in upper-case hexadecimal digits, filled with zeros to `w` digits. -/
def hexText (w n : Nat) : String :=
  let ds := (Nat.toDigits 16 n).map Char.toUpper
  String.ofList (List.replicate (w - ds.length) '0' ++ ds)

/-- The kinds and texts of the errors that are made by the crate itself. -/
inductive LoadText : LoadReason → ErrorKind → String → Prop where
  | magic {v} : LoadText (.invalidMagic v) .InvalidMagic ("Invalid magic number: 0x" ++ hexText 4 v.toNat)
  | typeStart : LoadText .typeSectionStart .InvalidTypeSectionOffset "Type section start offset overflow"
  | typeEnd : LoadText .typeSectionEnd .InvalidTypeSectionOffset "Type section end offset overflow"
  | record : LoadText .typeSectionOffset .InvalidTypeSectionOffset "Invalid type section offset"
  | kind {v} : LoadText (.invalidKind v) .InvalidBTFKind ("Invalid BTF kind value: 0x" ++ hexText 4 v.toNat)
  | stringStart : LoadText .stringSectionStart .InvalidStringOffset "String section start offset overflow"
  | stringEnd : LoadText .stringSectionEnd .InvalidStringOffset "String section end offset overflow"
  | stringOverflow : LoadText .stringOverflow .InvalidStringOffset "String offset overflow"
  | stringOutside {v} : LoadText (.stringOffset v) .InvalidStringOffset ("Invalid string offset 0x" ++ hexText 8 v.toNat)
  | unterminated {v} : LoadText (.unterminated v) .InvalidString
      ("String at offset 0x" ++ hexText 8 v.toNat ++ " is not correctly null terminated")
  | unaligned : LoadText .unaligned .InvalidOffset "Unaligned bit offset for struct/union member with kind_flag=false"

/-- The error that a user gets to see: the error of the source unchanged, or one of the table. -/
def LoadSays (q : LoadReason) (x : Error) : Prop := q = .source x ∨ ∃ k text, LoadText q k text ∧ x = ⟨k, str text⟩

end Btf.Spec

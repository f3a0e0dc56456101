import Verif.Model.Complaint
import Verif.Spec.Debug
import Verif.Spec.LoadMessage

/-!
# What the example programs say when they fail
-/

namespace Btf.Spec

open Btf Examples

/-- The program ends like this. -/
def EndsWith (program : Nat → Account) (r : Account) : Prop := r.close ≠ .nofuel ∧ ∃ k, program k = r

/-- The kinds of errors by name. -/
def printedErrorKind : ErrorKind → String
  | .IOError => "IOError"
  | .EOF => "EOF"
  | .InvalidOffset => "InvalidOffset"
  | .InvalidMagic => "InvalidMagic"
  | .InvalidBTFKind => "InvalidBTFKind"
  | .InvalidStringOffset => "InvalidStringOffset"
  | .InvalidString => "InvalidString"
  | .UnsupportedType => "UnsupportedType"
  | .InvalidTypeHeaderAttribute => "InvalidTypeHeaderAttribute"
  | .InvalidTypeSectionOffset => "InvalidTypeSectionOffset"
  | .InvalidTypePath => "InvalidTypePath"
  | .InvalidTypeID => "InvalidTypeID"
  | .NotSized => "NotSized"
  | .UnexpectedBitfield => "UnexpectedBitfield"

/-- What is assumed about how the standard library puts texts in quotes: different texts become different, and texts of
characters below 256 are printed like names. -/
structure Quoting (quote : Str → Str) : Prop where
  apart : ∀ s s', quote s = quote s' → s = s'
  latin1 : ∀ s x, PrintsString s x → quote s = str x

/-- The message is an ordinary English text: nothing in it has to be escaped. -/
def Unescaped (s : String) : Prop := ∀ c ∈ s.toList, 32 ≤ c.toNat ∧ c.toNat < 127 ∧ c ≠ '"' ∧ c ≠ '\\'

end Btf.Spec

import Verif.Spec.Path
import Verif.Spec.Encode

/-!
# The plain spelling of a path

Numbers are written without leading zeros, names are preceded by a dot unless they come first, and there is nothing at the
end.
-/

namespace Btf.Spec

open Btf

/-- The decimal digits of a number, without leading zeros. -/
def numeral (n : Nat) : Str :=
  if n < 10 then [UInt8.ofNat (48 + n)] else numeral (n / 10) ++ [UInt8.ofNat (48 + n % 10)]

def spellRest : List PathComponent → Str
  | [] => []
  | .name n :: cs => [46] ++ n ++ spellRest cs
  | .index i :: cs => [91] ++ numeral i ++ [93] ++ spellRest cs

/-- The text for the components. -/
def spell : List PathComponent → Str
  | .name n :: cs => n ++ spellRest cs
  | cs => spellRest cs

/-- What a file must have so that a path with such a component leads somewhere: a name that is the Latin-1 reading of bytes
of the file, or an array with more elements (their number has 32 bits). -/
def Possible : PathComponent → Prop
  | .name n => ∃ bs, n = latin1 bs
  | .index i => i + 1 < 2 ^ 32

end Btf.Spec

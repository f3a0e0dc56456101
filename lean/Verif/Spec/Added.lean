import Verif.Spec.Format
import Verif.Spec.Fill

/-!
# Moving the sections of a file, and adding to them
-/

namespace Btf.Spec

open Btf

/-- The sections of `f` are found in `f'`, possibly at another place and with more behind them: the string section and
`n` bytes from the start of the type section on. -/
structure TakenOver (f : List UInt8) (fh : FileHeader) (f' : List UInt8) (fh' : FileHeader) (n : Nat) : Prop where
  types : ∀ i < n, f'[typeStart fh' + i]? = f[typeStart fh + i]?
  strings : ∀ i < fh.strLen.toNat, f'[strStart fh' + i]? = f[strStart fh + i]?
  typeLen : fh.typeLen.toNat ≤ fh'.typeLen.toNat
  strLen : fh.strLen.toNat ≤ fh'.strLen.toNat
  /-- The sections end below 4 GiB. -/
  typeEnd : typeEnd fh' < 2 ^ 32
  strEnd : strEnd fh' < 2 ^ 32

/-- How many bytes the records of all types take. -/
def allBytes (ti : TypeInformation) : Nat := (ti.get.map fun x => recordBytes x.2).sum

end Btf.Spec

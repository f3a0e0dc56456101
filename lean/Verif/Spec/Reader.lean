import Verif.Spec.Format

/-!
# What a reader does
-/

namespace Btf.Spec

open Btf

/-- At its current position, the source of the reader delivers the bytes `bs`. -/
def Delivers (r : Reader) (bs : List UInt8) : Prop :=
  ∃ b, r.readable.read r.trace r.offset bs.length = .ok b ∧ (List.range bs.length).map b = bs

/-- At its current position, the source of the reader refuses to deliver `n` bytes. -/
def Refuses (r : Reader) (n : Nat) (e : Error) : Prop := r.readable.read r.trace r.offset n = .error e

/-- The reader after it has read `n` bytes: `n` bytes further on. -/
def advanced (r : Reader) (n : Nat) : Reader :=
  { r with offset := r.offset + n, trace := ⟨r.offset, n, none⟩ :: r.trace }

/-- The reader after it has tried to read `n` bytes: where it was. -/
def refused (r : Reader) (n : Nat) (e : Error) : Reader := { r with trace := ⟨r.offset, n, some e⟩ :: r.trace }

/-- The integer with the same last `n` bits that is at least `-2^(n-1)` and less than `2^(n-1)`. -/
def signedOf (n v : Nat) : Int := if v < 2 ^ (n - 1) then v else (v : Int) - 2 ^ n

end Btf.Spec

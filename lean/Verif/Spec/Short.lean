import Verif.Spec.Shape

/-!
# Sources that end early, and what cannot be addressed on 32-bit targets
-/

namespace Btf.Spec

open Btf

/-- The source has no bytes from `size` on: it answers no request (with a 32-bit address) that goes beyond. It may answer
other requests as it likes, and differently each time. -/
def Short (R : Readable) (size : Nat) : Prop :=
  ∀ history pos n b, 0 < n → pos < 2 ^ 32 → R.read history pos n = .ok b → pos + n ≤ size

/-- The type section is not empty and lies in the last 12 bytes that have a 32-bit address, so that there is no room for
the header of a record. -/
def AtTheEnd (fh : FileHeader) : Prop :=
  typeStart fh < typeEnd fh ∧ typeEnd fh < 2 ^ 32 ∧ 2 ^ 32 ≤ typeStart fh + 12

end Btf.Spec

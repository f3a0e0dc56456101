import Verif.Model.Examples
import Verif.Spec.Contents
import Verif.Spec.Access

/-!
# What the example programs should do
-/

namespace Btf.Spec

open Btf Examples

/-- The file contains the bytes `f` and can be read: `read_exact_at` fills the buffer with the bytes asked for,
or fails if there are not so many. -/
def Contains (file : OsFile) (f : List UInt8) : Prop :=
  ∀ history offset len, 0 < len →
    if offset + len ≤ f.length then
      ∃ b, file.readExactAt history offset len = .ok b ∧ ∀ i < len, some (b i) = f[offset + i]?
    else ∃ text, file.readExactAt history offset len = .error text

/-- The program ends with this run. -/
def Ends (program : Nat → Run) (r : Run) : Prop := r.ending ≠ .nofuel ∧ ∃ k, program k = r

/-- Among the types `vs`, `t` is the one a name refers to: the last type with this name; `void` is 0. -/
def Names (vs : List TypeVariant) (s : Str) (t : UInt32) : Prop :=
  if s = str "void" then t = 0
  else (typeAt vs t.toNat).bind typeName = some s ∧ ∀ u, t.toNat < u → (typeAt vs u).bind typeName ≠ some s

end Btf.Spec

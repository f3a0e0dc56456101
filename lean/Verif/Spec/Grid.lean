import Verif.Spec.Access
import Mathlib.Data.List.Forall2
import Mathlib.Algebra.BigOperators.Group.List.Defs
import Mathlib.Algebra.Group.Nat.Defs

/-!
# Arrays of arrays
-/

namespace Btf.Spec

open Btf

/-- `t` is an array of `dims[0]` arrays of `dims[1]` arrays .. of objects of type `u`; between them can be aliases. -/
inductive Nested (ti : TypeInformation) : UInt32 → List Nat → UInt32 → Prop where
  | cell {t} : Nested ti t [] t
  | rows {t hd d dims u} : Resolves ti t (.array hd d) → Nested ti d.elementTid dims u →
      Nested ti t (d.elementCount.toNat :: dims) u

/-- There is an index for every dimension, and all are in bounds. -/
def InGrid (dims indices : List Nat) : Prop := List.Forall₂ (fun n i => i < n) dims indices

/-- The number of cells before the one with these indices, row by row as in C. -/
def cellsBefore : List Nat → List Nat → Nat
  | _ :: dims, i :: indices => i * dims.prod + cellsBefore dims indices
  | _, _ => 0

end Btf.Spec

import Verif.Spec.CWalk
import Verif.Spec.CAmong

/-!
# Following pointers in C, in any program

As `CWalk`, but it does not matter how types are numbered.
-/

namespace Btf.Spec

open Btf

/-- In an object of type number `w` each of the paths leads to a pointer, to the object in which the next path is followed; the last
pointer is to type number `w'`. `number` says which type has a number, if one has. -/
inductive CTrail (p : Nat) (number : UInt32 → Option CType) : UInt32 → List (List PathComponent) → UInt32 → Prop where
  | stop {w} : CTrail p number w [] w
  | step {w w₁ w' S x cs css} : number w = some S → S.reach p cs = some x → x.type.target = some w₁ →
      CTrail p number w₁ css w' → CTrail p number w (cs :: css) w'

/-- The numbers of the types of a header file which comes after `n` other declarations. -/
def numberAfter (n : Nat) (Ts : List CType) (w : UInt32) : Option CType :=
  if w.toNat < n + 2 then none else (headerParts Ts)[w.toNat - (n + 2)]?

end Btf.Spec

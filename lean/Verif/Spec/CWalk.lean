import Verif.Spec.CHeader

/-!
# Following pointers in C

A header file with pointers: every type in it has a number, and a pointer says by number what it points to. So pointers may go in
circles, as in `struct list_head`.
-/

namespace Btf.Spec

open Btf

/-- The type with the number `w`: 0 is `void`, 1 is `struct list_head`, and the types of the header file follow. -/
def typeNumber (Ts : List CType) (w : UInt32) : Option CType :=
  if w.toNat < 2 then none else (headerParts Ts)[w.toNat - 2]?

/-- `p->a.b`, again and again: in an object of type number `w` each of the paths leads to a pointer, to the object in which the next
path is followed. The last pointer is to type number `w'`. -/
inductive CWalk (p : Nat) (Ts : List CType) : UInt32 → List (List PathComponent) → UInt32 → Prop where
  | stop {w} : CWalk p Ts w [] w
  | step {w w₁ w' S x cs css} : typeNumber Ts w = some S → S.reach p cs = some x → x.type.target = some w₁ →
      CWalk p Ts w₁ css w' → CWalk p Ts w (cs :: css) w'

end Btf.Spec

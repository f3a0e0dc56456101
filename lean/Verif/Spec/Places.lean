import Verif.Spec.CTypes

/-!
# Everything that can be looked up in a C type

The list of all paths into an object of the type, with what is there. It is written by going through the type once, without
looking anything up.
-/

namespace Btf.Spec

open Btf

/-- A path, and what it leads to. -/
structure TableRow where
  path : List PathComponent
  found : Found

/-- The same, `n` bits later. -/
def TableRow.shift (x : TableRow) (n : Nat) : TableRow := ⟨x.path, x.found.shift n⟩

/-- The same, behind one more component. -/
def TableRow.behind (x : TableRow) (c : PathComponent) : TableRow := ⟨c :: x.path, x.found⟩

mutual
/-- What lies inside an object of the type and has a name, as far as members of the object are concerned. -/
def CType.named (p : Nat) : CType → List TableRow
  | .record _ _ _ ms => ms.places p
  | .renamed _ t => t.named p
  | _ => []

/-- What lies inside an object of the type, except for the object itself. -/
def CType.inner (p : Nat) : CType → List TableRow
  | .scalar _ => []
  | .pointer _ => []
  | .array n t => (List.range n.toNat).flatMap fun i =>
      (⟨[], ⟨t, 0, none⟩⟩ :: t.inner p).map fun x => (x.shift (8 * (i * t.size p))).behind (.index i)
  | .record _ _ _ ms => ms.places p
  | .renamed _ t => t.inner p

/-- The members of an unnamed member are members. -/
def CMembers.places (p : Nat) : CMembers → List TableRow
  | .nil => []
  | .cons name position width type rest =>
    (if name = [] then (type.named p).map (·.shift position)
     else match width with
      | none => (⟨[], ⟨type, 0, none⟩⟩ :: type.inner p).map fun x => (x.shift position).behind (.name name)
      | some w => [⟨[.name name], ⟨type, position, some w⟩⟩]) ++ rest.places p
end

/-- The object, and what lies inside. -/
def CType.places (p : Nat) (t : CType) : List TableRow := ⟨[], ⟨t, 0, none⟩⟩ :: t.inner p

/-- The number of bits of what was found. -/
def Found.extent (p : Nat) (x : Found) : Nat := x.width.getD (8 * x.type.size p)

end Btf.Spec

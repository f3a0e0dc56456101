import Verif.Spec.CAmong

/-!
# The layout of structs and unions

C types as they are in the source: without positions. Where members are put, and how large structs and unions are, follows
from the sizes and alignments of the members by the usual rules (System V ABI): every member begins at the next multiple of its
alignment; a bitfield follows at the next bit, unless it would cross a boundary of its type; and the size is a multiple of the greatest
alignment. Bitfields have names.
-/

namespace Btf.Spec

open Btf

mutual
/-- A type as it is written in C. -/
inductive CSource where
  /-- A number, with size and alignment in bytes. -/
  | scalar (size align : Nat)
  /-- A pointer to the type with this number. -/
  | pointer (target : UInt32)
  | array (count : Nat) (element : CSource)
  /-- A struct or union; the tag can be empty. -/
  | record (isUnion : Bool) (tag : Name) (fields : CFields)
  | renamed (how : Renaming) (type : CSource)

/-- Members, with names (empty: none), widths in bits for bitfields, and types. -/
inductive CFields where
  | nil
  | cons (name : Name) (width : Option Nat) (type : CSource) (rest : CFields)
end

/-- The first multiple of `a` that is not below `n`. -/
def roundUp (n a : Nat) : Nat := (n + a - 1) / a * a

/-- The bit where a member begins if the one before it ends at bit `place`. -/
def memberStart (isUnion : Bool) (place : Nat) (width : Option Nat) (align size : Nat) : Nat :=
  if isUnion then 0
  else match width with
    | none => roundUp place (8 * align)
    | some w => if place / (8 * size) = (place + w - 1) / (8 * size) then place else roundUp place (8 * align)

/-- How many bits a member has. -/
def memberBits (width : Option Nat) (size : Nat) : Nat := width.getD (8 * size)

mutual
/-- `_Alignof`; pointers have `p` bytes, and are aligned to their size. -/
def CSource.align (p : Nat) : CSource → Nat
  | .scalar _ a => a
  | .pointer _ => p
  | .array _ t => t.align p
  | .record _ _ ms => ms.align p
  | .renamed _ t => t.align p

/-- The greatest alignment. -/
def CFields.align (p : Nat) : CFields → Nat
  | .nil => 1
  | .cons _ _ t rest => max (t.align p) (rest.align p)
end

mutual
/-- `sizeof`. -/
def CSource.size (p : Nat) : CSource → Nat
  | .scalar s _ => s
  | .pointer _ => p
  | .array n t => n * t.size p
  | .record isUnion _ ms => roundUp (if isUnion then ms.widest p else ms.finish p 0) (8 * ms.align p) / 8
  | .renamed _ t => t.size p

/-- The bit where the last member of a struct ends, if the members are put behind `place`. -/
def CFields.finish (p : Nat) : Nat → CFields → Nat
  | place, .nil => place
  | place, .cons _ width t rest => rest.finish p (memberStart false place width (t.align p) (t.size p) + memberBits width (t.size p))

/-- The greatest number of bits. -/
def CFields.widest (p : Nat) : CFields → Nat
  | .nil => 0
  | .cons _ width t rest => max (memberBits width (t.size p)) (rest.widest p)
end

/-- The target, if the type is a pointer, or a pointer with a qualifier or with another name. -/
def CSource.target : CSource → Option UInt32
  | .pointer w => some w
  | .renamed _ t => t.target
  | _ => none

/-- What a path leads to: an object of this type, `bits` bits from the start; `width` is that of a bitfield. -/
structure Placed where
  type : CSource
  bits : Nat
  width : Option Nat

def Placed.shift (x : Placed) (n : Nat) : Placed := { x with bits := n + x.bits }

mutual
/-- `offsetof`. -/
def CSource.offset (p : Nat) : CSource → List PathComponent → Option Placed
  | t, [] => some ⟨t, 0, none⟩
  | .array n t, .index i :: cs => if i < n then (t.offset p cs).map (·.shift (8 * (i * t.size p))) else none
  | .record isUnion _ ms, .name x :: cs => ms.offset p isUnion 0 x cs
  | .renamed _ t, c :: cs => t.offset p (c :: cs)
  | _, _ :: _ => none

/-- The same in the members that come behind `place`. The members of an unnamed member are members. -/
def CFields.offset (p : Nat) (isUnion : Bool) : Nat → CFields → Str → List PathComponent → Option Placed
  | _, .nil, _, _ => none
  | place, .cons name width t rest, x, cs =>
    if name = [] then
      match t.offset p (.name x :: cs) with
      | some y => some (y.shift (memberStart isUnion place width (t.align p) (t.size p)))
      | none => rest.offset p isUnion (memberStart isUnion place width (t.align p) (t.size p) + memberBits width (t.size p)) x cs
    else if name = x then
      match width with
      | none => (t.offset p cs).map (·.shift (memberStart isUnion place none (t.align p) (t.size p)))
      | some w => if cs = [] then some ⟨t, memberStart isUnion place (some w) (t.align p) (t.size p), some w⟩ else none
    else rest.offset p isUnion (memberStart isUnion place width (t.align p) (t.size p) + memberBits width (t.size p)) x cs
end

mutual
/-- All names that can be used in objects of the type. -/
def CSource.names : CSource → List Name
  | .record _ _ ms => ms.names
  | .renamed _ t => t.names
  | _ => []

def CFields.names : CFields → List Name
  | .nil => []
  | .cons name _ t rest => (if name = [] then t.names else [name]) ++ rest.names
end

def CFields.number : CFields → Nat
  | .nil => 0
  | .cons _ _ _ rest => rest.number + 1

def CFields.hasWidth : CFields → Bool
  | .nil => false
  | .cons _ width _ rest => width.isSome || rest.hasWidth

/-- A number, or another name for one: what a bitfield can be. -/
def CSource.isScalar : CSource → Bool
  | .scalar _ _ => true
  | .renamed _ t => t.isScalar
  | _ => false

mutual
/-- What C demands: no name is used twice, alignments are powers of two, and divide the sizes; a bitfield has a name, is a number, and
not wider than its type. Also: no type has 512 MiB, no struct with bitfields 2 MiB, no struct has `2^16` members, no tag or typedef is
called `list_head`, and names are ASCII. -/
def CSource.Legal (p : Nat) : CSource → Prop
  | .scalar s a => s < 2 ^ 29 ∧ (∃ k, a = 2 ^ k) ∧ a ∣ s
  | .pointer _ => p < 2 ^ 29 ∧ ∃ k, p = 2 ^ k
  | .array n t => t.Legal p ∧ n < 2 ^ 32 ∧ n * t.size p < 2 ^ 29
  | .record isUnion tag ms => ms.names.Nodup ∧ ms.Legal p ∧ ms.number < 2 ^ 16 ∧ (0 : UInt8) ∉ tag ∧ tag ≠ str "list_head" ∧
      roundUp (if isUnion then ms.widest p else ms.finish p 0) (8 * ms.align p) / 8 < (if ms.hasWidth then 2 ^ 21 else 2 ^ 29)
  | .renamed how t => t.Legal p ∧ ∀ name, how = .typedef name → (0 : UInt8) ∉ name ∧ name ≠ str "list_head"

def CFields.Legal (p : Nat) : CFields → Prop
  | .nil => True
  | .cons name width t rest => t.Legal p ∧ rest.Legal p ∧ (∀ b ∈ name, 0 < b.toNat ∧ b.toNat < 128) ∧
    ∀ w, width = some w → name ≠ [] ∧ t.isScalar = true ∧ 0 < w ∧ w < 256 ∧ w ≤ 8 * t.size p
end

mutual
/-- The type with the sizes and positions that the compiler has found, as it writes them to the file. -/
def CSource.compile (p : Nat) : CSource → CType
  | .scalar s _ => .scalar (UInt32.ofNat s)
  | .pointer w => .pointer w
  | .array n t => .array (UInt32.ofNat n) (t.compile p)
  | .record isUnion tag ms => .record isUnion tag
    (UInt32.ofNat (roundUp (if isUnion then ms.widest p else ms.finish p 0) (8 * ms.align p) / 8)) (ms.compile p isUnion 0)
  | .renamed how t => .renamed how (t.compile p)

def CFields.compile (p : Nat) (isUnion : Bool) : Nat → CFields → CMembers
  | _, .nil => .nil
  | place, .cons name width t rest => .cons name (memberStart isUnion place width (t.align p) (t.size p)) width (t.compile p)
      (rest.compile p isUnion (memberStart isUnion place width (t.align p) (t.size p) + memberBits width (t.size p)))
end

/-- The name by which the type can be asked for: that of a typedef, or the tag of a struct or union. -/
def CSource.label : CSource → Name
  | .renamed (.typedef name) _ => name
  | .record _ tag _ => tag
  | _ => []

mutual
/-- The type, and all types it is made of. -/
def CSource.parts : CSource → List CSource
  | .scalar s a => [.scalar s a]
  | .pointer w => [.pointer w]
  | .array n t => t.parts ++ [.array n t]
  | .record isUnion tag ms => ms.parts ++ [.record isUnion tag ms]
  | .renamed how t => t.parts ++ [.renamed how t]

def CFields.parts : CFields → List CSource
  | .nil => []
  | .cons _ _ t rest => t.parts ++ rest.parts
end

/-- The type without typedefs and qualifiers around it. -/
def CSource.core : CSource → CSource
  | .renamed _ t => t.core
  | t => t

mutual
/-- Does the type contain pointers? -/
def CSource.hasPointer : CSource → Bool
  | .scalar _ _ => false
  | .pointer _ => true
  | .array _ t => t.hasPointer
  | .record _ _ ms => ms.hasPointer
  | .renamed _ t => t.hasPointer

def CFields.hasPointer : CFields → Bool
  | .nil => false
  | .cons _ _ t rest => t.hasPointer || rest.hasPointer
end

/-- More members behind the others. -/
def CFields.append : CFields → CFields → CFields
  | .nil, more => more
  | .cons name width t rest, more => .cons name width t (rest.append more)

/-- What a header file declares. -/
def sourceParts (Ss : List CSource) : List CSource := Ss.flatMap CSource.parts

/-- A name stands for one type. -/
def OneSource (Ss : List CSource) : Prop :=
  ∀ S ∈ sourceParts Ss, ∀ S' ∈ sourceParts Ss, S.label = S'.label → S.label ≠ [] → S.core = S'.core

/-- The file for a header file with the types `Ss`, with any other declarations before and after. -/
def sourceProgram (p : Nat) (before : List Decl) (Ss : List CSource) (after : List Decl) : List Decl :=
  amongProgram p before (Ss.map (CSource.compile p)) after

end Btf.Spec

import Verif.Spec.Encode
import Verif.Spec.Offset
import Verif.Spec.Graph
import Verif.Spec.Path

/-!
# C types

C types as trees, with the positions that a compiler has chosen; what `sizeof` and `offsetof` give for them, and the
declarations a compiler writes for them. Nothing here refers to the types or functions of the crate, except for the components
of a path; only `Represents`, at the end, says when an id stands for a C type.
-/

namespace Btf.Spec

open Btf

inductive Renaming where
  | typedef (name : Name)
  | const
  | volatile
  | restrict

mutual
/-- A type. -/
inductive CType where
  /-- A number, of `size` bytes. -/
  | scalar (size : UInt32)
  /-- A pointer. `target` is the number of the type it points to, by which the compiler refers to it; it can be anything. -/
  | pointer (target : UInt32)
  | array (count : UInt32) (element : CType)
  /-- A struct or union; the tag can be empty. -/
  | record (isUnion : Bool) (tag : Name) (size : UInt32) (members : CMembers)
  /-- A typedef, or a type with a qualifier. -/
  | renamed (how : Renaming) (type : CType)

/-- Members: name (empty: none), position in bits, width in bits if it is a bitfield, and type. -/
inductive CMembers where
  | nil
  | cons (name : Name) (position : Nat) (width : Option Nat) (type : CType) (rest : CMembers)
end

/-- `sizeof`, where pointers have `p` bytes. -/
def CType.size (p : Nat) : CType → Nat
  | .scalar s => s.toNat
  | .pointer _ => p
  | .array n t => t.size p * n.toNat
  | .record _ _ s _ => s.toNat
  | .renamed _ t => t.size p

/-- The target, if the type is a pointer, or a pointer with a qualifier or with another name. -/
def CType.target : CType → Option UInt32
  | .pointer w => some w
  | .renamed _ t => t.target
  | _ => none

/-- What a path leads to: an object of this type, `bits` bits from the start; `width` is that of a bitfield. -/
structure Found where
  type : CType
  bits : Nat
  width : Option Nat

def Found.shift (x : Found) (n : Nat) : Found := { x with bits := n + x.bits }

mutual
/-- `offsetof`: where the path leads in an object of the type. -/
def CType.reach (p : Nat) : CType → List PathComponent → Option Found
  | t, [] => some ⟨t, 0, none⟩
  | .array n t, .index i :: cs => if i < n.toNat then (t.reach p cs).map (·.shift (8 * (i * t.size p))) else none
  | .record _ _ _ ms, .name x :: cs => ms.reach p x cs
  | .renamed _ t, c :: cs => t.reach p (c :: cs)
  | _, _ :: _ => none

/-- The members of an unnamed member are members. -/
def CMembers.reach (p : Nat) : CMembers → Str → List PathComponent → Option Found
  | .nil, _, _ => none
  | .cons name position width type rest, x, cs =>
    if name = [] then
      match type.reach p (.name x :: cs) with
      | some found => some (found.shift position)
      | none => rest.reach p x cs
    else if name = x then
      match width with
      | none => (type.reach p cs).map (·.shift position)
      | some w => if cs = [] then some ⟨type, position, some w⟩ else none
    else rest.reach p x cs
end

mutual
/-- All names that can be used in objects of the type. -/
def CType.names : CType → List Name
  | .record _ _ _ ms => ms.names
  | .renamed _ t => t.names
  | _ => []

def CMembers.names : CMembers → List Name
  | .nil => []
  | .cons name _ _ type rest => (if name = [] then type.names else [name]) ++ rest.names
end

/-- A number, or another name for one: what a bitfield can be. -/
def CType.isScalar : CType → Bool
  | .scalar _ => true
  | .renamed _ t => t.isScalar
  | _ => false

mutual
/-- What C demands: names are not used twice, members lie inside, those that are not bitfields begin at a byte, bitfields
are numbers, and have a name (which C does not demand). Types are smaller than 512 MiB. -/
def CType.Proper (p : Nat) : CType → Prop
  | .scalar s => s.toNat < 2 ^ 29
  | .pointer _ => p < 2 ^ 29
  | .array n t => t.Proper p ∧ t.size p * n.toNat < 2 ^ 29
  | .record _ _ s ms => ms.names.Nodup ∧ ms.Proper p s.toNat ∧ s.toNat < 2 ^ 29
  | .renamed _ t => t.Proper p

/-- Names are ASCII, without NUL. `size` is that of the struct or union. -/
def CMembers.Proper (p : Nat) (size : Nat) : CMembers → Prop
  | .nil => True
  | .cons name position width type rest => type.Proper p ∧ rest.Proper p size ∧
    (∀ b ∈ name, 0 < b.toNat ∧ b.toNat < 128) ∧
    match width with
    | none => 8 ∣ position ∧ position + 8 * type.size p ≤ 8 * size
    | some w => name ≠ [] ∧ type.isScalar = true ∧ 0 < w ∧ w < 256 ∧ position + w ≤ 8 * size
end

/-! ### Writing a type to a file -/

mutual
/-- The number of declarations. -/
def CType.count : CType → Nat
  | .array _ t => t.count + 1
  | .record _ _ _ ms => ms.count + 1
  | .renamed _ t => t.count + 1
  | _ => 1

def CMembers.count : CMembers → Nat
  | .nil => 0
  | .cons _ _ _ type rest => type.count + rest.count
end

def Renaming.decl : Renaming → UInt32 → Decl
  | .typedef name, t => .typedef name t
  | .const, t => .const t
  | .volatile, t => .volatile t
  | .restrict, t => .restrict t

/-- The members of the declaration, where the declarations for their types get the ids from `k + 1` on. -/
def CMembers.fields : Nat → CMembers → List MemberDecl
  | _, .nil => []
  | k, .cons name position width type rest =>
    ⟨name, UInt32.ofNat (k + type.count), position, width⟩ :: rest.fields (k + type.count)

mutual
/-- The declarations for a type, which get the ids from `k + 1` to `k + count`; the last one is that of the type itself. -/
def CType.declare : Nat → CType → List Decl
  | _, .scalar s => [.int [] s false false false 0 0]
  | _, .pointer w => [.ptr w]
  | k, .array n t => t.declare k ++ [.array (UInt32.ofNat (k + t.count)) 0 n]
  | k, .record isUnion tag s ms =>
    ms.declare k ++ [if isUnion then .union tag s (ms.fields k) else .struct tag s (ms.fields k)]
  | k, .renamed how t => t.declare k ++ [how.decl (UInt32.ofNat (k + t.count))]

def CMembers.declare : Nat → CMembers → List Decl
  | _, .nil => []
  | k, .cons _ _ _ type rest => type.declare k ++ rest.declare (k + type.count)
end

/-- `struct list_head`, which tells the crate that pointers have 8 bytes, and the declarations for the type. -/
def CType.program (t : CType) : List Decl := .struct (str "list_head") 16 [] :: t.declare 1

mutual
/-- What the format demands in addition: in a struct with bitfields all positions are below `2^24`, there are fewer than
`2^16` members, and names contain no NUL. The only `list_head` is that of `program`. -/
def CType.Recordable : CType → Prop
  | .array _ t => t.Recordable
  | .record _ tag _ ms => ms.Recordable ∧ (0 : UInt8) ∉ tag ∧ tag ≠ str "list_head" ∧ (ms.fields 0).length < 2 ^ 16 ∧
    (hasBitfield (ms.fields 0) = true → ∀ m ∈ ms.fields 0, m.position < 2 ^ 24)
  | .renamed how t => t.Recordable ∧ ∀ name, how = .typedef name → (0 : UInt8) ∉ name ∧ name ≠ str "list_head"
  | _ => True

def CMembers.Recordable : CMembers → Prop
  | .nil => True
  | .cons _ _ _ type rest => type.Recordable ∧ rest.Recordable
end

/-! ### Which id stands for which type -/

mutual
/-- The id `u` stands for the type. -/
def Represents (ti : TypeInformation) : UInt32 → CType → Prop
  | u, .scalar s => ∃ v, ti.fromId u = some v ∧ ownSize v = some s.toNat ∧ ∀ h d, v ≠ .struct h d ∧ v ≠ .union h d
  | u, .pointer w => ∃ h d, ti.fromId u = some (.ptr h d) ∧ d.tid = w
  | u, .array n t => ∃ h d, ti.fromId u = some (.array h d) ∧ d.elementCount = n ∧ Represents ti d.elementTid t
  | u, .record _ _ s ms => ∃ h d, (ti.fromId u = some (.struct h d) ∨ ti.fromId u = some (.union h d)) ∧ d.size = s.toNat ∧
      RepresentsMembers ti d.memberList ms
  | u, .renamed _ t => ∃ v w, ti.fromId u = some v ∧ aliasOf v = some w ∧ Represents ti w t

def RepresentsMembers (ti : TypeInformation) : List Member → CMembers → Prop
  | [], .nil => True
  | m :: l, .cons name position width type rest => m.name = nameStr name ∧ bitPos m.offset = position ∧
      (bitWidth m.offset).map UInt32.toNat = width ∧ Represents ti m.tid type ∧ RepresentsMembers ti l rest
  | _, _ => False
end

end Btf.Spec

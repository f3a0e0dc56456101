import Verif.Spec.Same
import Mathlib.Data.List.Forall2

/-!
# Writing a BTF file

Type declarations as a compiler has them, a simple writer for them, and what reading them back should give.
Names are byte strings; the empty one means that there is no name.
-/

namespace Btf.Spec

open Btf

abbrev Name := List UInt8

/-- A member of a struct or union: `position` is counted in bits; `width` is the width of a bitfield. -/
structure MemberDecl where
  name : Name
  tid : UInt32
  position : Nat
  width : Option Nat

inductive Decl where
  | int (name : Name) (size : UInt32) (signed char boolean : Bool) (offset bits : UInt8)
  | ptr (tid : UInt32)
  | array (element index count : UInt32)
  | struct (name : Name) (size : UInt32) (members : List MemberDecl)
  | union (name : Name) (size : UInt32) (members : List MemberDecl)
  | enum (name : Name) (size : UInt32) (signed : Bool) (values : List (Name × Int))
  | fwd (name : Name) (tid : UInt32)
  | typedef (name : Name) (tid : UInt32)
  | volatile (tid : UInt32)
  | const (tid : UInt32)
  | restrict (tid : UInt32)
  | func (name : Name) (prototype : UInt32)
  | funcProto (result : UInt32) (parameters : List (Name × UInt32))
  | var (name : Name) (tid linkage : UInt32)
  | dataSec (name : Name) (size : UInt32) (vars : List Variable)
  | float (name : Name) (size : UInt32)
  | declTag (name : Name) (tid index : UInt32)
  | typeTag (name : Name) (tid : UInt32)
  | enum64 (name : Name) (size : UInt32) (signed : Bool) (values : List (Name × Int))

/-! ### Which declarations can be written -/

/-- The value can be written in `n` bits. -/
def InRange (n : Nat) (signed : Bool) (v : Int) : Prop :=
  if signed then -2 ^ (n - 1) ≤ v ∧ v < 2 ^ (n - 1) else 0 ≤ v ∧ v < 2 ^ n

/-- Some member is a bitfield. -/
def hasBitfield (ms : List MemberDecl) : Bool := ms.any (fun m => m.width.isSome)

/-- Members that are not bitfields are at byte boundaries. In a struct with bitfields all positions are below
`2^24` and all widths from 1 to 255. -/
def GoodMember (bitfields : Bool) (m : MemberDecl) : Prop :=
  (0 : UInt8) ∉ m.name ∧
  match m.width with
  | none => 8 ∣ m.position ∧ m.position < if bitfields then 2 ^ 24 else 2 ^ 32
  | some w => m.position < 2 ^ 24 ∧ 0 < w ∧ w < 256

/-- Names contain no NUL, lists have fewer than `2^16` elements, numbers fit. -/
def Good : Decl → Prop
  | .int name .. | .fwd name _ | .typedef name _ | .func name _ | .var name .. | .float name _ | .declTag name ..
  | .typeTag name _ => (0 : UInt8) ∉ name
  | .ptr _ | .array .. | .volatile _ | .const _ | .restrict _ => True
  | .struct name _ ms | .union name _ ms =>
    (0 : UInt8) ∉ name ∧ ms.length < 2 ^ 16 ∧ ∀ m ∈ ms, GoodMember (hasBitfield ms) m
  | .enum name _ signed vs =>
    (0 : UInt8) ∉ name ∧ vs.length < 2 ^ 16 ∧ ∀ v ∈ vs, (0 : UInt8) ∉ v.1 ∧ InRange 32 signed v.2
  | .enum64 name _ signed vs =>
    (0 : UInt8) ∉ name ∧ vs.length < 2 ^ 16 ∧ ∀ v ∈ vs, (0 : UInt8) ∉ v.1 ∧ InRange 64 signed v.2
  | .funcProto _ ps => ps.length < 2 ^ 16 ∧ ∀ p ∈ ps, (0 : UInt8) ∉ p.1
  | .dataSec name _ vs => (0 : UInt8) ∉ name ∧ vs.length < 2 ^ 16

/-! ### The writer -/

/-- All names of a declaration. -/
def namesOf : Decl → List Name
  | .int name .. | .fwd name _ | .typedef name _ | .func name _ | .var name .. | .float name _ | .declTag name ..
  | .typeTag name _ | .dataSec name .. => [name]
  | .ptr _ | .array .. | .volatile _ | .const _ | .restrict _ => []
  | .struct name _ ms | .union name _ ms => name :: ms.map MemberDecl.name
  | .enum name _ _ vs | .enum64 name _ _ vs => name :: vs.map Prod.fst
  | .funcProto _ ps => ps.map Prod.fst

/-- A string table: the empty string, then all names, each followed by a NUL. -/
def stringTable (ds : List Decl) : List UInt8 := 0 :: (ds.flatMap namesOf).flatMap (· ++ [0])

/-- The first place of the table where the name and a NUL are found. -/
def nameOffset (table : List UInt8) (name : Name) : UInt32 :=
  UInt32.ofNat ((List.range table.length).findIdx (fun i => (name ++ [0]).isPrefixOf (table.drop i)))

def b2n (b : Bool) : Nat := if b then 1 else 0

/-- The three words all records start with. -/
def headWords (kind : Kind) (name : UInt32) (vlen : Nat) (kindFlag : Bool) (sizeOrType : UInt32) : List UInt32 :=
  [name, UInt32.ofNat (b2n kindFlag * 2 ^ 31 + kindCode kind * 2 ^ 24 + vlen), sizeOrType]

/-- The low `32` bits of `v / 2^shift`. -/
def lowWord (v : Int) (shift : Nat) : UInt32 := UInt32.ofNat (v / 2 ^ shift % 2 ^ 32).toNat

/-- The words of a record; `off` gives the places of names. -/
def words (off : Name → UInt32) : Decl → List UInt32
  | .int name size signed char boolean offset bits => headWords .Int (off name) 0 false size ++
      [UInt32.ofNat (b2n boolean * 2 ^ 26 + b2n char * 2 ^ 25 + b2n signed * 2 ^ 24 + offset.toNat * 2 ^ 16 + bits.toNat)]
  | .ptr tid => headWords .Ptr 0 0 false tid
  | .array element index count => headWords .Array 0 0 false 0 ++ [element, index, count]
  | .struct name size ms => headWords .Struct (off name) ms.length (hasBitfield ms) size ++ ms.flatMap memberWords
  | .union name size ms => headWords .Union (off name) ms.length (hasBitfield ms) size ++ ms.flatMap memberWords
  | .enum name size signed vs => headWords .Enum (off name) vs.length signed size ++
      vs.flatMap fun v => [off v.1, lowWord v.2 0]
  | .fwd name tid => headWords .Fwd (off name) 0 false tid
  | .typedef name tid => headWords .Typedef (off name) 0 false tid
  | .volatile tid => headWords .Volatile 0 0 false tid
  | .const tid => headWords .Const 0 0 false tid
  | .restrict tid => headWords .Restrict 0 0 false tid
  | .func name prototype => headWords .Func (off name) 0 false prototype
  | .funcProto result ps => headWords .FuncProto 0 ps.length false result ++ ps.flatMap fun p => [off p.1, p.2]
  | .var name tid linkage => headWords .Var (off name) 0 false tid ++ [linkage]
  | .dataSec name size vs => headWords .DataSec (off name) vs.length false size ++
      vs.flatMap fun v => [v.varDeclId, v.offset, v.varSize]
  | .float name size => headWords .Float (off name) 0 false size
  | .declTag name tid index => headWords .DeclTag (off name) 0 false tid ++ [index]
  | .typeTag name tid => headWords .TypeTag (off name) 0 false tid
  | .enum64 name size signed vs => headWords .Enum64 (off name) vs.length signed size ++
      vs.flatMap fun v => [off v.1, lowWord v.2 0, lowWord v.2 32]
where
  memberWords (m : MemberDecl) : List UInt32 :=
    [off m.name, m.tid, UInt32.ofNat (m.position + 2 ^ 24 * m.width.getD 0)]

/-- The words of all records. -/
def typeWords (ds : List Decl) : List UInt32 := ds.flatMap (words (nameOffset (stringTable ds)))

/-- The file, in byte order `e`. -/
def encode (e : Endianness) (ds : List Decl) : List UInt8 := fileOf e 1 0 (typeWords ds) (stringTable ds)

/-! ### What reading should give -/

/-- The name as reported by the crate. -/
def nameStr (name : Name) : Option Str := if name = [] then none else some (latin1 name)

def SaysMember (md : MemberDecl) (m : Member) : Prop :=
  m.name = nameStr md.name ∧ m.tid = md.tid ∧ bitPos m.offset = md.position ∧
    (bitWidth m.offset).map UInt32.toNat = md.width

/-- The value of a 32-bit enumerator. -/
def value32 : Integer32Value → Int
  | .signed x => x.toInt
  | .unsigned x => x.toNat

/-- The value of a 64-bit enumerator. -/
def value64 : Integer64Value → Int
  | .signed x => x.toInt
  | .unsigned x => x.toNat

/-- The type `v` says what the declaration says. -/
def Says : Decl → TypeVariant → Prop
  | .int name size signed char boolean offset bits, .int _ d =>
    d = ⟨nameStr name, size.toNat, signed, char, boolean, offset.toNat, bits.toNat⟩
  | .ptr tid, .ptr _ d => d = ⟨tid⟩
  | .array element index count, .array _ d => d = ⟨element, index, count⟩
  | .struct name size ms, .struct _ d => d.name = nameStr name ∧ d.size = size.toNat ∧ List.Forall₂ SaysMember ms d.memberList
  | .union name size ms, .union _ d => d.name = nameStr name ∧ d.size = size.toNat ∧ List.Forall₂ SaysMember ms d.memberList
  | .enum name size signed vs, .enum _ d => d.name = nameStr name ∧ d.size = size.toNat ∧ d.signed = signed ∧
      List.Forall₂ (fun v x => x.name = latin1 v.1 ∧ value32 x.value = v.2) vs d.namedValueList
  | .fwd name tid, .fwd _ d => d = ⟨nameStr name, tid⟩
  | .typedef name tid, .typedef _ d => d = ⟨nameStr name, tid⟩
  | .volatile tid, .volatile _ d => d = ⟨tid⟩
  | .const tid, .const _ d => d = ⟨tid⟩
  | .restrict tid, .restrict _ d => d = ⟨tid⟩
  | .func name prototype, .func _ d => d = ⟨nameStr name, prototype⟩
  | .funcProto result ps, .funcProto _ d => d.returnTid = result ∧
      List.Forall₂ (fun p x => x.name = nameStr p.1 ∧ x.tid = p.2) ps d.parameterList
  | .var name tid linkage, .var _ d => d = ⟨nameStr name, tid, linkage, if linkage = 0 then .static else .global⟩
  | .dataSec name size vs, .dataSec _ d => d = ⟨nameStr name, size.toNat, vs⟩
  | .float name size, .float _ d => d = ⟨nameStr name, size.toNat⟩
  | .declTag name tid index, .declTag _ d => d = ⟨nameStr name, tid, index⟩
  | .typeTag name tid, .typeTag _ d => d = ⟨nameStr name, tid⟩
  | .enum64 name size signed vs, .enum64 _ d => d.name = nameStr name ∧ d.size = size.toNat ∧ d.signed = signed ∧
      List.Forall₂ (fun v x => x.name = latin1 v.1 ∧ value64 x.value = v.2) vs d.namedValueList
  | _, _ => False

/-- The name of the declared type. -/
def declName : Decl → Name
  | .int name .. | .fwd name _ | .typedef name _ | .func name _ | .var name .. | .float name _ | .declTag name ..
  | .typeTag name _ | .dataSec name .. | .struct name .. | .union name .. | .enum name .. | .enum64 name .. => name
  | .ptr _ | .array .. | .volatile _ | .const _ | .restrict _ | .funcProto .. => []

/-- A 64-bit enumeration. -/
def Decl.isEnum64 : Decl → Bool
  | .enum64 .. => true
  | _ => false

end Btf.Spec

import Verif.Spec.Access
import Verif.Spec.Path
import Verif.Model.Message

/-!
# What the reasons given for errors mean
-/

namespace Btf.Spec

open Btf

/-- An object: its type, the bit at which it starts, and its width if it is a bitfield. -/
structure Place where
  type : UInt32
  bits : Nat
  width : Option UInt32

/-- `cs` leads from one object to another by elements of arrays and by the first members with the names, without
looking into unnamed members. Nothing is inside a bitfield. -/
inductive Walk (cfg : Cfg) (ti : TypeInformation) : Place → List PathComponent → Place → Prop where
  | here {p} : Walk cfg ti p [] p
  | element {t b hd d i n cs q} : Resolves ti t (.array hd d) → i < d.elementCount.toNat →
      Returns (fun k => TypeInformation.sizeOf cfg ti k d.elementTid) (.ok n) →
      Walk cfg ti ⟨d.elementTid, b + 8 * (i * n), none⟩ cs q → Walk cfg ti ⟨t, b, none⟩ (.index i :: cs) q
  | member {t b v pre m post name cs q} : Resolves ti t v → membersOf v = some (pre ++ m :: post) → m.name = some name →
      (∀ a ∈ pre, a.name ≠ some name) → Walk cfg ti ⟨m.tid, b + bitPos m.offset, bitWidth m.offset⟩ cs q →
      Walk cfg ti ⟨t, b, none⟩ (.name name :: cs) q

/-- Why the offset of `a` bits and the offset of `b` bits cannot be added; the widths are those of bitfields. -/
inductive AddReason : (a : Nat) → (width : Option UInt32) → (b : Nat) → (width' : Option UInt32) → Reason → Prop where
  /-- The number of bytes does not fit in 32 bits. -/
  | bytes {a b} : 8 * 2 ^ 32 ≤ a + b → AddReason a none b none .byteOffsetOverflow
  /-- The left offset alone, in bits, does not fit in 32 bits. -/
  | left {a b w} : 2 ^ 32 ≤ a → AddReason a none b (some w) .bitOffsetMultiplication
  /-- The sum, in bits, does not fit in 32 bits. -/
  | sum {a b w} : a < 2 ^ 32 → 2 ^ 32 ≤ a + b → AddReason a none b (some w) .bitOffsetAddition
  | bitfield {a w b w'} : AddReason a (some w) b w' .bitfield

/-- Why the size of `t` is not known. -/
inductive SizeReason (ti : TypeInformation) (t : UInt32) : Reason → Prop where
  | missing {a} : Chain ti sizeRef t a → ti.fromId a = none → SizeReason ti t .invalidTypeId
  | unsized {a v} : Chain ti sizeRef t a → ti.fromId a = some v → Unsized v → SizeReason ti t (.notSized v)
  | noListHead {a v} : Chain ti sizeRef t a → ti.fromId a = some v → IsPtr v → ti.idOf (str "list_head") = none →
      SizeReason ti t .listHeadNotFound
  | danglingListHead {a v l} : Chain ti sizeRef t a → ti.fromId a = some v → IsPtr v →
      ti.idOf (str "list_head") = some l → ti.fromId l = none → SizeReason ti t .listHeadInvalid
  | otherListHead {a v l w} : Chain ti sizeRef t a → ti.fromId a = some v → IsPtr v →
      ti.idOf (str "list_head") = some l → ti.fromId l = some w → (∀ hd d, w ≠ .struct hd d) →
      SizeReason ti t .listHeadNotStruct

/-- Why there is no pointee. -/
inductive PointeeReason (ti : TypeInformation) (t : UInt32) : Reason → Prop where
  | missing {a} : Chain ti aliasOf t a → ti.fromId a = none → PointeeReason ti t .invalidTypeId
  | other {a v} : Chain ti aliasOf t a → ti.fromId a = some v → aliasOf v = none → ¬ IsPtr v → PointeeReason ti t .notAPointer

/-- Why component `c` cannot be applied to the object at `p`. -/
inductive Explains (cfg : Cfg) (ti : TypeInformation) (p : Place) : PathComponent → Reason → Prop where
  | missing {a c} : Chain ti accessAlias p.type a → ti.fromId a = none → Explains cfg ti p c .invalidTypeId
  | void {c} : Resolves ti p.type .void → Explains cfg ti p c .voidDereference
  | bounds {hd d i} : Resolves ti p.type (.array hd d) → d.elementCount.toNat ≤ i →
      Explains cfg ti p (.index i) (.indexOutOfBounds i d.elementCount)
  | elementSize {hd d i r} : Resolves ti p.type (.array hd d) → i < d.elementCount.toNat → SizeReason ti d.elementTid r →
      Explains cfg ti p (.index i) r
  | elementOffset {hd d i n} : Resolves ti p.type (.array hd d) → i < d.elementCount.toNat →
      Returns (fun k => TypeInformation.sizeOf cfg ti k d.elementTid) (.ok n) → 2 ^ 32 ≤ i * n →
      Explains cfg ti p (.index i) .arrayOffsetOverflow
  | pointer {hd d i} : Resolves ti p.type (.ptr hd d) → Explains cfg ti p (.index i) .ptrNotIndexable
  | notArray {v i} : Resolves ti p.type v → v ≠ .void → (∀ hd d, v ≠ .array hd d) → ¬ IsPtr v →
      Explains cfg ti p (.index i) .typeNotIndexable
  | noMembers {v name} : Resolves ti p.type v → v ≠ .void → membersOf v = none → Explains cfg ti p (.name name) .notStructOrUnion
  | noMember {v ms name} : Resolves ti p.type v → membersOf v = some ms → (∀ m ∈ ms, m.name ≠ some name) →
      Explains cfg ti p (.name name) (.memberNotFound name)
  | elementPlace {hd d i n r} : Resolves ti p.type (.array hd d) → i < d.elementCount.toNat →
      Returns (fun k => TypeInformation.sizeOf cfg ti k d.elementTid) (.ok n) → i * n < 2 ^ 32 →
      AddReason p.bits p.width (8 * (i * n)) none r → Explains cfg ti p (.index i) r
  | memberPlace {v pre m post name r} : Resolves ti p.type v → membersOf v = some (pre ++ m :: post) →
      m.name = some name → (∀ a ∈ pre, a.name ≠ some name) →
      AddReason p.bits p.width (bitPos m.offset) (bitWidth m.offset) r → Explains cfg ti p (.name name) r
  /-- The offset of any unnamed member is added, from the left, before it is looked into. -/
  | unnamedPlace {v ms m name r} : Resolves ti p.type v → membersOf v = some ms → m ∈ ms → m.name = none →
      AddReason (bitPos m.offset) (bitWidth m.offset) p.bits p.width r → Explains cfg ti p (.name name) r

/-- The texts. `debug` is how types are printed. -/
inductive Text (debug : TypeVariant → String) : Reason → String → Prop where
  | invalidCharacter {i : Nat} : Text debug (.invalidCharacter i) s!"Invalid character at index {i}"
  | unclosedIndex : Text debug .unclosedIndex "Unclosed index bracket"
  | emptyIndex : Text debug .emptyIndex "Empty index"
  | tooLarge : Text debug (.invalidIndexValue true) "Invalid index value: ParseIntError { kind: PosOverflow }"
  | invalidTypeId : Text debug .invalidTypeId "Invalid type id"
  | voidDereference : Text debug .voidDereference "The void type can't be dereferenced with a path"
  | indexOutOfBounds {i : Nat} {n : UInt32} :
      Text debug (.indexOutOfBounds i n) s!"Index {i} is out of bounds for array of size {n.toNat}"
  | arrayOffsetOverflow : Text debug .arrayOffsetOverflow "Array element offset overflow"
  | ptrNotIndexable : Text debug .ptrNotIndexable "Type is a ptr, and dereferencing it would require a read operation"
  | typeNotIndexable : Text debug .typeNotIndexable "Type is not indexable"
  | notStructOrUnion : Text debug .notStructOrUnion "Type is not a struct or union"
  | memberNotFound {name : String} : Text debug (.memberNotFound (str name)) s!"Member '{name}' not found"
  | byteOffsetOverflow : Text debug .byteOffsetOverflow "Byte offset addition overflow"
  | bitOffsetMultiplication : Text debug .bitOffsetMultiplication "Bit offset multiplication overflow"
  | bitOffsetAddition : Text debug .bitOffsetAddition "Bit offset addition overflow"
  | bitfield : Text debug .bitfield "Attempted to add a byte offset to a bitfield"
  | notAPointer : Text debug .notAPointer "Type is not a pointer"
  | listHeadNotFound :
      Text debug .listHeadNotFound "The `struct list_head` type, used to extract the pointer size, was not found"
  | listHeadInvalid : Text debug .listHeadInvalid
      "The extracted `struct list_head` type ID, used to extract the pointer size, was invalid"
  | listHeadNotStruct : Text debug .listHeadNotStruct
      "The extracted `struct list_head` type ID, used to extract the pointer size, is not a struct type"
  | notSized {v : TypeVariant} : Text debug (.notSized v) s!"Type {debug v} has no size"

/-- What the reasons say about the text of a path that is not accepted. `limit` is the number of values of `usize`. -/
inductive PathReason (limit : Nat) (s : Str) : Reason → Prop where
  /-- The byte at index `i` is the first that is wrong: what precedes it can be completed to a path (perhaps with an
  index that does not fit), and that byte cannot follow. -/
  | character {i} : i < s.length → (∃ limit' more cs, Path limit' (s.take i ++ more) cs) →
      (∀ more cs, ¬ AcceptedPath limit (s.take (i + 1) ++ more) cs) → PathReason limit s (.invalidCharacter i)
  | unclosed {p ds cs} : s = p ++ [91] ++ ds → Path limit p cs → (∀ d ∈ ds, Digit d) → PathReason limit s .unclosedIndex
  | empty {p rest cs} : s = p ++ [91, 93] ++ rest → Path limit p cs → PathReason limit s .emptyIndex
  | tooLarge {p ds rest cs} : s = p ++ [91] ++ ds ++ [93] ++ rest → Path limit p cs → (∀ d ∈ ds, Digit d) →
      limit ≤ decimal ds → PathReason limit s (.invalidIndexValue true)

/-- `cs` are the first components of the text `s`. -/
def Begins (limit : Nat) (s : Str) (cs : List PathComponent) : Prop :=
  ∃ p rest, s = p ++ rest ∧ Path limit p cs ∧ ∀ n, cs.getLast? = some (.name n) → ∀ b, rest.head? = some b → ¬ NameChar b

end Btf.Spec

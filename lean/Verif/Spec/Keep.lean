import Verif.Spec.Format
import Verif.Model.TypeInfo

/-!
# What a reported type says about the words of its record

For every word of the record of a type: the bit fields that can be read off the reported type. The bits that are in no
field are lost: bits 16-23 and 29-30 of the second word, bits 8-15 and 27-31 of the word of an integer, and where the
name of an enumerator is (but the name is kept).
-/

namespace Btf.Spec

open Btf

/-- `width` bits of a word, from bit `low` on, contain the number `value`. -/
structure BitField where
  low : Nat
  width : Nat
  value : Nat
  deriving DecidableEq

/-- What is known about a word: some bit fields and, if the word says where a string is, the string. -/
structure Cell where
  fields : List BitField
  string : Option Str := none
  deriving DecidableEq

/-- The word is as the fields say. -/
def Matches (c : Cell) (w : UInt32) : Prop := ∀ x ∈ c.fields, w.toNat / 2 ^ x.low % 2 ^ x.width = x.value

instance (c : Cell) (w : UInt32) : Decidable (Matches c w) := by unfold Matches; infer_instance

/-- The word at `pos` of the file is as the fields say, and leads to the string. -/
def CellAt (f : List UInt8) (e : Endianness) (fh : FileHeader) (pos : Nat) (c : Cell) : Prop :=
  ∃ w, Word f e pos w ∧ Matches c w ∧ ∀ s, c.string = some s → StringAt f fh w s

/-- The bit is in one of the fields. -/
def Kept (c : Cell) (bit : Nat) : Prop := ∃ x ∈ c.fields, x.low ≤ bit ∧ bit < x.low + x.width

instance (c : Cell) (bit : Nat) : Decidable (Kept c bit) := by unfold Kept; infer_instance

/-- All of the word is known. -/
def whole (v : Nat) : Cell := ⟨[⟨0, 32, v⟩], none⟩

/-- All of the word is known, and the string it leads to, if any. -/
def nameCell (off : UInt32) (s : Option Str) : Cell := ⟨[⟨0, 32, off.toNat⟩], s⟩

/-- A single bit. -/
def flag (low : Nat) (b : Bool) : BitField := ⟨low, 1, if b then 1 else 0⟩

/-- The three words of the header of a record. -/
def headCells (h : Header) (name : Option Str) : List Cell :=
  [nameCell h.nameOffset name, ⟨[⟨0, 16, h.vlen⟩, ⟨24, 5, kindCode h.kind⟩, flag 31 h.kindFlag], none⟩, whole h.sizeOrType.toNat]

/-- The word of an integer. -/
def intCell (d : IntData) : Cell :=
  ⟨[⟨0, 8, d.bits⟩, ⟨16, 8, d.offset⟩, flag 24 d.signed, flag 25 d.char, flag 26 d.boolean], none⟩

/-- The three words of a member of a struct or union with kind flag `kf`. -/
def memberCells (kf : Bool) (m : Member) : List Cell :=
  [nameCell m.nameOffset m.name, whole m.tid.toNat,
    if kf then ⟨[⟨0, 24, bitPos m.offset⟩, ⟨24, 8, match bitWidth m.offset with | none => 0 | some w => w.toNat⟩], none⟩
    else whole (bitPos m.offset)]

/-- The number with the same bits as a 32-bit value. -/
def bits32 : Integer32Value → Nat
  | .signed x => (x.toInt % 2 ^ 32).toNat
  | .unsigned x => x.toNat

/-- The number with the same bits as a 64-bit value. -/
def bits64 : Integer64Value → Nat
  | .signed x => (x.toInt % 2 ^ 64).toNat
  | .unsigned x => x.toNat

/-- The words of an enumerator: the first one says where the name is. -/
def valueCells (x : NamedValue32) : List Cell := [⟨[], some x.name⟩, whole (bits32 x.value)]

/-- The words of a 64-bit enumerator: the crate takes the last two words for one integer in the byte order of the file. -/
def wideCells (e : Endianness) (x : NamedValue64) : List Cell :=
  match e with
  | .little => [⟨[], some x.name⟩, whole (bits64 x.value % 2 ^ 32), whole (bits64 x.value / 2 ^ 32)]
  | .big => [⟨[], some x.name⟩, whole (bits64 x.value / 2 ^ 32), whole (bits64 x.value % 2 ^ 32)]

/-- The words after the header. -/
def bodyCells (e : Endianness) : TypeVariant → List Cell
  | .int _ d => [intCell d]
  | .array _ d => [whole d.elementTid.toNat, whole d.indexTid.toNat, whole d.elementCount.toNat]
  | .struct h d | .union h d => d.memberList.flatMap (memberCells h.kindFlag)
  | .enum _ d => d.namedValueList.flatMap valueCells
  | .enum64 _ d => d.namedValueList.flatMap (wideCells e)
  | .funcProto _ d => d.parameterList.flatMap fun x => [nameCell x.nameOffset x.name, whole x.tid.toNat]
  | .var _ d => [whole d.linkage.toNat]
  | .dataSec _ d => d.variableList.flatMap fun x => [whole x.varDeclId.toNat, whole x.offset.toNat, whole x.varSize.toNat]
  | .declTag _ d => [whole d.componentIndex.toNat]
  | _ => []

/-- The header and the name that are reported with a type. -/
def reportedHeader : TypeVariant → Option (Header × Option Str)
  | .void => none
  | .int h d => some (h, d.name)
  | .typedef h d | .fwd h d | .typeTag h d => some (h, d.name)
  | .struct h d | .union h d => some (h, d.name)
  | .enum h d => some (h, d.name)
  | .enum64 h d => some (h, d.name)
  | .func h d => some (h, d.name)
  | .float h d => some (h, d.name)
  | .var h d => some (h, d.name)
  | .dataSec h d => some (h, d.name)
  | .declTag h d => some (h, d.name)
  | .ptr h _ | .const h _ | .volatile h _ | .restrict h _ => some (h, none)
  | .array h _ => some (h, none)
  | .funcProto h _ => some (h, none)

/-- All words of the record of a type. -/
def cells (e : Endianness) (v : TypeVariant) : List Cell :=
  match reportedHeader v with
  | none => []
  | some (h, name) => headCells h name ++ bodyCells e v

/-- What the reported types, in the order of their ids, say about the words of the type section. -/
def reportedCells (e : Endianness) (ti : TypeInformation) : List Cell := ti.get.flatMap fun x => cells e x.2

end Btf.Spec

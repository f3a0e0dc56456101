import Verif.Spec.Keep

/-!
# Where strings are stored

The string section of a file may hold its strings in any order, share them (or their ends), or hold more of them. A type
says where its name is by an offset into the section, and the offset is reported. `forgetOffsets` erases these offsets, and
nothing else, from a type. `slots` says what the words of the record of a type have to be, if the offsets are not known.
-/

namespace Btf.Spec

open Btf

def forgetHeader (h : Header) : Header := { h with nameOffset := 0 }

def forgetMember (m : Member) : Member := { m with nameOffset := 0 }

def forgetParameter (x : Parameter) : Parameter := { x with nameOffset := 0 }

def forgetStruct (d : StructData) : StructData := { d with memberList := d.memberList.map forgetMember }

/-- The type without the offsets of its strings: in the header, in members and in parameters. -/
def forgetOffsets : TypeVariant → TypeVariant
  | .void => .void
  | .int h d => .int (forgetHeader h) d
  | .typedef h d => .typedef (forgetHeader h) d
  | .enum h d => .enum (forgetHeader h) d
  | .ptr h d => .ptr (forgetHeader h) d
  | .const h d => .const (forgetHeader h) d
  | .volatile h d => .volatile (forgetHeader h) d
  | .array h d => .array (forgetHeader h) d
  | .funcProto h d => .funcProto (forgetHeader h) { d with parameterList := d.parameterList.map forgetParameter }
  | .struct h d => .struct (forgetHeader h) (forgetStruct d)
  | .union h d => .union (forgetHeader h) (forgetStruct d)
  | .fwd h d => .fwd (forgetHeader h) d
  | .var h d => .var (forgetHeader h) d
  | .enum64 h d => .enum64 (forgetHeader h) d
  | .func h d => .func (forgetHeader h) d
  | .float h d => .float (forgetHeader h) d
  | .restrict h d => .restrict (forgetHeader h) d
  | .dataSec h d => .dataSec (forgetHeader h) d
  | .typeTag h d => .typeTag (forgetHeader h) d
  | .declTag h d => .declTag (forgetHeader h) d

/-- The two results are the same but for the offsets of strings. -/
def SameButOffsets (ti ti' : TypeInformation) : Prop :=
  ti'.get.map (fun x => (x.1, forgetOffsets x.2)) = ti.get.map (fun x => (x.1, forgetOffsets x.2))

instance (ti ti' : TypeInformation) : Decidable (SameButOffsets ti ti') := by unfold SameButOffsets; infer_instance

/-- What a word of a record has to be, if it is not known where the strings are. -/
inductive Slot where
  /-- A word without a string, or the name of an enumerator. -/
  | cell (c : Cell)
  /-- The word leads to this name, or is 0 if there is none. -/
  | leads (name : Option Str)
  /-- Any word: the offset of the name of a type whose name is not read. -/
  | any
  deriving DecidableEq

def SlotAt (f : List UInt8) (e : Endianness) (fh : FileHeader) (pos : Nat) : Slot → Prop
  | .cell c => CellAt f e fh pos c
  | .leads name => ∃ w, Word f e pos w ∧ NameAt f fh w name
  | .any => ∃ w, Word f e pos w

/-- The first word of a record. -/
def nameSlot : TypeVariant → Slot
  | .ptr _ _ | .const _ _ | .volatile _ _ | .restrict _ _ | .array _ _ | .funcProto _ _ => .any
  | v => .leads (match reportedHeader v with | none => none | some (_, name) => name)

/-- The words after the header: as in `bodyCells`, but for the names of members and parameters. -/
def bodySlots (e : Endianness) : TypeVariant → List Slot
  | .struct h d | .union h d =>
    d.memberList.flatMap fun m => .leads m.name :: ((memberCells h.kindFlag m).tail.map .cell)
  | .funcProto _ d => d.parameterList.flatMap fun x => [.leads x.name, .cell (whole x.tid.toNat)]
  | v => (bodyCells e v).map .cell

/-- All words of the record of a type. -/
def slots (e : Endianness) (v : TypeVariant) : List Slot :=
  match reportedHeader v with
  | none => []
  | some (h, name) => nameSlot v :: ((headCells h name).tail.map .cell) ++ bodySlots e v

/-- What the reported types, in the order of their ids, say about the words of the type section. -/
def reportedSlots (e : Endianness) (ti : TypeInformation) : List Slot := ti.get.flatMap fun x => slots e x.2

end Btf.Spec

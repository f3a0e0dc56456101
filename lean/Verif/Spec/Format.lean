import Verif.Model.Types
import Verif.Spec.Offset

/-!
# The BTF file format

What the bytes of a file mean, as documented in `Documentation/bpf/btf.rst` of Linux. Only the *types* of
the data (`FileHeader`, `Header`, `TypeVariant`, …) are shared with the model; the parser is not
mentioned. A file is a list of bytes.

The crate differs from the documented format in three places, collected in `Dialect`:

* the values of 64-bit enumerators, documented as a low and a high word, are read by the crate as one
  8-byte integer in the byte order of the file (this differs for big-endian files);
* the body of an array (12 bytes), documented as part of the type section, is read by the crate without
  checking that it is inside; instead the crate demands `12·vlen` bytes, `vlen` being unused for arrays;
* as a consequence the last record may end after the section.
-/

namespace Btf.Spec

open Btf

inductive Dialect where
  /-- As documented. -/
  | documented
  /-- As read by the crate. -/
  | crate
  deriving DecidableEq

/-- The unsigned integer stored in the bytes `bs` in byte order `e`. -/
def intOf (e : Endianness) (bs : List UInt8) : Nat :=
  match e with
  | .little => bs.foldr (fun b acc => b.toNat + 256 * acc) 0
  | .big => bs.foldl (fun acc b => 256 * acc + b.toNat) 0

/-- The `n` bytes of the file at `pos` are there and contain the integer `v`. -/
def IntAt (f : List UInt8) (e : Endianness) (n pos v : Nat) : Prop :=
  pos + n ≤ f.length ∧ v = intOf e ((f.drop pos).take n)

/-- A 32-bit word. -/
def Word (f : List UInt8) (e : Endianness) (pos : Nat) (w : UInt32) : Prop := IntAt f e 4 pos w.toNat

instance (f : List UInt8) (e : Endianness) (n pos v : Nat) : Decidable (IntAt f e n pos v) := by
  unfold IntAt; infer_instance
instance (f : List UInt8) (e : Endianness) (pos : Nat) (w : UInt32) : Decidable (Word f e pos w) := by
  unfold Word; infer_instance

/-! ### The file header -/

/-- The first two bytes. -/
def magic : Endianness → List UInt8
  | .little => [0x9F, 0xEB]
  | .big => [0xEB, 0x9F]

/-- The first 24 bytes of the file are a BTF header in byte order `e` with contents `fh`. -/
structure Preamble (f : List UInt8) (e : Endianness) (fh : FileHeader) : Prop where
  magic : f.take 2 = magic e
  version : f[2]? = some fh.version
  flags : f[3]? = some fh.flags
  hdrLen : Word f e 4 fh.hdrLen
  typeOff : Word f e 8 fh.typeOff
  typeLen : Word f e 12 fh.typeLen
  strOff : Word f e 16 fh.strOff
  strLen : Word f e 20 fh.strLen

/-- Where the sections start and end. -/
def typeStart (fh : FileHeader) : Nat := fh.hdrLen.toNat + fh.typeOff.toNat
def typeEnd (fh : FileHeader) : Nat := typeStart fh + fh.typeLen.toNat
def strStart (fh : FileHeader) : Nat := fh.hdrLen.toNat + fh.strOff.toNat
def strEnd (fh : FileHeader) : Nat := strStart fh + fh.strLen.toNat

/-! ### Strings -/

/-- Bytes taken as Unicode code points, as a string (in UTF-8). -/
def latin1 (bs : List UInt8) : Str := str (String.ofList (bs.map (fun b => Char.ofNat b.toNat)))

/-- The string at offset `off` of the string section: the bytes up to the first NUL, which must be inside
the section. -/
def StringAt (f : List UInt8) (fh : FileHeader) (off : UInt32) (s : Str) : Prop :=
  strEnd fh < 2 ^ 32 ∧ ∃ bs : List UInt8,
    strStart fh + off.toNat + bs.length < strEnd fh ∧ (0 : UInt8) ∉ bs ∧
    (f.drop (strStart fh + off.toNat)).take (bs.length + 1) = bs ++ [0] ∧ s = latin1 bs

/-- An optional name: offset 0 means that there is none. -/
def NameAt (f : List UInt8) (fh : FileHeader) (off : UInt32) (name : Option Str) : Prop :=
  match name with
  | none => off = 0
  | some s => off ≠ 0 ∧ StringAt f fh off s

/-! ### Records -/

/-- The numbers of the kinds. -/
def kindCode : Kind → Nat
  | .Int => 1 | .Ptr => 2 | .Array => 3 | .Struct => 4 | .Union => 5 | .Enum => 6 | .Fwd => 7 | .Typedef => 8
  | .Volatile => 9 | .Const => 10 | .Restrict => 11 | .Func => 12 | .FuncProto => 13 | .Var => 14
  | .DataSec => 15 | .Float => 16 | .DeclTag => 17 | .TypeTag => 18 | .Enum64 => 19

/-- The common header of a record: three words; the second holds the length (bits 0-15), the kind (bits
24-28) and the kind flag (bit 31). -/
def HeaderAt (f : List UInt8) (e : Endianness) (pos : Nat) (th : Header) : Prop :=
  Word f e pos th.nameOffset ∧ Word f e (pos + 8) th.sizeOrType ∧ ∃ info, Word f e (pos + 4) info ∧
    kindCode th.kind = info.toNat / 2 ^ 24 % 32 ∧ th.vlen = info.toNat % 2 ^ 16 ∧
    (th.kindFlag = true ↔ info.toNat / 2 ^ 31 = 1)

/-- The number of bytes after the header. -/
def bodySize (k : Kind) (vlen : Nat) : Nat :=
  match k with
  | .Int => 4
  | .Array => 12
  | .Struct => 12 * vlen
  | .Union => 12 * vlen
  | .Enum => 8 * vlen
  | .FuncProto => 8 * vlen
  | .Var => 4
  | .DataSec => 12 * vlen
  | .DeclTag => 4
  | .Enum64 => 12 * vlen
  | _ => 0

/-- The number of bytes after the header that have to be inside the type section. -/
def boundedSize (dl : Dialect) (k : Kind) (vlen : Nat) : Nat :=
  match dl, k with
  | .crate, .Array => 12 * vlen
  | _, _ => bodySize k vlen

/-- `xs` are stored at `pos`, `pos + size`, `pos + 2·size`, … -/
def Items {α : Type} (item : Nat → α → Prop) (size pos : Nat) (xs : List α) : Prop :=
  ∀ i (h : i < xs.length), item (pos + i * size) xs[i]

/-- An integer: one word with the width (bits 0-7), the bit offset (16-23) and the encoding (24: signed,
25: char, 26: bool). -/
def IntBody (f : List UInt8) (e : Endianness) (fh : FileHeader) (th : Header) (pos : Nat) (d : IntData) : Prop :=
  ∃ w, Word f e pos w ∧ NameAt f fh th.nameOffset d.name ∧ d.size = th.sizeOrType.toNat ∧
    (d.signed = true ↔ w.toNat / 2 ^ 24 % 2 = 1) ∧ (d.char = true ↔ w.toNat / 2 ^ 25 % 2 = 1) ∧
    (d.boolean = true ↔ w.toNat / 2 ^ 26 % 2 = 1) ∧
    d.offset = w.toNat / 2 ^ 16 % 256 ∧ d.bits = w.toNat % 256

/-- The meaning of the third word of a member: without kind flag it is a bit position, which must be a
whole number of bytes; with kind flag, bits 0-23 are the bit position and bits 24-31 the width, width 0
standing for "not a bitfield" if the position is a whole number of bytes. -/
def MemberOffset (kindFlag : Bool) (raw : UInt32) (o : Offset) : Prop :=
  match kindFlag with
  | false => bitPos o = raw.toNat ∧ bitWidth o = none
  | true =>
    bitPos o = raw.toNat % 2 ^ 24 ∧
    match bitWidth o with
    | none => raw.toNat / 2 ^ 24 = 0
    | some w => w.toNat = raw.toNat / 2 ^ 24 ∧ (w ≠ 0 ∨ ¬ 8 ∣ raw.toNat % 2 ^ 24)

def MemberAt (f : List UInt8) (e : Endianness) (fh : FileHeader) (kindFlag : Bool) (pos : Nat) (m : Member) : Prop :=
  Word f e pos m.nameOffset ∧ NameAt f fh m.nameOffset m.name ∧ Word f e (pos + 4) m.tid ∧
    ∃ raw, Word f e (pos + 8) raw ∧ MemberOffset kindFlag raw m.offset

def StructBody (f : List UInt8) (e : Endianness) (fh : FileHeader) (th : Header) (pos : Nat) (d : StructData) : Prop :=
  NameAt f fh th.nameOffset d.name ∧ d.size = th.sizeOrType.toNat ∧ d.memberList.length = th.vlen ∧
    Items (MemberAt f e fh th.kindFlag) 12 pos d.memberList

/-- The signed number with the same `n` low bits. -/
def twosComplement (n v : Nat) : Int := if v < 2 ^ (n - 1) then v else (v : Int) - 2 ^ n

/-- The value of an enumerator: signed if the kind flag is set. -/
def Value32 (signed : Bool) (v : Nat) : Integer32Value → Prop
  | .signed x => signed = true ∧ x.toInt = twosComplement 32 v
  | .unsigned x => signed = false ∧ x.toNat = v

def Value64 (signed : Bool) (v : Nat) : Integer64Value → Prop
  | .signed x => signed = true ∧ x.toInt = twosComplement 64 v
  | .unsigned x => signed = false ∧ x.toNat = v

def EnumeratorAt (f : List UInt8) (e : Endianness) (fh : FileHeader) (signed : Bool) (pos : Nat)
    (x : NamedValue32) : Prop :=
  ∃ off v, Word f e pos off ∧ StringAt f fh off x.name ∧ IntAt f e 4 (pos + 4) v ∧ Value32 signed v x.value

/-- A 64-bit value: low word, then high word; the crate reads one 8-byte integer. -/
def WideAt (dl : Dialect) (f : List UInt8) (e : Endianness) (pos v : Nat) : Prop :=
  match dl with
  | .documented => ∃ lo hi, Word f e pos lo ∧ Word f e (pos + 4) hi ∧ v = lo.toNat + 2 ^ 32 * hi.toNat
  | .crate => IntAt f e 8 pos v

def Enumerator64At (dl : Dialect) (f : List UInt8) (e : Endianness) (fh : FileHeader) (signed : Bool) (pos : Nat)
    (x : NamedValue64) : Prop :=
  ∃ off v, Word f e pos off ∧ StringAt f fh off x.name ∧ WideAt dl f e (pos + 4) v ∧ Value64 signed v x.value

def EnumBody (f : List UInt8) (e : Endianness) (fh : FileHeader) (th : Header) (pos : Nat) (d : EnumData) : Prop :=
  NameAt f fh th.nameOffset d.name ∧ d.size = th.sizeOrType.toNat ∧ d.signed = th.kindFlag ∧
    d.namedValueList.length = th.vlen ∧ Items (EnumeratorAt f e fh th.kindFlag) 8 pos d.namedValueList

def Enum64Body (dl : Dialect) (f : List UInt8) (e : Endianness) (fh : FileHeader) (th : Header) (pos : Nat)
    (d : Enum64Data) : Prop :=
  NameAt f fh th.nameOffset d.name ∧ d.size = th.sizeOrType.toNat ∧ d.signed = th.kindFlag ∧
    d.namedValueList.length = th.vlen ∧ Items (Enumerator64At dl f e fh th.kindFlag) 12 pos d.namedValueList

def ParameterAt (f : List UInt8) (e : Endianness) (fh : FileHeader) (pos : Nat) (x : Parameter) : Prop :=
  Word f e pos x.nameOffset ∧ NameAt f fh x.nameOffset x.name ∧ Word f e (pos + 4) x.tid

def FuncProtoBody (f : List UInt8) (e : Endianness) (fh : FileHeader) (th : Header) (pos : Nat)
    (d : FuncProtoData) : Prop :=
  d.returnTid = th.sizeOrType ∧ d.parameterList.length = th.vlen ∧ Items (ParameterAt f e fh) 8 pos d.parameterList

def VariableAt (f : List UInt8) (e : Endianness) (pos : Nat) (x : Variable) : Prop :=
  Word f e pos x.varDeclId ∧ Word f e (pos + 4) x.offset ∧ Word f e (pos + 8) x.varSize

def DataSecBody (f : List UInt8) (e : Endianness) (fh : FileHeader) (th : Header) (pos : Nat)
    (d : DataSecData) : Prop :=
  NameAt f fh th.nameOffset d.name ∧ d.size = th.sizeOrType.toNat ∧ d.variableList.length = th.vlen ∧
    Items (VariableAt f e) 12 pos d.variableList

def ArrayBody (f : List UInt8) (e : Endianness) (pos : Nat) (d : ArrayData) : Prop :=
  Word f e pos d.elementTid ∧ Word f e (pos + 4) d.indexTid ∧ Word f e (pos + 8) d.elementCount

def VarBody (f : List UInt8) (e : Endianness) (fh : FileHeader) (th : Header) (pos : Nat) (d : VarData) : Prop :=
  NameAt f fh th.nameOffset d.name ∧ d.tid = th.sizeOrType ∧ Word f e pos d.linkage ∧
    (d.linkageType = .static ↔ d.linkage = 0)

def DeclTagBody (f : List UInt8) (e : Endianness) (fh : FileHeader) (th : Header) (pos : Nat)
    (d : DeclTagData) : Prop :=
  NameAt f fh th.nameOffset d.name ∧ d.tid = th.sizeOrType ∧ Word f e pos d.componentIndex

def NamedTidBody (f : List UInt8) (fh : FileHeader) (th : Header) (d : NamedTidData) : Prop :=
  NameAt f fh th.nameOffset d.name ∧ d.tid = th.sizeOrType

/-- The body at `pos` of a record with header `th`. -/
def Body (dl : Dialect) (f : List UInt8) (e : Endianness) (fh : FileHeader) (th : Header) (pos : Nat) :
    TypeVariant → Prop
  | .void => False
  | .int h d => h = th ∧ th.kind = .Int ∧ IntBody f e fh th pos d
  | .ptr h d => h = th ∧ th.kind = .Ptr ∧ d.tid = th.sizeOrType
  | .array h d => h = th ∧ th.kind = .Array ∧ ArrayBody f e pos d
  | .struct h d => h = th ∧ th.kind = .Struct ∧ StructBody f e fh th pos d
  | .union h d => h = th ∧ th.kind = .Union ∧ StructBody f e fh th pos d
  | .enum h d => h = th ∧ th.kind = .Enum ∧ EnumBody f e fh th pos d
  | .fwd h d => h = th ∧ th.kind = .Fwd ∧ NamedTidBody f fh th d
  | .typedef h d => h = th ∧ th.kind = .Typedef ∧ NamedTidBody f fh th d
  | .volatile h d => h = th ∧ th.kind = .Volatile ∧ d.tid = th.sizeOrType
  | .const h d => h = th ∧ th.kind = .Const ∧ d.tid = th.sizeOrType
  | .restrict h d => h = th ∧ th.kind = .Restrict ∧ d.tid = th.sizeOrType
  | .func h d => h = th ∧ th.kind = .Func ∧ NameAt f fh th.nameOffset d.name ∧ d.prototypeTid = th.sizeOrType
  | .funcProto h d => h = th ∧ th.kind = .FuncProto ∧ FuncProtoBody f e fh th pos d
  | .var h d => h = th ∧ th.kind = .Var ∧ VarBody f e fh th pos d
  | .dataSec h d => h = th ∧ th.kind = .DataSec ∧ DataSecBody f e fh th pos d
  | .float h d => h = th ∧ th.kind = .Float ∧ NameAt f fh th.nameOffset d.name ∧ d.size = th.sizeOrType.toNat
  | .declTag h d => h = th ∧ th.kind = .DeclTag ∧ DeclTagBody f e fh th pos d
  | .typeTag h d => h = th ∧ th.kind = .TypeTag ∧ NamedTidBody f fh th d
  | .enum64 h d => h = th ∧ th.kind = .Enum64 ∧ Enum64Body dl f e fh th pos d

/-- The record at `pos` is `v`, and the next one starts at `next`. -/
def RecordAt (dl : Dialect) (f : List UInt8) (e : Endianness) (fh : FileHeader) (pos : Nat) (v : TypeVariant)
    (next : Nat) : Prop :=
  ∃ th, HeaderAt f e pos th ∧ Body dl f e fh th (pos + 12) v ∧
    pos + 12 + boundedSize dl th.kind th.vlen ≤ typeEnd fh ∧ next = pos + 12 + bodySize th.kind th.vlen

/-- The records from `pos` up to `next` are `vs`. -/
inductive Records (dl : Dialect) (f : List UInt8) (e : Endianness) (fh : FileHeader) :
    Nat → List TypeVariant → Nat → Prop where
  | nil {pos} : Records dl f e fh pos [] pos
  | cons {pos v mid vs next} : RecordAt dl f e fh pos v mid → Records dl f e fh mid vs next →
      Records dl f e fh pos (v :: vs) next

/-- The file contains the types `vs`, in this order: the type section is below 4 GiB and consists of
exactly these records. -/
def Decodes (dl : Dialect) (f : List UInt8) (vs : List TypeVariant) : Prop :=
  ∃ e fh next, Preamble f e fh ∧ typeEnd fh < 2 ^ 32 ∧ Records dl f e fh (typeStart fh) vs next ∧
    match dl with
    | .documented => next = typeEnd fh
    | .crate => typeEnd fh ≤ next

/-! ### Sources -/

/-- The `Readable` serves the bytes of `f`: a request (at an offset that a `usize` can express) inside the
file gets these bytes, any other request fails (with whatever error). -/
def Serves (cfg : Cfg) (R : Readable) (f : List UInt8) : Prop :=
  ∀ history offset len, 0 < len → offset < cfg.usizeMod →
    if offset + len ≤ f.length then
      ∃ b, R.read history offset len = .ok b ∧ ∀ i < len, some (b i) = f[offset + i]?
    else ∃ e, R.read history offset len = .error e

/-- On 64-bit targets every file can be addressed. On 32-bit targets the type section has to end 1 MiB, and
the string section 1 byte, before the end of the 4 GiB address space. -/
def FitsTarget (cfg : Cfg) (f : List UInt8) : Prop :=
  cfg.width = .w64 ∨ ∀ e fh, Preamble f e fh → typeEnd fh + 2 ^ 20 < 2 ^ 32 ∧ strEnd fh + 1 < 2 ^ 32

end Btf.Spec

import Verif.Spec.Format

/-!
# Where `TypeInformation::new` may read, and how the parts of a type fit together

These make sense for every `Readable`, also for one that gives different answers to the same request.
-/

namespace Btf.Spec

open Btf

/-! ### Regions -/

/-- The request lies within the bytes from `a` up to `b`. -/
def Within (a b : Nat) (ev : ReadEvent) : Prop := a ≤ ev.offset ∧ ev.offset + ev.len ≤ b

/-- The request is for a word (or two) of the type section (or at most 12 bytes after it), or for a byte of the
string section. -/
def InSections (fh : FileHeader) (ev : ReadEvent) : Prop :=
  (Within (typeStart fh) (typeEnd fh + 12) ev ∧ 4 ∣ ev.offset - typeStart fh ∧ (ev.len = 4 ∨ ev.len = 8)) ∨
  (Within (strStart fh) (strEnd fh) ev ∧ ev.len = 1)

/-- The places of the header fields after the magic: offset and length. -/
def headerFields : List (Nat × Nat) := [(0, 2), (2, 1), (3, 1), (4, 4), (8, 4), (12, 4), (16, 4), (20, 4)]

/-- The requests for the first `n` header fields, all successful, latest first. -/
def headerRequests (n : Nat) : List ReadEvent :=
  ((headerFields.take n).map (fun p => ⟨p.1, p.2, none⟩)).reverse

/-- The source answers the request for header field `i` with bytes that make up the number `v`. -/
def Answers (R : Readable) (e : Endianness) (i v : Nat) : Prop :=
  ∃ place b, headerFields[i]? = some place ∧ R.read (headerRequests i) place.1 place.2 = .ok b ∧
    v = intOf e ((List.range place.2).map b)

/-- The header that the source announces when it is asked for the fields one after the other. -/
structure Announces (R : Readable) (e : Endianness) (fh : FileHeader) : Prop where
  magic : ∃ b, R.read [] 0 2 = .ok b ∧ [b 0, b 1] = magic e
  version : Answers R e 1 fh.version.toNat
  flags : Answers R e 2 fh.flags.toNat
  hdrLen : Answers R e 3 fh.hdrLen.toNat
  typeOff : Answers R e 4 fh.typeOff.toNat
  typeLen : Answers R e 5 fh.typeLen.toNat
  strOff : Answers R e 6 fh.strOff.toNat
  strLen : Answers R e 7 fh.strLen.toNat

/-- The source answers the request for the first two bytes, but not with one of the two magics. -/
def BadMagic (R : Readable) : Prop := ∃ b, R.read [] 0 2 = .ok b ∧ ∀ e, [b 0, b 1] ≠ magic e

/-- The source answers the request for the first two bytes; read with the least significant byte first they are `v`. -/
def FirstBytes (R : Readable) (v : UInt16) : Prop := ∃ b, R.read [] 0 2 = .ok b ∧ v.toNat = (b 0).toNat + 256 * (b 1).toNat

/-- On 64-bit targets everything can be addressed. On 32-bit targets the type section has to end 1 MiB, and
the string section 1 byte, before the end of the 4 GiB address space. -/
def Addressable (cfg : Cfg) (R : Readable) : Prop :=
  cfg.width = .w64 ∨ ∀ e fh, Announces R e fh → typeEnd fh + 2 ^ 20 < 2 ^ 32 ∧ strEnd fh + 1 < 2 ^ 32

/-- The error kinds for the contents of the type and string sections. -/
def ContentError (k : ErrorKind) : Prop :=
  k ∈ [ErrorKind.InvalidTypeSectionOffset, .InvalidBTFKind, .InvalidStringOffset, .InvalidString, .InvalidOffset]

instance (k : ErrorKind) : Decidable (ContentError k) := by unfold ContentError; infer_instance

/-- The reasons for rejecting the contents of the type and string sections. -/
def ContentReason : LoadReason → Prop
  | .source _ => False
  | .invalidMagic _ => False
  | .wrongKind _ _ => False
  | _ => True

/-- The latest request failed with `k`. -/
def LastFailed (trace : List ReadEvent) (k : Error) : Prop := ∃ ev rest, trace = ev :: rest ∧ ev.failed = some k

/-! ### Types -/

/-- An optional name is absent exactly if its offset is 0. -/
def NameFits (off : UInt32) (name : Option Str) : Prop := name = none ↔ off = 0

/-- The parts of a type agree with its header. -/
def Shape (th : Header) : TypeVariant → Prop
  | .void => False
  | .int h d => h = th ∧ th.kind = .Int ∧ NameFits th.nameOffset d.name ∧ d.size = th.sizeOrType.toNat ∧ d.offset < 256 ∧ d.bits < 256
  | .ptr h d => h = th ∧ th.kind = .Ptr ∧ d.tid = th.sizeOrType
  | .array h _ => h = th ∧ th.kind = .Array
  | .struct h d => h = th ∧ th.kind = .Struct ∧ NameFits th.nameOffset d.name ∧ d.size = th.sizeOrType.toNat ∧
      d.memberList.length = th.vlen ∧ ∀ m ∈ d.memberList, NameFits m.nameOffset m.name
  | .union h d => h = th ∧ th.kind = .Union ∧ NameFits th.nameOffset d.name ∧ d.size = th.sizeOrType.toNat ∧
      d.memberList.length = th.vlen ∧ ∀ m ∈ d.memberList, NameFits m.nameOffset m.name
  | .enum h d => h = th ∧ th.kind = .Enum ∧ NameFits th.nameOffset d.name ∧ d.size = th.sizeOrType.toNat ∧
      d.signed = th.kindFlag ∧ d.namedValueList.length = th.vlen ∧
      ∀ x ∈ d.namedValueList, ((∃ i, x.value = .signed i) ↔ d.signed = true)
  | .fwd h d => h = th ∧ th.kind = .Fwd ∧ NameFits th.nameOffset d.name ∧ d.tid = th.sizeOrType
  | .typedef h d => h = th ∧ th.kind = .Typedef ∧ NameFits th.nameOffset d.name ∧ d.tid = th.sizeOrType
  | .volatile h d => h = th ∧ th.kind = .Volatile ∧ d.tid = th.sizeOrType
  | .const h d => h = th ∧ th.kind = .Const ∧ d.tid = th.sizeOrType
  | .restrict h d => h = th ∧ th.kind = .Restrict ∧ d.tid = th.sizeOrType
  | .func h d => h = th ∧ th.kind = .Func ∧ NameFits th.nameOffset d.name ∧ d.prototypeTid = th.sizeOrType
  | .funcProto h d => h = th ∧ th.kind = .FuncProto ∧ d.returnTid = th.sizeOrType ∧ d.parameterList.length = th.vlen ∧
      ∀ x ∈ d.parameterList, NameFits x.nameOffset x.name
  | .var h d => h = th ∧ th.kind = .Var ∧ NameFits th.nameOffset d.name ∧ d.tid = th.sizeOrType ∧
      (d.linkageType = .static ↔ d.linkage = 0)
  | .dataSec h d => h = th ∧ th.kind = .DataSec ∧ NameFits th.nameOffset d.name ∧ d.size = th.sizeOrType.toNat ∧
      d.variableList.length = th.vlen
  | .float h d => h = th ∧ th.kind = .Float ∧ NameFits th.nameOffset d.name ∧ d.size = th.sizeOrType.toNat
  | .declTag h d => h = th ∧ th.kind = .DeclTag ∧ NameFits th.nameOffset d.name ∧ d.tid = th.sizeOrType
  | .typeTag h d => h = th ∧ th.kind = .TypeTag ∧ NameFits th.nameOffset d.name ∧ d.tid = th.sizeOrType
  | .enum64 h d => h = th ∧ th.kind = .Enum64 ∧ NameFits th.nameOffset d.name ∧ d.size = th.sizeOrType.toNat ∧
      d.signed = th.kindFlag ∧ d.namedValueList.length = th.vlen ∧
      ∀ x ∈ d.namedValueList, ((∃ i, x.value = .signed i) ↔ d.signed = true)

/-- A type with a header whose length fits in 16 bits and whose parts agree with the header. -/
def Sane (v : TypeVariant) : Prop := ∃ th : Header, th.vlen < 2 ^ 16 ∧ Shape th v

end Btf.Spec

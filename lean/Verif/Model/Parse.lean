import Verif.Model.Types

/-!
# Parsing of one record: src/btf/file_header.rs, kind.rs, header.rs, string.rs, define_type.rs and the
per-kind `Data::new` functions
-/

namespace Btf

open Reader

/-- `FileHeader::detect_endianness` (src/btf/file_header.rs:97-114), with the constants of lines
15 and 18. -/
def FileHeader.detectEndianness (cfg : Cfg) : P Unit := do
  let magic ← u16 cfg
  if magic = 0xEB9F then setEndianness .little
  else if magic = 0x9FEB then setEndianness .big
  else P.fail (.invalidMagic magic)

/-- `FileHeader::new` (src/btf/file_header.rs:46-59). -/
def FileHeader.new (cfg : Cfg) : P FileHeader := do
  setOffset 0
  FileHeader.detectEndianness cfg
  let version ← u8 cfg
  let flags ← u8 cfg
  let hdrLen ← u32 cfg
  let typeOff ← u32 cfg
  let typeLen ← u32 cfg
  let strOff ← u32 cfg
  let strLen ← u32 cfg
  return { version, flags, hdrLen, typeOff, typeLen, strOff, strLen }

/-- `Kind::new` (src/btf/kind.rs:74-101). -/
def Kind.new (value : UInt32) : Res LoadReason Kind :=
  if value = 1 then .ok .Int
  else if value = 2 then .ok .Ptr
  else if value = 3 then .ok .Array
  else if value = 4 then .ok .Struct
  else if value = 5 then .ok .Union
  else if value = 6 then .ok .Enum
  else if value = 7 then .ok .Fwd
  else if value = 8 then .ok .Typedef
  else if value = 9 then .ok .Volatile
  else if value = 10 then .ok .Const
  else if value = 11 then .ok .Restrict
  else if value = 12 then .ok .Func
  else if value = 13 then .ok .FuncProto
  else if value = 14 then .ok .Var
  else if value = 15 then .ok .DataSec
  else if value = 16 then .ok .Float
  else if value = 17 then .ok .DeclTag
  else if value = 18 then .ok .TypeTag
  else if value = 19 then .ok .Enum64
  else .err (.invalidKind value)

/-- `TYPE_HEADER_SIZE` (src/btf/header.rs:15). -/
def TYPE_HEADER_SIZE : Nat := 12

/-- `Header::new` (src/btf/header.rs:38-79). -/
def Header.new (cfg : Cfg) (fh : FileHeader) : P Header := do
  let typeSectionStart ← P.lift (okOr (u32CheckedAdd fh.hdrLen fh.typeOff) .typeSectionStart)
  let typeSectionEnd ← P.lift (okOr (u32CheckedAdd typeSectionStart fh.typeLen) .typeSectionEnd)
  let offset ← getOffset
  let headerEnd ← P.lift (cfg.usizeAdd offset TYPE_HEADER_SIZE)
  if headerEnd > typeSectionEnd.toNat then P.fail .typeSectionOffset
  else do
    let nameOffset ← u32 cfg
    let infoFlags ← u32 cfg
    let vlen := (infoFlags &&& 0xFFFF).toNat
    let kind ← P.lift (Kind.new ((infoFlags &&& 0x1F000000) >>> 24))
    let kindFlag := (infoFlags &&& 0x80000000) != 0
    let sizeOrType ← u32 cfg
    return { kind, nameOffset, vlen, kindFlag, sizeOrType }

/-- `string.push(byte as char)` (src/btf/string.rs:64-73): the byte is taken as the Unicode code point
of the same value, and its UTF-8 encoding (one or two bytes) is appended. -/
def pushLatin1 (s : Str) (b : UInt8) : Str := s ++ String.utf8EncodeChar (Char.ofNat b.toNat)

/-- The loop of `parse_string` (src/btf/string.rs:56-74). `sectionEnd` is `string_section_end`,
`originalOffset` is restored when reading a byte fails (lines 64-67) but not on the unterminated path
(lines 57-62). -/
def parseStringLoop (cfg : Cfg) (start : UInt32) (sectionEnd originalOffset : Nat) : Nat → Str → P Str
  | 0, _ => fun r => (.nofuel, r)
  | fuel + 1, acc => fun r =>
    match cfg.usizeAdd r.offset 1 with
    | .ok next =>
      if next > sectionEnd then (.err (.unterminated start), r)
      else
        match u8 cfg r with
        | (.ok b, r') =>
          if b = 0 then (.ok acc, r')
          else parseStringLoop cfg start sectionEnd originalOffset fuel (pushLatin1 acc b) r'
        | (.err e, r') => (.err e, { r' with offset := originalOffset })
        | (.panic, r') => (.panic, r')
        | (.nofuel, r') => (.nofuel, r')
    | .err e => (.err e, r)
    | .panic => (.panic, r)
    | .nofuel => (.nofuel, r)

/-- `parse_string` (src/btf/string.rs:15-78). The fuel is the number of bytes between the string start
and the section end, plus one; `Proofs` shows that it is never exhausted. -/
def parseString (cfg : Cfg) (fh : FileHeader) (stringOffset : UInt32) : P Str := do
  let sectionStart ← P.lift (okOr (u32CheckedAdd fh.hdrLen fh.strOff) .stringSectionStart)
  let sectionEnd ← P.lift (okOr (u32CheckedAdd sectionStart fh.strLen) .stringSectionEnd)
  let start ← P.lift (okOr (u32CheckedAdd sectionStart stringOffset) .stringOverflow)
  if start ≥ sectionEnd then P.fail (.stringOffset start)
  else do
    let originalOffset ← getOffset
    setOffset start.toNat
    let s ← parseStringLoop cfg start sectionEnd.toNat originalOffset (sectionEnd.toNat - start.toNat + 1) []
    setOffset originalOffset
    return s

/-- The recurring `if name_offset != 0 { Some(parse_string(..)?) } else { None }`, e.g.
src/btf/int.rs:60-68, struct_union.rs:105-109, 143-151, enum.rs:90-98, func_proto.rs:82-86. -/
def parseName (cfg : Cfg) (fh : FileHeader) (nameOffset : UInt32) : P (Option Str) :=
  if nameOffset != 0 then do
    let s ← parseString cfg fh nameOffset
    return some s
  else
    return none

/-- `for _ in 0..n { list.push(item) }` (src/btf/struct_union.rs:111-133, src/btf/enum.rs:75-88,
src/btf/enum64.rs:75-88, src/btf/func_proto.rs:78-93, src/btf/data_sec.rs:64-72). -/
def repeatP {α : Type} (item : P α) : Nat → P (List α)
  | 0 => return []
  | n + 1 => do
    let a ← item
    let rest ← repeatP item n
    return a :: rest

/-- src/btf/int.rs:50-79 -/
def IntData.new (cfg : Cfg) (fh : FileHeader) (th : Header) : P IntData := do
  let extraInfo ← u32 cfg
  let encoding := (extraInfo &&& 0x0F000000) >>> 24
  let offset := ((extraInfo &&& 0x00FF0000) >>> 16).toNat
  let bits := (extraInfo &&& 0x000000FF).toNat
  let name ← parseName cfg fh th.nameOffset
  return {
    name
    size := th.sizeOrType.toNat
    signed := (encoding &&& 1) != 0
    char := (encoding &&& 2) != 0
    boolean := (encoding &&& 4) != 0
    offset
    bits }

/-- src/btf/ptr.rs:32-40, const.rs:32-40, volatile.rs:32-40, restrict.rs:32-40 -/
def TidData.new (th : Header) : P TidData := return { tid := th.sizeOrType }

/-- src/btf/typedef.rs:35-54, type_tag.rs:35-54, fwd.rs:35-54 -/
def NamedTidData.new (cfg : Cfg) (fh : FileHeader) (th : Header) : P NamedTidData := do
  let name ← parseName cfg fh th.nameOffset
  return { name, tid := th.sizeOrType }

/-- src/btf/func.rs:35-54 -/
def FuncData.new (cfg : Cfg) (fh : FileHeader) (th : Header) : P FuncData := do
  let name ← parseName cfg fh th.nameOffset
  return { name, prototypeTid := th.sizeOrType }

/-- src/btf/float.rs:35-52 -/
def FloatData.new (cfg : Cfg) (fh : FileHeader) (th : Header) : P FloatData := do
  let name ← parseName cfg fh th.nameOffset
  return { name, size := th.sizeOrType.toNat }

/-- src/btf/array.rs:41-55 -/
def ArrayData.new (cfg : Cfg) : P ArrayData := do
  let elementTid ← u32 cfg
  let indexTid ← u32 cfg
  let elementCount ← u32 cfg
  return { elementTid, indexTid, elementCount }

/-- The offset computation of src/btf/struct_union.rs:111-133. -/
def memberOffset (kindFlag : Bool) (rawOffset : UInt32) : Res LoadReason Offset :=
  match kindFlag with
  | false =>
    if rawOffset % 8 = 0 then .ok (.byteOffset (rawOffset / 8))
    else .err .unaligned
  | true =>
    let bitOffset := rawOffset &&& 0xFFFFFF
    let bitSize := (rawOffset >>> 24) &&& 0xFF
    if bitSize = 0 ∧ bitOffset % 8 = 0 then .ok (.byteOffset (bitOffset / 8))
    else .ok (.bitOffsetAndSize bitOffset bitSize)

/-- One iteration of the member loop, src/btf/struct_union.rs:101-140. -/
def Member.parse (cfg : Cfg) (fh : FileHeader) (kindFlag : Bool) : P Member := do
  let nameOffset ← u32 cfg
  let tid ← u32 cfg
  let rawOffset ← u32 cfg
  let name ← parseName cfg fh nameOffset
  let offset ← P.lift (memberOffset kindFlag rawOffset)
  return { nameOffset, name, tid, offset }

/-- src/btf/struct_union.rs:93-158 -/
def StructData.new (cfg : Cfg) (fh : FileHeader) (th : Header) : P StructData := do
  let memberList ← repeatP (Member.parse cfg fh th.kindFlag) th.vlen
  let name ← parseName cfg fh th.nameOffset
  return { name, size := th.sizeOrType.toNat, memberList }

/-- One iteration of src/btf/enum.rs:75-88. -/
def NamedValue32.parse (cfg : Cfg) (fh : FileHeader) (signed : Bool) : P NamedValue32 := do
  let nameOffset ← u32 cfg
  let name ← parseString cfg fh nameOffset
  match signed with
  | true => do
    let v ← i32 cfg
    return { name, value := .signed v }
  | false => do
    let v ← u32 cfg
    return { name, value := .unsigned v }

/-- src/btf/enum.rs:67-106 -/
def EnumData.new (cfg : Cfg) (fh : FileHeader) (th : Header) : P EnumData := do
  let signed := th.kindFlag
  let namedValueList ← repeatP (NamedValue32.parse cfg fh signed) th.vlen
  let name ← parseName cfg fh th.nameOffset
  return { name, size := th.sizeOrType.toNat, namedValueList, signed }

/-- One iteration of src/btf/enum64.rs:75-88. -/
def NamedValue64.parse (cfg : Cfg) (fh : FileHeader) (signed : Bool) : P NamedValue64 := do
  let nameOffset ← u32 cfg
  let name ← parseString cfg fh nameOffset
  match signed with
  | true => do
    let v ← i64 cfg
    return { name, value := .signed v }
  | false => do
    let v ← u64 cfg
    return { name, value := .unsigned v }

/-- src/btf/enum64.rs:67-106 -/
def Enum64Data.new (cfg : Cfg) (fh : FileHeader) (th : Header) : P Enum64Data := do
  let signed := th.kindFlag
  let namedValueList ← repeatP (NamedValue64.parse cfg fh signed) th.vlen
  let name ← parseName cfg fh th.nameOffset
  return { name, size := th.sizeOrType.toNat, namedValueList, signed }

/-- One iteration of src/btf/func_proto.rs:78-93. -/
def Parameter.parse (cfg : Cfg) (fh : FileHeader) : P Parameter := do
  let nameOffset ← u32 cfg
  let tid ← u32 cfg
  let name ← parseName cfg fh nameOffset
  return { nameOffset, name, tid }

/-- src/btf/func_proto.rs:71-99 -/
def FuncProtoData.new (cfg : Cfg) (fh : FileHeader) (th : Header) : P FuncProtoData := do
  let parameterList ← repeatP (Parameter.parse cfg fh) th.vlen
  return { parameterList, returnTid := th.sizeOrType }

/-- src/btf/var.rs:48-75 -/
def VarData.new (cfg : Cfg) (fh : FileHeader) (th : Header) : P VarData := do
  let linkage ← u32 cfg
  let linkageType := if linkage = 0 then LinkageType.static else LinkageType.global
  let name ← parseName cfg fh th.nameOffset
  return { name, tid := th.sizeOrType, linkage, linkageType }

/-- One iteration of src/btf/data_sec.rs:64-72. -/
def Variable.parse (cfg : Cfg) : P Variable := do
  let varDeclId ← u32 cfg
  let offset ← u32 cfg
  let varSize ← u32 cfg
  return { varDeclId, offset, varSize }

/-- src/btf/data_sec.rs:57-89 -/
def DataSecData.new (cfg : Cfg) (fh : FileHeader) (th : Header) : P DataSecData := do
  let variableList ← repeatP (Variable.parse cfg) th.vlen
  let name ← parseName cfg fh th.nameOffset
  return { name, size := th.sizeOrType.toNat, variableList }

/-- src/btf/decl_tag.rs:38-60 -/
def DeclTagData.new (cfg : Cfg) (fh : FileHeader) (th : Header) : P DeclTagData := do
  let componentIndex ← u32 cfg
  let name ← parseName cfg fh th.nameOffset
  return { name, tid := th.sizeOrType, componentIndex }

/-- `Data::size` of each kind: int.rs:45-47, ptr.rs:27-29 (and const, volatile, restrict),
array.rs:19,36-38, struct_union.rs:19,88-90, enum.rs:19,62-64, enum64.rs:19,62-64, fwd.rs:30-32,
typedef.rs:30-32, type_tag.rs:30-32, func.rs:30-32, func_proto.rs:19,66-68, var.rs:43-45,
data_sec.rs:19,52-54, float.rs:30-32, decl_tag.rs:33-35. The products are plain `usize` products. -/
def extraSize (cfg : Cfg) (k : Kind) (th : Header) : Res LoadReason Nat :=
  match k with
  | .Int => .ok 4
  | .Ptr => .ok 0
  | .Array => cfg.usizeMul th.vlen 12
  | .Struct => cfg.usizeMul th.vlen 12
  | .Union => cfg.usizeMul th.vlen 12
  | .Enum => cfg.usizeMul th.vlen 8
  | .Fwd => .ok 0
  | .Typedef => .ok 0
  | .Volatile => .ok 0
  | .Const => .ok 0
  | .Restrict => .ok 0
  | .Func => .ok 0
  | .FuncProto => cfg.usizeMul th.vlen 8
  | .Var => .ok 4
  | .DataSec => cfg.usizeMul th.vlen 12
  | .Float => .ok 0
  | .DeclTag => .ok 4
  | .TypeTag => .ok 0
  | .Enum64 => cfg.usizeMul th.vlen 12

/-- The part of the generated `$name::new` before the data is read (src/btf/define_type.rs:54-83):
the kind check and the section bounds check. The sums of lines 67-68 are plain `u32` sums, the one of
line 77 a plain `usize` sum. -/
def checkExtra (cfg : Cfg) (fh : FileHeader) (expected : Kind) (th : Header) : P Unit := do
  if th.kind ≠ expected then P.fail (.wrongKind th.kind expected)
  else do
    let required ← P.lift (extraSize cfg expected th)
    if required > 0 then do
      let typeSectionStart ← P.lift (cfg.u32Add fh.hdrLen fh.typeOff)
      let typeSectionEnd ← P.lift (cfg.u32Add typeSectionStart fh.typeLen)
      let offset ← getOffset
      if offset < typeSectionStart.toNat then P.fail .typeSectionOffset
      else do
        let extraEnd ← P.lift (cfg.usizeAdd offset required)
        if extraEnd > typeSectionEnd.toNat then P.fail .typeSectionOffset
        else return ()
    else return ()

/-- The generated `$name::new` (src/btf/define_type.rs:49-91): check, then read the data. -/
def defineTypeNew {D : Type} (cfg : Cfg) (fh : FileHeader) (expected : Kind) (th : Header)
    (data : P D) (mk : Header → D → TypeVariant) : P TypeVariant := do
  checkExtra cfg fh expected th
  let d ← data
  return mk th d

/-- `parse_type` (src/btf/define_type.rs:107-113, instantiated at
src/btf/type_information.rs:363-366). -/
def parseType (cfg : Cfg) (fh : FileHeader) (th : Header) : P TypeVariant :=
  match th.kind with
  | .Int => defineTypeNew cfg fh .Int th (IntData.new cfg fh th) .int
  | .Typedef => defineTypeNew cfg fh .Typedef th (NamedTidData.new cfg fh th) .typedef
  | .Enum => defineTypeNew cfg fh .Enum th (EnumData.new cfg fh th) .enum
  | .Ptr => defineTypeNew cfg fh .Ptr th (TidData.new th) .ptr
  | .Const => defineTypeNew cfg fh .Const th (TidData.new th) .const
  | .Volatile => defineTypeNew cfg fh .Volatile th (TidData.new th) .volatile
  | .Array => defineTypeNew cfg fh .Array th (ArrayData.new cfg) .array
  | .FuncProto => defineTypeNew cfg fh .FuncProto th (FuncProtoData.new cfg fh th) .funcProto
  | .Struct => defineTypeNew cfg fh .Struct th (StructData.new cfg fh th) .struct
  | .Union => defineTypeNew cfg fh .Union th (StructData.new cfg fh th) .union
  | .Fwd => defineTypeNew cfg fh .Fwd th (NamedTidData.new cfg fh th) .fwd
  | .Var => defineTypeNew cfg fh .Var th (VarData.new cfg fh th) .var
  | .Enum64 => defineTypeNew cfg fh .Enum64 th (Enum64Data.new cfg fh th) .enum64
  | .Func => defineTypeNew cfg fh .Func th (FuncData.new cfg fh th) .func
  | .Float => defineTypeNew cfg fh .Float th (FloatData.new cfg fh th) .float
  | .Restrict => defineTypeNew cfg fh .Restrict th (TidData.new th) .restrict
  | .DataSec => defineTypeNew cfg fh .DataSec th (DataSecData.new cfg fh th) .dataSec
  | .TypeTag => defineTypeNew cfg fh .TypeTag th (NamedTidData.new cfg fh th) .typeTag
  | .DeclTag => defineTypeNew cfg fh .DeclTag th (DeclTagData.new cfg fh th) .declTag

end Btf

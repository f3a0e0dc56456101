import Verif.Model.Message
import Verif.Model.Examples

/-!
# Printed text: the derived `Debug`s of the parsed data and the `println!`s of the examples

`{:?}` of a `TypeVariant` is used in a message (src/btf/type_information.rs:600-601), and of the map of all types and of
an `Offset` in the examples (examples/dump-btf.rs:45, examples/get-type-offset.rs:52). The formats are those of the
standard library for `#[derive(Debug)]`, without `#`.
-/

namespace Btf

/-- The code points of a name (the names of src/btf/string.rs:64-73 consist of code points below 256, in UTF-8). A byte
that is not part of such a text is given as a number from 256; this does not occur in names. -/
def codePoints : Str → List Nat
  | [] => []
  | b :: rest =>
    if b < 0x80 then b.toNat :: codePoints rest
    else
      match rest with
      | [] => [256 + b.toNat]
      | c :: rest' =>
        if (b = 0xC2 ∨ b = 0xC3) ∧ 0x80 ≤ c ∧ c < 0xC0 then ((b.toNat - 0xC0) * 64 + (c.toNat - 0x80)) :: codePoints rest'
        else (256 + b.toNat) :: codePoints (c :: rest')

/-- A digit of a number in lower case hexadecimal (std, `char::escape_unicode`, for the names of
src/btf/string.rs:64-73). -/
def hexDigitLower (n : Nat) : UInt8 := UInt8.ofNat (if n < 10 then 48 + n else 87 + n)

/-- A number below 4096 in lower case hexadecimal, without leading zeros (std, `char::escape_unicode`, for the names of
src/btf/string.rs:64-73). -/
def hexLower (n : Nat) : Str :=
  (if n < 256 then [] else [hexDigitLower (n / 256)]) ++ (if n < 16 then [] else [hexDigitLower (n / 16 % 16)]) ++
    [hexDigitLower (n % 16)]

/-- Whether a code point below 256 is printed as it is (std, `core::unicode::printable`, for the names of
src/btf/string.rs:64-73): not if it is a control character, a no-break space or a soft hyphen. -/
def printable (c : Nat) : Bool := (32 ≤ c && c < 127) || (161 ≤ c && c < 256 && c != 173)

/-- A character in the `Debug` of a `String` (std, `char::escape_debug_ext`, for the names of
src/btf/string.rs:64-73). -/
def escapeDebug (c : Nat) : Str :=
  if c = 0 then [92, 48]
  else if c = 9 then [92, 116]
  else if c = 10 then [92, 110]
  else if c = 13 then [92, 114]
  else if c = 34 then [92, 34]
  else if c = 92 then [92, 92]
  else if printable c then String.utf8EncodeChar (Char.ofNat c)
  else [92, 117, 123] ++ hexLower c ++ [125]

/-- The `Debug` of the `String`s that are names (std, for e.g. src/btf/enum.rs:35). -/
def debugString (s : Str) : Str := [34] ++ (codePoints s).flatMap escapeDebug ++ [34]

/-- The `Debug` of `u32`, `u64` and `usize` (std, for e.g. src/btf/header.rs:24, 27). -/
def debugNat (n : Nat) : Str := Reason.decimal n

/-- The `Debug` of `i32` and `i64` (std, for src/btf/enum.rs:25, enum64.rs:25). -/
def debugSigned (n : Int) : Str := if n < 0 then [45] ++ debugNat n.natAbs else debugNat n.natAbs

/-- The `Debug` of `bool` (std, for e.g. src/btf/header.rs:30). -/
def debugBool (b : Bool) : Str := if b then str "true" else str "false"

/-- The `Debug` of `Option<String>` (std, for e.g. src/btf/int.rs:22). -/
def debugName : Option Str → Str
  | none => str "None"
  | some s => str "Some(" ++ debugString s ++ str ")"

/-- Texts with commas between them (std, `DebugInner::entry`, for the lists of e.g. src/btf/struct_union.rs:83). -/
def commas : List Str → Str
  | [] => []
  | x :: rest => x ++ rest.flatMap fun y => str ", " ++ y

/-- The `Debug` of a `Vec` (std, for e.g. src/btf/struct_union.rs:83). -/
def debugList {α : Type} (f : α → Str) (l : List α) : Str := str "[" ++ commas (l.map f) ++ str "]"

/-- The derived `Debug` of a struct (std, `Formatter::debug_struct`, for e.g. src/btf/header.rs:18-34). -/
def debugStruct (name : String) (fields : List (String × Str)) : Str :=
  str name ++ str " { " ++ commas (fields.map fun p => str p.1 ++ str ": " ++ p.2) ++ str " }"

/-- The derived `Debug` of an enum variant with values (std, `Formatter::debug_tuple`, for e.g. src/btf/offset.rs:16-24);
without a name, that of a tuple (examples/get-type-offset.rs:52). -/
def debugTuple (name : String) (values : List Str) : Str := str name ++ str "(" ++ commas values ++ str ")"

/-- The derived `Debug` of `Offset` (src/btf/offset.rs:16-24). -/
def Offset.debug : Offset → Str
  | .byteOffset b => debugTuple "ByteOffset" [debugNat b.toNat]
  | .bitOffsetAndSize o s => debugTuple "BitOffsetAndSize" [debugNat o.toNat, debugNat s.toNat]

/-- The derived `Debug` of `Header` (src/btf/header.rs:18-34). -/
def Header.debug (h : Header) : Str :=
  debugStruct "Header" [("kind", h.kind.debug), ("name_offset", debugNat h.nameOffset.toNat), ("vlen", debugNat h.vlen),
    ("kind_flag", debugBool h.kindFlag), ("size_or_type", debugNat h.sizeOrType.toNat)]

/-- The derived `Debug` of `Data` in src/btf/int.rs:19-41. -/
def IntData.debug (d : IntData) : Str :=
  debugStruct "Data" [("name", debugName d.name), ("size", debugNat d.size), ("signed", debugBool d.signed),
    ("char", debugBool d.char), ("boolean", debugBool d.boolean), ("offset", debugNat d.offset), ("bits", debugNat d.bits)]

/-- The derived `Debug` of `Data` in src/btf/ptr.rs:19-23, const.rs:19-23, volatile.rs:19-23, restrict.rs:19-23. -/
def TidData.debug (d : TidData) : Str := debugStruct "Data" [("tid", debugNat d.tid.toNat)]

/-- The derived `Debug` of `Data` in src/btf/typedef.rs:19-26, type_tag.rs:19-26, fwd.rs:19-26. -/
def NamedTidData.debug (d : NamedTidData) : Str :=
  debugStruct "Data" [("name", debugName d.name), ("tid", debugNat d.tid.toNat)]

/-- The derived `Debug` of `Data` in src/btf/func.rs:19-26. -/
def FuncData.debug (d : FuncData) : Str :=
  debugStruct "Data" [("name", debugName d.name), ("prototype_tid", debugNat d.prototypeTid.toNat)]

/-- The derived `Debug` of `Data` in src/btf/float.rs:19-26. -/
def FloatData.debug (d : FloatData) : Str :=
  debugStruct "Data" [("name", debugName d.name), ("size", debugNat d.size)]

/-- The derived `Debug` of `Data` in src/btf/array.rs:22-32. -/
def ArrayData.debug (d : ArrayData) : Str :=
  debugStruct "Data" [("element_tid", debugNat d.elementTid.toNat), ("index_tid", debugNat d.indexTid.toNat),
    ("element_count", debugNat d.elementCount.toNat)]

/-- The derived `Debug` of `Member` (src/btf/struct_union.rs:22-35). -/
def Member.debug (m : Member) : Str :=
  debugStruct "Member" [("name_offset", debugNat m.nameOffset.toNat), ("name", debugName m.name),
    ("tid", debugNat m.tid.toNat), ("offset", m.offset.debug)]

/-- The derived `Debug` of `Data` in src/btf/struct_union.rs:74-84. -/
def StructData.debug (d : StructData) : Str :=
  debugStruct "Data" [("name", debugName d.name), ("size", debugNat d.size),
    ("member_list", debugList Member.debug d.memberList)]

/-- The derived `Debug` of `Integer32Value` (src/btf/enum.rs:22-29). -/
def Integer32Value.debug : Integer32Value → Str
  | .signed v => debugTuple "Signed" [debugSigned v.toInt]
  | .unsigned v => debugTuple "Unsigned" [debugNat v.toNat]

/-- The derived `Debug` of `NamedValue32` (src/btf/enum.rs:32-39). -/
def NamedValue32.debug (v : NamedValue32) : Str :=
  debugStruct "NamedValue32" [("name", debugString v.name), ("value", v.value.debug)]

/-- The derived `Debug` of `Data` in src/btf/enum.rs:45-58. -/
def EnumData.debug (d : EnumData) : Str :=
  debugStruct "Data" [("name", debugName d.name), ("size", debugNat d.size),
    ("named_value_list", debugList NamedValue32.debug d.namedValueList), ("signed", debugBool d.signed)]

/-- The derived `Debug` of `Integer64Value` (src/btf/enum64.rs:22-29). -/
def Integer64Value.debug : Integer64Value → Str
  | .signed v => debugTuple "Signed" [debugSigned v.toInt]
  | .unsigned v => debugTuple "Unsigned" [debugNat v.toNat]

/-- The derived `Debug` of `NamedValue64` (src/btf/enum64.rs:32-39). -/
def NamedValue64.debug (v : NamedValue64) : Str :=
  debugStruct "NamedValue64" [("name", debugString v.name), ("value", v.value.debug)]

/-- The derived `Debug` of `Data` in src/btf/enum64.rs:45-58. -/
def Enum64Data.debug (d : Enum64Data) : Str :=
  debugStruct "Data" [("name", debugName d.name), ("size", debugNat d.size),
    ("named_value_list", debugList NamedValue64.debug d.namedValueList), ("signed", debugBool d.signed)]

/-- The derived `Debug` of `Parameter` (src/btf/func_proto.rs:22-32). -/
def Parameter.debug (p : Parameter) : Str :=
  debugStruct "Parameter" [("name_offset", debugNat p.nameOffset.toNat), ("name", debugName p.name),
    ("tid", debugNat p.tid.toNat)]

/-- The derived `Debug` of `Data` in src/btf/func_proto.rs:55-62. -/
def FuncProtoData.debug (d : FuncProtoData) : Str :=
  debugStruct "Data" [("parameter_list", debugList Parameter.debug d.parameterList),
    ("return_tid", debugNat d.returnTid.toNat)]

/-- The derived `Debug` of `LinkageType` (src/btf/var.rs:19-23). -/
def LinkageType.debug : LinkageType → Str
  | .static => str "Static"
  | .global => str "Global"

/-- The derived `Debug` of `Data` in src/btf/var.rs:26-39. -/
def VarData.debug (d : VarData) : Str :=
  debugStruct "Data" [("name", debugName d.name), ("tid", debugNat d.tid.toNat), ("linkage", debugNat d.linkage.toNat),
    ("linkage_type", d.linkageType.debug)]

/-- The derived `Debug` of `Variable` (src/btf/data_sec.rs:22-32). -/
def Variable.debug (v : Variable) : Str :=
  debugStruct "Variable" [("var_decl_id", debugNat v.varDeclId.toNat), ("offset", debugNat v.offset.toNat),
    ("var_size", debugNat v.varSize.toNat)]

/-- The derived `Debug` of `Data` in src/btf/data_sec.rs:38-48. -/
def DataSecData.debug (d : DataSecData) : Str :=
  debugStruct "Data" [("name", debugName d.name), ("size", debugNat d.size),
    ("variable_list", debugList Variable.debug d.variableList)]

/-- The derived `Debug` of `Data` in src/btf/decl_tag.rs:19-29. -/
def DeclTagData.debug (d : DeclTagData) : Str :=
  debugStruct "Data" [("name", debugName d.name), ("tid", debugNat d.tid.toNat),
    ("component_index", debugNat d.componentIndex.toNat)]

/-- The derived `Debug` of a variant of `TypeVariant` (src/btf/type_information.rs:25-86) that holds a struct made by
`define_type!` (src/btf/define_type.rs:13-20), which has the same name as the variant. -/
def debugType (name : String) (h : Header) (data : Str) : Str :=
  debugTuple name [debugStruct name [("type_header", h.debug), ("data", data)]]

/-- The derived `Debug` of `TypeVariant` (src/btf/type_information.rs:25-86). -/
def TypeVariant.debug : TypeVariant → Str
  | .void => str "Void"
  | .int h d => debugType "Int" h d.debug
  | .typedef h d => debugType "Typedef" h d.debug
  | .enum h d => debugType "Enum" h d.debug
  | .ptr h d => debugType "Ptr" h d.debug
  | .const h d => debugType "Const" h d.debug
  | .volatile h d => debugType "Volatile" h d.debug
  | .array h d => debugType "Array" h d.debug
  | .funcProto h d => debugType "FuncProto" h d.debug
  | .struct h d => debugType "Struct" h d.debug
  | .union h d => debugType "Union" h d.debug
  | .fwd h d => debugType "Fwd" h d.debug
  | .var h d => debugType "Var" h d.debug
  | .enum64 h d => debugType "Enum64" h d.debug
  | .func h d => debugType "Func" h d.debug
  | .float h d => debugType "Float" h d.debug
  | .restrict h d => debugType "Restrict" h d.debug
  | .dataSec h d => debugType "DataSec" h d.debug
  | .typeTag h d => debugType "TypeTag" h d.debug
  | .declTag h d => debugType "DeclTag" h d.debug

/-- The `Debug` of the `BTreeMap` returned by `get` (std, at examples/dump-btf.rs:45). -/
def debugMap (l : List (UInt32 × TypeVariant)) : Str :=
  str "{" ++ commas (l.map fun p => debugNat p.1.toNat ++ str ": " ++ p.2.debug) ++ str "}"

namespace Examples

/-- The text of a `println!` without the newline (examples/dump-btf.rs:36, 41, 45; examples/get-type-size.rs:36, 43, 50;
examples/get-type-offset.rs:36, 44, 52). `usage` is the text of the usage, which is different in the three programs;
`path` is the `Debug` of a `Path`, which is not modelled. -/
def Line.text (usage : Str) (path : String → Str) : Line → Str
  | .usage => usage
  | .opening p => str "Opening BTF file: " ++ path p
  | .types l => debugMap l
  | .size name t n => str "Type " ++ str name ++ str " has ID " ++ debugNat t.toNat ++ str " and requires " ++ debugNat n ++
      str " bytes in total"
  | .offset name p t o => str name ++ str " => " ++ str p ++ str ": " ++ debugTuple "" [debugNat t.toNat, o.debug]

/-- What a run writes to the standard output (`println!` at examples/dump-btf.rs:36-45): lines. -/
def Run.stdout (usage : Str) (path : String → Str) (r : Run) : Str :=
  r.printed.flatMap fun l => l.text usage path ++ [10]

/-- The usage of dump-btf (examples/dump-btf.rs:36). -/
def dumpUsage : Str := str "Usage:\n\tdump-btf /path/to/btf/file\n"

/-- The usage of get-type-size (examples/get-type-size.rs:36). -/
def sizeUsage : Str := str "Usage:\n\tget-type-size /path/to/btf/file <type_name>\n"

/-- The usage of get-type-offset (examples/get-type-offset.rs:36). -/
def offsetUsage : Str := str "Usage:\n\tget-type-offset /path/to/btf/file <type_name> <path>\n"

end Examples

end Btf

import Verif.Model.Reader
import Verif.Model.Offset

/-!
# The parsed data: src/btf/file_header.rs, src/btf/kind.rs, src/btf/header.rs and the per-kind `Data`
structures
-/

namespace Btf

/-- `FileHeader` (src/btf/file_header.rs:21-42). -/
structure FileHeader where
  version : UInt8
  flags : UInt8
  hdrLen : UInt32
  typeOff : UInt32
  typeLen : UInt32
  strOff : UInt32
  strLen : UInt32
  deriving DecidableEq, Repr

/-- `Header` (src/btf/header.rs:19-34). `vlen` is a `usize`. -/
structure Header where
  kind : Kind
  nameOffset : UInt32
  vlen : Nat
  kindFlag : Bool
  sizeOrType : UInt32
  deriving DecidableEq, Repr

/-- src/btf/int.rs:20-41 -/
structure IntData where
  name : Option Str
  size : Nat
  signed : Bool
  char : Bool
  boolean : Bool
  offset : Nat
  bits : Nat
  deriving DecidableEq, Repr

/-- `Data` of the kinds that carry only a type id: src/btf/ptr.rs:20-23, const.rs:20-23,
volatile.rs:20-23, restrict.rs:20-23 -/
structure TidData where
  tid : UInt32
  deriving DecidableEq, Repr

/-- `Data` of the kinds that carry a name and a type id: src/btf/typedef.rs:20-26,
type_tag.rs:20-26, fwd.rs:20-26 -/
structure NamedTidData where
  name : Option Str
  tid : UInt32
  deriving DecidableEq, Repr

/-- src/btf/func.rs:20-26 -/
structure FuncData where
  name : Option Str
  prototypeTid : UInt32
  deriving DecidableEq, Repr

/-- src/btf/float.rs:20-26 -/
structure FloatData where
  name : Option Str
  size : Nat
  deriving DecidableEq, Repr

/-- src/btf/array.rs:23-32 -/
structure ArrayData where
  elementTid : UInt32
  indexTid : UInt32
  elementCount : UInt32
  deriving DecidableEq, Repr

/-- `Member` (src/btf/struct_union.rs:23-35) -/
structure Member where
  nameOffset : UInt32
  name : Option Str
  tid : UInt32
  offset : Offset
  deriving DecidableEq, Repr

/-- src/btf/struct_union.rs:75-84, shared by `Struct` and `Union` -/
structure StructData where
  name : Option Str
  size : Nat
  memberList : List Member
  deriving DecidableEq, Repr

/-- `Integer32Value` (src/btf/enum.rs:23-29) -/
inductive Integer32Value where
  | signed (v : Int32)
  | unsigned (v : UInt32)
  deriving DecidableEq

/-- `NamedValue32` (src/btf/enum.rs:33-39) -/
structure NamedValue32 where
  name : Str
  value : Integer32Value
  deriving DecidableEq

/-- src/btf/enum.rs:46-58 -/
structure EnumData where
  name : Option Str
  size : Nat
  namedValueList : List NamedValue32
  signed : Bool
  deriving DecidableEq

/-- `Integer64Value` (src/btf/enum64.rs:23-29) -/
inductive Integer64Value where
  | signed (v : Int64)
  | unsigned (v : UInt64)
  deriving DecidableEq

/-- `NamedValue64` (src/btf/enum64.rs:33-39) -/
structure NamedValue64 where
  name : Str
  value : Integer64Value
  deriving DecidableEq

/-- src/btf/enum64.rs:46-58 -/
structure Enum64Data where
  name : Option Str
  size : Nat
  namedValueList : List NamedValue64
  signed : Bool
  deriving DecidableEq

/-- `Parameter` (src/btf/func_proto.rs:23-32) -/
structure Parameter where
  nameOffset : UInt32
  name : Option Str
  tid : UInt32
  deriving DecidableEq, Repr

/-- src/btf/func_proto.rs:56-62 -/
structure FuncProtoData where
  parameterList : List Parameter
  returnTid : UInt32
  deriving DecidableEq, Repr

/-- `LinkageType` (src/btf/var.rs:20-23) -/
inductive LinkageType where
  | static
  | global
  deriving DecidableEq, Repr

/-- src/btf/var.rs:27-39 -/
structure VarData where
  name : Option Str
  tid : UInt32
  linkage : UInt32
  linkageType : LinkageType
  deriving DecidableEq, Repr

/-- `Variable` (src/btf/data_sec.rs:23-32) -/
structure Variable where
  varDeclId : UInt32
  offset : UInt32
  varSize : UInt32
  deriving DecidableEq, Repr

/-- src/btf/data_sec.rs:39-48 -/
structure DataSecData where
  name : Option Str
  size : Nat
  variableList : List Variable
  deriving DecidableEq, Repr

/-- src/btf/decl_tag.rs:20-29 -/
structure DeclTagData where
  name : Option Str
  tid : UInt32
  componentIndex : UInt32
  deriving DecidableEq, Repr

/-- `TypeVariant` (src/btf/type_information.rs:26-86). Each variant holds the struct generated by
`define_type!` (src/btf/define_type.rs:14-20): the type header and the kind's data. -/
inductive TypeVariant where
  | void
  | int (h : Header) (d : IntData)
  | typedef (h : Header) (d : NamedTidData)
  | enum (h : Header) (d : EnumData)
  | ptr (h : Header) (d : TidData)
  | const (h : Header) (d : TidData)
  | volatile (h : Header) (d : TidData)
  | array (h : Header) (d : ArrayData)
  | funcProto (h : Header) (d : FuncProtoData)
  | struct (h : Header) (d : StructData)
  | union (h : Header) (d : StructData)
  | fwd (h : Header) (d : NamedTidData)
  | var (h : Header) (d : VarData)
  | enum64 (h : Header) (d : Enum64Data)
  | func (h : Header) (d : FuncData)
  | float (h : Header) (d : FloatData)
  | restrict (h : Header) (d : TidData)
  | dataSec (h : Header) (d : DataSecData)
  | typeTag (h : Header) (d : NamedTidData)
  | declTag (h : Header) (d : DeclTagData)
  deriving DecidableEq

/-- `get_type_enum_value_name` (src/btf/type_information.rs:89-113). -/
def getTypeEnumValueName : TypeVariant → Option Str
  | .void => some (str "void")
  | .int _ d => d.name
  | .typedef _ d => d.name
  | .enum _ d => d.name
  | .struct _ d => d.name
  | .union _ d => d.name
  | .fwd _ d => d.name
  | .var _ d => d.name
  | .enum64 _ d => d.name
  | .func _ d => d.name
  | .float _ d => d.name
  | .dataSec _ d => d.name
  | .typeTag _ d => d.name
  | .declTag _ d => d.name
  | .ptr _ _ => none
  | .const _ _ => none
  | .volatile _ _ => none
  | .array _ _ => none
  | .funcProto _ _ => none
  | .restrict _ _ => none

end Btf

import Verif.Model.Basic

/-!
# Error messages of `TypeInformation::new`: src/btf/file_header.rs:109-112, kind.rs:96-99, header.rs:43-62,
string.rs:24-61, define_type.rs:55-81, struct_union.rs:116-119, type_information.rs:443-455

The errors are distinguished by the place where they are made; `message` gives the texts.
-/

namespace Btf

/-- `Kind` (src/btf/kind.rs:13-70). -/
inductive Kind where
  | Int | Ptr | Array | Struct | Union | Enum | Fwd | Typedef | Volatile | Const | Restrict
  | Func | FuncProto | Var | DataSec | Float | DeclTag | TypeTag | Enum64
  deriving DecidableEq, Repr

/-- The derived `Debug` of `Kind` (src/btf/kind.rs:12-70): the name of the variant. -/
def Kind.debug : Kind → Str
  | .Int => str "Int"
  | .Ptr => str "Ptr"
  | .Array => str "Array"
  | .Struct => str "Struct"
  | .Union => str "Union"
  | .Enum => str "Enum"
  | .Fwd => str "Fwd"
  | .Typedef => str "Typedef"
  | .Volatile => str "Volatile"
  | .Const => str "Const"
  | .Restrict => str "Restrict"
  | .Func => str "Func"
  | .FuncProto => str "FuncProto"
  | .Var => str "Var"
  | .DataSec => str "DataSec"
  | .Float => str "Float"
  | .DeclTag => str "DeclTag"
  | .TypeTag => str "TypeTag"
  | .Enum64 => str "Enum64"

/-- The places where `TypeInformation::new` makes an error (src/btf/file_header.rs:109-112, kind.rs:96-99,
header.rs:43-62, string.rs:24-61, define_type.rs:55-81, struct_union.rs:116-119, type_information.rs:443-455);
`source` is an error of the `Readable`, passed on (src/utils/reader.rs:66). -/
inductive LoadReason where
  | source (e : Error)
  | invalidMagic (value : UInt16)
  | typeSectionStart
  | typeSectionEnd
  | typeSectionOffset
  | invalidKind (value : UInt32)
  | wrongKind (found expected : Kind)
  | stringSectionStart
  | stringSectionEnd
  | stringOverflow
  | stringOffset (start : UInt32)
  | unterminated (start : UInt32)
  | unaligned
  deriving DecidableEq, Repr

/-- The hexadecimal digit of a number below 16 as written by `{:X}` (std, at src/btf/file_header.rs:111, kind.rs:98,
string.rs:49, 60). -/
def hexDigit (n : Nat) : UInt8 := UInt8.ofNat (if n < 10 then 48 + n else 55 + n)

/-- A number as written by `{:0wX}` (std, at src/btf/file_header.rs:111, kind.rs:98, string.rs:49, 60): at least `w`
hexadecimal digits, and more if necessary. The first argument bounds the number of digits. -/
def hexLoop : Nat → Nat → Nat → Str
  | 0, _, _ => []
  | fuel + 1, w, n => if w = 0 ∧ n = 0 then [] else hexLoop fuel (w - 1) (n / 16) ++ [hexDigit (n % 16)]

/-- See `hexLoop`; 32-bit numbers have at most 8 digits, and `w` is 4 or 8 (src/btf/file_header.rs:111, kind.rs:98,
string.rs:49, 60). -/
def hex (w n : Nat) : Str := hexLoop 8 w n

namespace LoadReason

/-- The `kind` given to `BTFError::new` (src/btf/file_header.rs:110, kind.rs:97, header.rs:44, 53, 60,
string.rs:25, 34, 42, 48, 59, define_type.rs:56, 72, 79, struct_union.rs:117, type_information.rs:444, 453). -/
def kind : LoadReason → ErrorKind
  | source e => e.kind
  | invalidMagic _ => .InvalidMagic
  | typeSectionStart => .InvalidTypeSectionOffset
  | typeSectionEnd => .InvalidTypeSectionOffset
  | typeSectionOffset => .InvalidTypeSectionOffset
  | invalidKind _ => .InvalidBTFKind
  | wrongKind _ _ => .InvalidBTFKind
  | stringSectionStart => .InvalidStringOffset
  | stringSectionEnd => .InvalidStringOffset
  | stringOverflow => .InvalidStringOffset
  | stringOffset _ => .InvalidStringOffset
  | unterminated _ => .InvalidString
  | unaligned => .InvalidOffset

/-- The `message` given to `BTFError::new` (src/btf/file_header.rs:111, kind.rs:98, header.rs:45, 54, 61,
string.rs:26, 35, 42, 49, 60, define_type.rs:57-61, 73, 80, struct_union.rs:118, type_information.rs:445, 454). -/
def message : LoadReason → Str
  | source e => e.message
  | invalidMagic v => str "Invalid magic number: 0x" ++ hex 4 v.toNat
  | typeSectionStart => str "Type section start offset overflow"
  | typeSectionEnd => str "Type section end offset overflow"
  | typeSectionOffset => str "Invalid type section offset"
  | invalidKind v => str "Invalid BTF kind value: 0x" ++ hex 4 v.toNat
  | wrongKind found expected => str "Invalid type kind: " ++ found.debug ++ str " (expected " ++ expected.debug ++ str ")"
  | stringSectionStart => str "String section start offset overflow"
  | stringSectionEnd => str "String section end offset overflow"
  | stringOverflow => str "String offset overflow"
  | stringOffset start => str "Invalid string offset 0x" ++ hex 8 start.toNat
  | unterminated start => str "String at offset 0x" ++ hex 8 start.toNat ++ str " is not correctly null terminated"
  | unaligned => str "Unaligned bit offset for struct/union member with kind_flag=false"

/-- The error (`Error::new`, src/btf/error.rs:71-77). -/
def error (r : LoadReason) : Error := ⟨r.kind, r.message⟩

end LoadReason

end Btf

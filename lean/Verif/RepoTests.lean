import Verif.Model.TypeInfo
import Verif.Model.Buffer

/-!
# Tests of the model (not proofs)

The literals of the crate's own unit tests, evaluated on the model, to check the reading of the code.
Generated by `tools/gen_tests.py`.
-/

namespace Btf.RepoTests

def dbg : Cfg := { width := .w64, overflowChecks := true }
def rel : Cfg := { width := .w64, overflowChecks := false }

/-- `new` on a `ReadableBuffer` reports exactly the type `t`, in both builds. -/
def parsesTo (bytes : List UInt8) (t : TypeVariant) : Bool :=
  [dbg, rel].all fun cfg =>
    match TypeInformation.new cfg (readableBuffer cfg bytes) with
    | .ok ti => decide (ti.get = [(1, t)])
    | _ => false

/-- `new` on a `ReadableBuffer` fails with `e`. -/
def failsWith (bytes : List UInt8) (e : ErrorKind) : Bool :=
  [dbg, rel].all fun cfg =>
    match TypeInformation.new cfg (readableBuffer cfg bytes) with
    | .err e' => decide (e' = e)
    | _ => false

-- src/btf/array.rs:71
example : parsesTo [
    159, 235, 1, 0, 24, 0, 0, 0, 0, 0, 0, 0, 24, 0, 0, 0, 24, 0, 0, 0, 1, 0, 0, 0, 0, 0, 0, 0, 0, 0, 0, 3,
    0, 0, 0, 0, 5, 0, 0, 0, 6, 0, 0, 0, 7, 0, 0, 0, 0]
    (.array { kind := .Array, nameOffset := 0, vlen := 0, kindFlag := false, sizeOrType := 0 } { elementTid := 5, indexTid := 6, elementCount := 7 }) = true := by decide +kernel

-- src/btf/const.rs:52
example : parsesTo [
    159, 235, 1, 0, 24, 0, 0, 0, 0, 0, 0, 0, 12, 0, 0, 0, 12, 0, 0, 0, 1, 0, 0, 0, 0, 0, 0, 0, 0, 0, 0, 10,
    3, 0, 0, 0, 0]
    (.const { kind := .Const, nameOffset := 0, vlen := 0, kindFlag := false, sizeOrType := 3 } { tid := 3 }) = true := by decide +kernel

-- src/btf/data_sec.rs:105
example : parsesTo [
    159, 235, 1, 0, 24, 0, 0, 0, 0, 0, 0, 0, 36, 0, 0, 0, 36, 0, 0, 0, 10, 0, 0, 0, 1, 0, 0, 0, 2, 0, 0, 15,
    4, 0, 0, 0, 5, 0, 0, 0, 4, 0, 0, 0, 8, 0, 0, 0, 5, 0, 0, 0, 8, 0, 0, 0, 8, 0, 0, 0, 0, 118, 97, 114, 95,
    110, 97, 109, 101, 0]
    (.dataSec { kind := .DataSec, nameOffset := 1, vlen := 2, kindFlag := false, sizeOrType := 4 } { name := some (str "var_name"), size := 4, variableList := [⟨5, 4, 8⟩, ⟨5, 8, 8⟩] }) = true := by decide +kernel

-- src/btf/decl_tag.rs:76
example : parsesTo [
    159, 235, 1, 0, 24, 0, 0, 0, 0, 0, 0, 0, 16, 0, 0, 0, 16, 0, 0, 0, 10, 0, 0, 0, 1, 0, 0, 0, 0, 0, 0, 17,
    4, 0, 0, 0, 16, 0, 0, 0, 0, 100, 101, 99, 108, 95, 116, 97, 103, 0]
    (.declTag { kind := .DeclTag, nameOffset := 1, vlen := 0, kindFlag := false, sizeOrType := 4 } { name := some (str "decl_tag"), tid := 4, componentIndex := 16 }) = true := by decide +kernel

-- src/btf/enum.rs:123
example : parsesTo [
    159, 235, 1, 0, 24, 0, 0, 0, 0, 0, 0, 0, 28, 0, 0, 0, 28, 0, 0, 0, 22, 0, 0, 0, 1, 0, 0, 0, 2, 0, 0, 6,
    4, 0, 0, 0, 7, 0, 0, 0, 254, 0, 0, 0, 14, 0, 0, 0, 254, 0, 0, 0, 0, 83, 116, 97, 116, 101, 0, 80, 97,
    117, 115, 101, 100, 0, 82, 117, 110, 110, 105, 110, 103, 0]
    (.enum { kind := .Enum, nameOffset := 1, vlen := 2, kindFlag := false, sizeOrType := 4 } { name := some (str "State"), size := 4, signed := false, namedValueList := [⟨str "Paused", .unsigned 254⟩, ⟨str "Running", .unsigned 254⟩] }) = true := by decide +kernel

-- src/btf/enum.rs:180
example : parsesTo [
    159, 235, 1, 0, 24, 0, 0, 0, 0, 0, 0, 0, 28, 0, 0, 0, 28, 0, 0, 0, 22, 0, 0, 0, 1, 0, 0, 0, 2, 0, 0,
    134, 4, 0, 0, 0, 7, 0, 0, 0, 254, 0, 0, 0, 14, 0, 0, 0, 254, 0, 0, 0, 0, 83, 116, 97, 116, 101, 0, 80,
    97, 117, 115, 101, 100, 0, 82, 117, 110, 110, 105, 110, 103, 0]
    (.enum { kind := .Enum, nameOffset := 1, vlen := 2, kindFlag := true, sizeOrType := 4 } { name := some (str "State"), size := 4, signed := true, namedValueList := [⟨str "Paused", .signed 254⟩, ⟨str "Running", .signed 254⟩] }) = true := by decide +kernel

-- src/btf/enum64.rs:123
example : parsesTo [
    159, 235, 1, 0, 24, 0, 0, 0, 0, 0, 0, 0, 36, 0, 0, 0, 36, 0, 0, 0, 22, 0, 0, 0, 1, 0, 0, 0, 2, 0, 0, 19,
    8, 0, 0, 0, 7, 0, 0, 0, 254, 0, 0, 0, 0, 0, 0, 0, 14, 0, 0, 0, 254, 0, 0, 0, 0, 0, 0, 0, 0, 83, 116, 97,
    116, 101, 0, 80, 97, 117, 115, 101, 100, 0, 82, 117, 110, 110, 105, 110, 103, 0]
    (.enum64 { kind := .Enum64, nameOffset := 1, vlen := 2, kindFlag := false, sizeOrType := 8 } { name := some (str "State"), size := 8, signed := false, namedValueList := [⟨str "Paused", .unsigned 254⟩, ⟨str "Running", .unsigned 254⟩] }) = true := by decide +kernel

-- src/btf/enum64.rs:180
example : parsesTo [
    159, 235, 1, 0, 24, 0, 0, 0, 0, 0, 0, 0, 36, 0, 0, 0, 36, 0, 0, 0, 22, 0, 0, 0, 1, 0, 0, 0, 2, 0, 0,
    147, 8, 0, 0, 0, 7, 0, 0, 0, 254, 0, 0, 0, 0, 0, 0, 0, 14, 0, 0, 0, 254, 0, 0, 0, 0, 0, 0, 0, 0, 83,
    116, 97, 116, 101, 0, 80, 97, 117, 115, 101, 100, 0, 82, 117, 110, 110, 105, 110, 103, 0]
    (.enum64 { kind := .Enum64, nameOffset := 1, vlen := 2, kindFlag := true, sizeOrType := 8 } { name := some (str "State"), size := 8, signed := true, namedValueList := [⟨str "Paused", .signed 254⟩, ⟨str "Running", .signed 254⟩] }) = true := by decide +kernel

-- src/btf/float.rs:64
example : parsesTo [
    159, 235, 1, 0, 24, 0, 0, 0, 0, 0, 0, 0, 12, 0, 0, 0, 12, 0, 0, 0, 7, 0, 0, 0, 1, 0, 0, 0, 0, 0, 0, 16,
    3, 0, 0, 0, 0, 102, 108, 111, 97, 116, 0]
    (.float { kind := .Float, nameOffset := 1, vlen := 0, kindFlag := false, sizeOrType := 3 } { name := some (str "float"), size := 3 }) = true := by decide +kernel

-- src/btf/func.rs:66
example : parsesTo [
    159, 235, 1, 0, 24, 0, 0, 0, 0, 0, 0, 0, 12, 0, 0, 0, 12, 0, 0, 0, 6, 0, 0, 0, 1, 0, 0, 0, 0, 0, 0, 12,
    3, 0, 0, 0, 0, 101, 120, 105, 116, 0]
    (.func { kind := .Func, nameOffset := 1, vlen := 0, kindFlag := false, sizeOrType := 3 } { name := some (str "exit"), prototypeTid := 3 }) = true := by decide +kernel

-- src/btf/func_proto.rs:111
example : parsesTo [
    159, 235, 1, 0, 24, 0, 0, 0, 0, 0, 0, 0, 28, 0, 0, 0, 28, 0, 0, 0, 15, 0, 0, 0, 0, 0, 0, 0, 2, 0, 0, 13,
    5, 0, 0, 0, 1, 0, 0, 0, 2, 0, 0, 0, 8, 0, 0, 0, 3, 0, 0, 0, 0, 112, 97, 114, 97, 109, 49, 0, 112, 97,
    114, 97, 109, 50, 0]
    (.funcProto { kind := .FuncProto, nameOffset := 0, vlen := 2, kindFlag := false, sizeOrType := 5 } { returnTid := 5, parameterList := [⟨1, some (str "param1"), 2⟩, ⟨8, some (str "param2"), 3⟩] }) = true := by decide +kernel

-- src/btf/fwd.rs:68
example : parsesTo [
    159, 235, 1, 0, 24, 0, 0, 0, 0, 0, 0, 0, 12, 0, 0, 0, 12, 0, 0, 0, 6, 0, 0, 0, 1, 0, 0, 0, 0, 0, 0, 7,
    3, 0, 0, 0, 0, 101, 120, 105, 116, 0]
    (.fwd { kind := .Fwd, nameOffset := 1, vlen := 0, kindFlag := false, sizeOrType := 3 } { name := some (str "exit"), tid := 3 }) = true := by decide +kernel

-- src/btf/int.rs:99
example : parsesTo [
    159, 235, 1, 0, 24, 0, 0, 0, 0, 0, 0, 0, 16, 0, 0, 0, 16, 0, 0, 0, 14, 0, 0, 0, 1, 0, 0, 0, 0, 0, 0, 1,
    4, 0, 0, 0, 16, 0, 8, 0, 0, 117, 110, 115, 105, 103, 110, 101, 100, 32, 105, 110, 116, 0]
    (.int { kind := .Int, nameOffset := 1, vlen := 0, kindFlag := false, sizeOrType := 4 } { name := some (str "unsigned int"), size := 4, signed := false, boolean := false, char := false, offset := 8, bits := 16 }) = true := by decide +kernel

-- src/btf/int.rs:142
example : parsesTo [
    159, 235, 1, 0, 24, 0, 0, 0, 0, 0, 0, 0, 16, 0, 0, 0, 16, 0, 0, 0, 6, 0, 0, 0, 1, 0, 0, 0, 0, 0, 0, 1,
    1, 0, 0, 0, 8, 0, 0, 2, 0, 99, 104, 97, 114, 0]
    (.int { kind := .Int, nameOffset := 1, vlen := 0, kindFlag := false, sizeOrType := 1 } { name := some (str "char"), size := 1, signed := false, boolean := false, char := true, offset := 0, bits := 8 }) = true := by decide +kernel

-- src/btf/int.rs:184
example : parsesTo [
    159, 235, 1, 0, 24, 0, 0, 0, 0, 0, 0, 0, 16, 0, 0, 0, 16, 0, 0, 0, 5, 0, 0, 0, 1, 0, 0, 0, 0, 0, 0, 1,
    1, 0, 0, 0, 8, 0, 0, 1, 0, 105, 110, 116, 0]
    (.int { kind := .Int, nameOffset := 1, vlen := 0, kindFlag := false, sizeOrType := 1 } { name := some (str "int"), size := 1, signed := true, boolean := false, char := false, offset := 0, bits := 8 }) = true := by decide +kernel

-- src/btf/int.rs:226
example : parsesTo [
    159, 235, 1, 0, 24, 0, 0, 0, 0, 0, 0, 0, 16, 0, 0, 0, 16, 0, 0, 0, 6, 0, 0, 0, 1, 0, 0, 0, 0, 0, 0, 1,
    1, 0, 0, 0, 8, 0, 0, 4, 0, 98, 111, 111, 108, 0]
    (.int { kind := .Int, nameOffset := 1, vlen := 0, kindFlag := false, sizeOrType := 1 } { name := some (str "bool"), size := 1, signed := false, boolean := true, char := false, offset := 0, bits := 8 }) = true := by decide +kernel

-- src/btf/type_tag.rs:66
example : parsesTo [
    159, 235, 1, 0, 24, 0, 0, 0, 0, 0, 0, 0, 12, 0, 0, 0, 12, 0, 0, 0, 6, 0, 0, 0, 1, 0, 0, 0, 0, 0, 0, 18,
    3, 0, 0, 0, 0, 105, 110, 116, 0]
    (.typeTag { kind := .TypeTag, nameOffset := 1, vlen := 0, kindFlag := false, sizeOrType := 3 } { name := some (str "int"), tid := 3 }) = true := by decide +kernel

-- src/btf/var.rs:92
example : parsesTo [
    159, 235, 1, 0, 24, 0, 0, 0, 0, 0, 0, 0, 16, 0, 0, 0, 16, 0, 0, 0, 12, 0, 0, 0, 1, 0, 0, 0, 0, 0, 0, 14,
    5, 0, 0, 0, 1, 0, 0, 0, 0, 115, 116, 97, 116, 105, 99, 95, 118, 97, 114, 0]
    (.var { kind := .Var, nameOffset := 1, vlen := 0, kindFlag := false, sizeOrType := 5 } { name := some (str "static_var"), tid := 5, linkage := 1, linkageType := .global }) = true := by decide +kernel

-- src/btf/ptr.rs:52
example : parsesTo [
    159, 235, 1, 0, 24, 0, 0, 0, 0, 0, 0, 0, 12, 0, 0, 0, 12, 0, 0, 0, 1, 0, 0, 0, 0, 0, 0, 0, 0, 0, 0, 2,
    3, 0, 0, 0, 0]
    (.ptr { kind := .Ptr, nameOffset := 0, vlen := 0, kindFlag := false, sizeOrType := 3 } { tid := 3 }) = true := by decide +kernel

-- src/btf/restrict.rs:52
example : parsesTo [
    159, 235, 1, 0, 24, 0, 0, 0, 0, 0, 0, 0, 12, 0, 0, 0, 12, 0, 0, 0, 1, 0, 0, 0, 0, 0, 0, 0, 0, 0, 0, 11,
    3, 0, 0, 0, 0]
    (.restrict { kind := .Restrict, nameOffset := 0, vlen := 0, kindFlag := false, sizeOrType := 3 } { tid := 3 }) = true := by decide +kernel

-- src/btf/volatile.rs:52
example : parsesTo [
    159, 235, 1, 0, 24, 0, 0, 0, 0, 0, 0, 0, 12, 0, 0, 0, 12, 0, 0, 0, 1, 0, 0, 0, 0, 0, 0, 0, 0, 0, 0, 9,
    3, 0, 0, 0, 0]
    (.volatile { kind := .Volatile, nameOffset := 0, vlen := 0, kindFlag := false, sizeOrType := 3 } { tid := 3 }) = true := by decide +kernel

-- src/btf/typedef.rs:66
example : parsesTo [
    159, 235, 1, 0, 24, 0, 0, 0, 0, 0, 0, 0, 12, 0, 0, 0, 12, 0, 0, 0, 7, 0, 0, 0, 1, 0, 0, 0, 0, 0, 0, 8,
    0, 0, 0, 0, 0, 118, 111, 105, 100, 42, 0]
    (.typedef { kind := .Typedef, nameOffset := 1, vlen := 0, kindFlag := false, sizeOrType := 0 } { name := some (str "void*"), tid := 0 }) = true := by decide +kernel

-- src/btf/type_information.rs:1558
example : failsWith [
    159, 235, 1, 0, 255, 255, 255, 127, 255, 255, 255, 127, 1, 0, 0, 0, 0, 0, 0, 0, 1, 0, 0, 0]
    .InvalidTypeSectionOffset = true := by decide +kernel

-- src/btf/type_information.rs:1582
example : failsWith [
    159, 235, 1, 0, 24, 0, 0, 0, 0, 0, 0, 255, 255, 255, 255, 1, 0, 0, 0, 0, 1, 0, 0, 0]
    .InvalidTypeSectionOffset = true := by decide +kernel

/-- src/btf/type_information.rs:835-1309 -/
def types : List (UInt32 × TypeVariant) := [
  (1, .int ⟨.Int, 1, 0, false, 4⟩ { name := some (str "unsigned int"), size := 4, signed := false, char := false, boolean := false, offset := 0, bits := 32 }),
  (2, .ptr ⟨.Ptr, 0, 0, false, 6⟩ { tid := 6 }),
  (3, .array ⟨.Array, 0, 0, false, 0⟩ { elementTid := 1, indexTid := 1, elementCount := 10 }),
  (4, .struct ⟨.Struct, 0, 2, false, 8⟩ { name := none, size := 8, memberList := [⟨1, some (str "anon_struct_value1"), 1, .byteOffset 0⟩, ⟨1, some (str "anon_struct_value2"), 1, .byteOffset 32⟩] }),
  (5, .union ⟨.Union, 0, 2, true, 8⟩ { name := none, size := 8, memberList := [⟨1, some (str "anon_union_value1"), 1, .byteOffset 0⟩, ⟨1, some (str "anon_union_value2"), 2, .byteOffset 0⟩] }),
  (6, .struct ⟨.Struct, 1, 4, false, 28⟩ { name := some (str "Struct"), size := 28, memberList := [⟨0, none, 4, .byteOffset 0⟩, ⟨0, none, 5, .byteOffset 64⟩, ⟨1, some (str "int_value"), 1, .byteOffset 128⟩, ⟨1, some (str "ptr_value"), 2, .byteOffset 160⟩] }),
  (7, .struct ⟨.Struct, 1, 2, false, 16⟩ { name := some (str "list_head"), size := 16, memberList := [⟨1, some (str "next"), 2, .byteOffset 0⟩, ⟨1, some (str "prev"), 2, .byteOffset 64⟩] }),
  (8, .enum ⟨.Enum, 1, 2, false, 4⟩ { name := some (str "Enum32"), size := 4, namedValueList := [⟨str "Enum32Value1", .unsigned 0⟩], signed := false }),
  (9, .enum64 ⟨.Enum64, 1, 2, false, 8⟩ { name := some (str "Enum64"), size := 8, namedValueList := [⟨str "Enum64Value1", .unsigned 0⟩], signed := false }),
  (10, .fwd ⟨.Fwd, 1, 0, false, 6⟩ { name := some (str "Fwd"), tid := 6 }),
  (11, .typedef ⟨.Typedef, 1, 2, false, 6⟩ { tid := 6, name := some (str "StructAlias") }),
  (12, .volatile ⟨.Volatile, 0, 0, false, 6⟩ { tid := 6 }),
  (13, .const ⟨.Const, 0, 0, false, 6⟩ { tid := 6 }),
  (14, .restrict ⟨.Restrict, 0, 0, false, 6⟩ { tid := 6 }),
  (15, .func ⟨.Func, 1, 0, false, 16⟩ { name := some (str "func"), prototypeTid := 16 }),
  (16, .funcProto ⟨.FuncProto, 0, 0, false, 1⟩ { returnTid := 1, parameterList := [] }),
  (17, .var ⟨.Var, 1, 0, false, 1⟩ { name := some (str "var"), tid := 1, linkage := 0, linkageType := .global }),
  (18, .dataSec ⟨.DataSec, 1, 3, false, 12⟩ { name := some (str ".data"), size := 12, variableList := [⟨17, 0, 4⟩, ⟨17, 4, 4⟩, ⟨17, 8, 4⟩] }),
  (19, .float ⟨.Float, 1, 0, false, 8⟩ { name := some (str "double"), size := 8 }),
  (20, .declTag ⟨.DeclTag, 1, 0, false, 6⟩ { name := some (str "decl_tag"), tid := 6, componentIndex := 0 }),
  (21, .typeTag ⟨.TypeTag, 1, 0, false, 11⟩ { name := some (str "type_tag"), tid := 11 }),
  (100, .int ⟨.Int, 1, 0, false, 8⟩ { name := some (str "unsigned long int"), size := 8, signed := false, char := false, boolean := false, offset := 0, bits := 64 }),
  (101, .struct ⟨.Struct, 0, 2, false, 8⟩ { name := none, size := 8, memberList := [⟨1, some (str "hash"), 1, .byteOffset 0⟩, ⟨1, some (str "len"), 1, .byteOffset 4⟩] }),
  (102, .union ⟨.Union, 0, 2, false, 8⟩ { name := none, size := 8, memberList := [⟨0, none, 101, .byteOffset 0⟩, ⟨1, some (str "hash_len"), 100, .byteOffset 0⟩] }),
  (103, .struct ⟨.Struct, 1, 2, false, 8⟩ { name := some (str "qstr"), size := 8, memberList := [⟨0, none, 102, .byteOffset 0⟩, ⟨1, some (str "name"), 100, .byteOffset 8⟩] }),
  (104, .struct ⟨.Struct, 1, 3, false, 16⟩ { name := some (str "dentry"), size := 8, memberList := [⟨1, some (str "test1"), 1, .byteOffset 0⟩, ⟨1, some (str "d_name"), 103, .byteOffset 32⟩, ⟨1, some (str "test2"), 1, .byteOffset 256⟩] }),
  (200, .int ⟨.Int, 1, 0, false, 0x10000000⟩ { name := some (str "huge_int"), size := 268435456, signed := false, char := false, boolean := false, offset := 0, bits := 32 }),
  (201, .array ⟨.Array, 0, 0, false, 0⟩ { elementTid := 200, indexTid := 200, elementCount := 100 })]

def names : List (Str × UInt32) := [
  (str "unsigned int", 1),
  (str "Struct", 6),
  (str "list_head", 7),
  (str "Enum32", 8),
  (str "Enum64", 9),
  (str "StructForwardDecl", 10),
  (str "StructAlias", 11),
  (str "func", 15),
  (str "var", 17),
  (str ".data", 18),
  (str "double", 19),
  (str "decl_tag", 20),
  (str "type_tag", 21)]

def ids : List (UInt32 × Str) := [
  (1, str "unsigned int"),
  (6, str "Struct"),
  (7, str "list_head"),
  (8, str "Enum32"),
  (9, str "Enum64"),
  (10, str "StructForwardDecl"),
  (11, str "StructAlias"),
  (15, str "func"),
  (17, str "var"),
  (18, str ".data"),
  (19, str "double"),
  (20, str "decl_tag"),
  (21, str "type_tag")]

def ti : TypeInformation :=
  { idToType := types.foldl (fun m p => m.insert p.1 p.2) Map.empty
    nameToId := names.foldl (fun m p => m.insert p.1 p.2) Map.empty
    idToName := ids.foldl (fun m p => m.insert p.1 p.2) Map.empty }

/-- All calls below get the same, generous recursion bound. -/
def size (t : UInt32) : Outcome Nat := ti.sizeOf dbg 50 t
def off (t : UInt32) (p : String) : Outcome (UInt32 × Offset) := ti.offsetOf dbg 50 t (str p)

-- src/btf/type_information.rs:1311
example : ti.nameOf 0 = some (str "void") := by decide +kernel
example : size 0 = .err .NotSized := by decide +kernel
example : size 1 = .ok 4 := by decide +kernel
example : size 2 = .ok 8 := by decide +kernel
example : size 3 = .ok 40 := by decide +kernel
example : size 4 = .ok 8 := by decide +kernel
example : size 5 = .ok 8 := by decide +kernel
example : size 6 = .ok 28 := by decide +kernel
example : size 7 = .ok 16 := by decide +kernel
example : size 8 = .ok 4 := by decide +kernel
example : size 9 = .ok 8 := by decide +kernel
example : ti.nameOf 10 = some (str "StructForwardDecl") := by decide +kernel
example : size 10 = .err .NotSized := by decide +kernel
example : size 11 = .ok 28 := by decide +kernel
example : size 12 = .ok 28 := by decide +kernel
example : size 13 = .ok 28 := by decide +kernel
example : size 14 = .ok 28 := by decide +kernel
example : ti.nameOf 15 = some (str "func") := by decide +kernel
example : size 15 = .err .NotSized := by decide +kernel
example : size 16 = .err .NotSized := by decide +kernel
example : size 17 = .ok 4 := by decide +kernel
example : size 18 = .ok 12 := by decide +kernel
example : size 19 = .ok 8 := by decide +kernel
example : size 20 = .err .NotSized := by decide +kernel
example : size 21 = .ok 28 := by decide +kernel

-- src/btf/type_information.rs:1385
example : ti.pointeeTid 50 2 = .ok 6 := by decide +kernel

-- src/btf/type_information.rs:1391
example : ∀ t ∈ ([0, 1, 2, 8, 9, 10, 19, 15, 16, 17, 18, 20, 21] : List UInt32),
    off t "test" = .err .InvalidTypePath ∧ off t "[0]" = .err .InvalidTypePath := by decide +kernel
example : off 3 "[10000000000000000000000000000]" = .err .InvalidTypePath := by decide +kernel
example : off 3 "[test]" = .err .InvalidTypePath := by decide +kernel
example : off 3 "test" = .err .InvalidTypePath := by decide +kernel
example : off 3 "[0]" = .ok (1, .byteOffset 0) := by decide +kernel
example : off 3 "[1]" = .ok (1, .byteOffset 4) := by decide +kernel
example : off 3 "[2]" = .ok (1, .byteOffset 8) := by decide +kernel
example : off 3 "[3]" = .ok (1, .byteOffset 12) := by decide +kernel
example : off 3 "[4]" = .ok (1, .byteOffset 16) := by decide +kernel
example : off 3 "[5]" = .ok (1, .byteOffset 20) := by decide +kernel
example : off 3 "[6]" = .ok (1, .byteOffset 24) := by decide +kernel
example : off 3 "[7]" = .ok (1, .byteOffset 28) := by decide +kernel
example : off 3 "[8]" = .ok (1, .byteOffset 32) := by decide +kernel
example : off 3 "[9]" = .ok (1, .byteOffset 36) := by decide +kernel
example : off 3 "[10]" = .err .InvalidTypePath := by decide +kernel
example : off 104 "test1" = .ok (1, .byteOffset 0) := by decide +kernel
example : off 104 "d_name" = .ok (103, .byteOffset 32) := by decide +kernel
example : off 104 "test2" = .ok (1, .byteOffset 256) := by decide +kernel
example : off 104 "d_name.hash" = .ok (1, .byteOffset 32) := by decide +kernel
example : off 104 "d_name.len" = .ok (1, .byteOffset 36) := by decide +kernel
example : off 104 "d_name.hash_len" = .ok (100, .byteOffset 32) := by decide +kernel
example : off 104 "d_name.name" = .ok (100, .byteOffset 40) := by decide +kernel
example : ∀ t ∈ ([6, 11, 12, 13, 14] : List UInt32), off t "int_value" = .ok (1, .byteOffset 128) := by decide +kernel
example : ∀ t ∈ ([6, 11, 12, 13, 14] : List UInt32), off t "ptr_value" = .ok (2, .byteOffset 160) := by decide +kernel
example : ∀ t ∈ ([6, 11, 12, 13, 14] : List UInt32), off t "anon_struct_value1" = .ok (1, .byteOffset 0) := by decide +kernel
example : ∀ t ∈ ([6, 11, 12, 13, 14] : List UInt32), off t "anon_struct_value2" = .ok (1, .byteOffset 32) := by decide +kernel
example : ∀ t ∈ ([6, 11, 12, 13, 14] : List UInt32), off t "anon_union_value1" = .ok (1, .byteOffset 64) := by decide +kernel
example : ∀ t ∈ ([6, 11, 12, 13, 14] : List UInt32), off t "anon_union_value2" = .ok (2, .byteOffset 64) := by decide +kernel

-- src/btf/type_information.rs:1606
example : off 201 "[20]" = .err .InvalidTypePath := by decide +kernel
example : off 201 "[0]" = .ok (200, .byteOffset 0) := by decide +kernel

end Btf.RepoTests

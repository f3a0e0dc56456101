import Verif.Model.TypeInfo
import Verif.Model.Buffer

/-!
# Tests of the model (not proofs)

The literals of the crate's own unit tests, evaluated on the model, to check the reading of
the code.
-/

namespace Btf.Tests

def dbg : Cfg := { width := .w64, overflowChecks := true }

/-- `ReadableBuffer` of the crate's tests (src/utils/readable_buffer.rs:21-54). -/
def buffer (bytes : List UInt8) : Readable where
  read _ offset len :=
    if offset = bytes.length then .error ⟨.EOF, []⟩
    else if offset + len ≤ bytes.length then .ok (fun i => bytes.getD (offset + i) 0)
    else .error ⟨.InvalidOffset, []⟩

/-- src/btf/struct_union.rs:234-266 -/
def bitfieldStruct : List UInt8 :=
  [0x9F, 0xEB, 0x01, 0x00, 0x18, 0, 0, 0, 0, 0, 0, 0, 0x24, 0, 0, 0, 0x24, 0, 0, 0, 0x0F, 0, 0, 0,
   0, 0, 0, 0, 2, 0, 0, 0x84, 2, 0, 0, 0,
   1, 0, 0, 0, 2, 0, 0, 0, 8, 0, 0, 0,
   8, 0, 0, 0, 3, 0, 0, 0, 0x0A, 0, 0, 0x0B,
   0, 0x76, 0x61, 0x6C, 0x75, 0x65, 0x31, 0, 0x76, 0x61, 0x6C, 0x75, 0x65, 0x32, 0]

example :
    (match TypeInformation.new dbg (buffer bitfieldStruct) with
     | .ok ti => decide (ti.get = [(1, .struct
        { kind := .Struct, nameOffset := 0, vlen := 2, kindFlag := true, sizeOrType := 2 }
        { name := none, size := 2, memberList :=
          [{ nameOffset := 1, name := some (str "value1"), tid := 2, offset := .byteOffset 1 },
           { nameOffset := 8, name := some (str "value2"), tid := 3,
             offset := .bitOffsetAndSize 10 11 }] })])
     | _ => false) = true := by decide +kernel

/-- `collect_path_components` of the crate's tests (src/btf/type_information.rs:782-784). -/
def collect (fuel : Nat) (it : PathIter) : Outcome (List PathComponent) :=
  match fuel with
  | 0 => .nofuel
  | fuel + 1 =>
    match it.next dbg with
    | (.ok none, _) => .ok []
    | (.ok (some c), it') => do return c :: (← collect fuel it')
    | (.err e, _) => .err e
    | (.panic, _) => .panic
    | (.nofuel, _) => .nofuel

def toks (s : String) := collect 20 (PathIter.new (str s))

-- src/btf/type_information.rs:787-833
example : toks "" = .ok [] := by decide +kernel
example : toks "[1][2]" = .ok [.index 1, .index 2] := by decide +kernel
example : toks "array[10].array2[11]" =
    .ok [.name (str "array"), .index 10, .name (str "array2"), .index 11] := by decide +kernel
example : toks "test_field" = .ok [.name (str "test_field")] := by decide +kernel
example : ∀ s ∈ [".value", ".[10]", "[value", "]value", "1", "array[10]value", "array[]", "[]"],
    toks s = .err .InvalidTypePath := by decide +kernel


/-! ### src/utils/reader.rs:163-318 -/

/-- The number read by `p`, or the kind of the error; and where the reader is then. -/
def run {α : Type} (bytes : List UInt8) (e : Endianness) (p : P α) : Outcome α × Nat :=
  match p { Reader.new (readableBuffer dbg bytes) with endianness := e } with
  | (o, r) => (o.mapErr LoadReason.kind, r.offset)

-- lines 163-197
example : run [0xF8, 0xF9, 0xFA, 0xFB, 0xFC, 0xFD, 0xFE, 0xFF] .little (Reader.i8 dbg) = (.ok (-8), 1) := by decide +kernel
example : run [0xF8, 0xF9, 0xFA, 0xFB, 0xFC, 0xFD, 0xFE, 0xFF] .little (Reader.i16 dbg) = (.ok (-1544), 2) := by decide +kernel
example : run [0xF8, 0xF9, 0xFA, 0xFB, 0xFC, 0xFD, 0xFE, 0xFF] .big (Reader.i8 dbg) = (.ok (-8), 1) := by decide +kernel
example : run [0xF8, 0xF9, 0xFA, 0xFB, 0xFC, 0xFD, 0xFE, 0xFF] .big (Reader.i16 dbg) = (.ok (-1799), 2) := by decide +kernel
example : run [0xF8, 0xF9, 0xFA, 0xFB, 0xFC, 0xFD, 0xFE, 0xFF] .little (Reader.i32 dbg) = (.ok (-67438088), 4) := by decide +kernel
example : run [0xF8, 0xF9, 0xFA, 0xFB, 0xFC, 0xFD, 0xFE, 0xFF] .little (Reader.i64 dbg) = (.ok (-283686952306184), 8) := by decide +kernel
example : run [0xF8, 0xF9, 0xFA, 0xFB, 0xFC, 0xFD, 0xFE, 0xFF] .big (Reader.i32 dbg) = (.ok (-117835013), 4) := by decide +kernel
example : run [0xF8, 0xF9, 0xFA, 0xFB, 0xFC, 0xFD, 0xFE, 0xFF] .big (Reader.i64 dbg) = (.ok (-506097522914230529), 8) := by decide +kernel

-- lines 199-233 and 267-318
example : run [1, 2, 3, 4, 5, 6, 7, 8] .little (Reader.u8 dbg) = (.ok 0x01, 1) := by decide +kernel
example : run [1, 2, 3, 4, 5, 6, 7, 8] .little (Reader.u16 dbg) = (.ok 0x0201, 2) := by decide +kernel
example : run [1, 2, 3, 4, 5, 6, 7, 8] .little (Reader.u32 dbg) = (.ok 0x04030201, 4) := by decide +kernel
example : run [1, 2, 3, 4, 5, 6, 7, 8] .little (Reader.u64 dbg) = (.ok 0x0807060504030201, 8) := by decide +kernel
example : run [1, 2, 3, 4, 5, 6, 7, 8] .big (Reader.u8 dbg) = (.ok 0x01, 1) := by decide +kernel
example : run [1, 2, 3, 4, 5, 6, 7, 8] .big (Reader.u16 dbg) = (.ok 0x0102, 2) := by decide +kernel
example : run [1, 2, 3, 4, 5, 6, 7, 8] .big (Reader.u32 dbg) = (.ok 0x01020304, 4) := by decide +kernel
example : run [1, 2, 3, 4, 5, 6, 7, 8] .big (Reader.u64 dbg) = (.ok 0x0102030405060708, 8) := by decide +kernel

-- lines 235-265
example : run [] .little (Reader.u8 dbg) = (.err .EOF, 0) := by decide +kernel
example : run [] .little (Reader.u16 dbg) = (.err .EOF, 0) := by decide +kernel
example : run [] .little (Reader.u32 dbg) = (.err .EOF, 0) := by decide +kernel
example : run [] .little (Reader.u64 dbg) = (.err .EOF, 0) := by decide +kernel
example : run [] .little (Reader.i32 dbg) = (.err .EOF, 0) := by decide +kernel
example : run [] .little (Reader.i64 dbg) = (.err .EOF, 0) := by decide +kernel
example : run [1] .little (Reader.u16 dbg) = (.err .InvalidOffset, 0) := by decide +kernel
example : run [1] .little (Reader.u32 dbg) = (.err .InvalidOffset, 0) := by decide +kernel
example : run [1] .little (Reader.u64 dbg) = (.err .InvalidOffset, 0) := by decide +kernel
example : run [] .little (Reader.i8 dbg) = (.err .EOF, 0) := by decide +kernel
example : run [] .little (Reader.i16 dbg) = (.err .EOF, 0) := by decide +kernel
example : run [1] .little (Reader.i16 dbg) = (.err .InvalidOffset, 0) := by decide +kernel
example : run [1] .little (Reader.i32 dbg) = (.err .InvalidOffset, 0) := by decide +kernel
example : run [1] .little (Reader.i64 dbg) = (.err .InvalidOffset, 0) := by decide +kernel

/-! ### src/utils/readable_buffer.rs:60-108 -/

example : (ReadableBuffer.read dbg (List.replicate 100 0) (2 ^ 64 - 1 - 50) 100).mapErr Error.kind = .err .InvalidOffset := by decide +kernel
example : ReadableBuffer.read dbg [0x41, 0x42, 0x43, 0x44] 0 4 = .ok [0x41, 0x42, 0x43, 0x44] := by decide +kernel
example : ReadableBuffer.read dbg [0x41, 0x42, 0x43, 0x44] 3 1 = .ok [0x44] := by decide +kernel
example : (ReadableBuffer.read dbg [0x41, 0x42, 0x43, 0x44] 4 1).mapErr Error.kind = .err .EOF := by decide +kernel
example : (ReadableBuffer.read dbg [0x41, 0x42, 0x43, 0x44] 3 2).mapErr Error.kind = .err .InvalidOffset := by decide +kernel

/-! ### src/btf/string.rs:85-208 -/

/-- The string at `offset` in the file. -/
def stringAt (bytes : List UInt8) (offset : UInt32) : Outcome Str :=
  (run bytes .little (do let fh ← FileHeader.new dbg; parseString dbg fh offset)).1

def twoStrings : List UInt8 :=
  [0x9F, 0xEB, 0x01, 0x00, 0x18, 0, 0, 0, 0, 0, 0, 0, 1, 0, 0, 0, 1, 0, 0, 0, 0x0B, 0, 0, 0, 0,
   0, 0x41, 0x42, 0x43, 0x44, 0, 0x45, 0x46, 0x47, 0x48, 0]

example : stringAt twoStrings 0 = .ok [] := by decide +kernel
example : stringAt twoStrings 1 = .ok (str "ABCD") := by decide +kernel
example : stringAt twoStrings 6 = .ok (str "EFGH") := by decide +kernel
example : stringAt twoStrings 11 = .err .InvalidStringOffset := by decide +kernel
example : stringAt [0x9F, 0xEB, 1, 0, 0x18, 0, 0, 0, 0, 0, 0, 0, 1, 0, 0, 0, 0xFF, 0xFF, 0xFF, 0xFF, 1, 0, 0, 0] 0 =
    .err .InvalidStringOffset := by decide +kernel
example : stringAt [0x9F, 0xEB, 1, 0, 0x18, 0, 0, 0, 0, 0, 0, 0, 1, 0, 0, 0, 0, 0, 0, 0xFF, 0xFF, 0xFF, 0xFF, 1] 0 =
    .err .InvalidStringOffset := by decide +kernel
example : stringAt [0x9F, 0xEB, 1, 0, 0x18, 0, 0, 0, 0, 0, 0, 0, 1, 0, 0, 0, 0, 0, 0, 0x80, 1, 0, 0, 0] 0x80000000 =
    .err .InvalidStringOffset := by decide +kernel

/-! ### src/btf/file_header.rs:122-172 -/

example : (run [0x9F, 0xEB, 1, 2, 3, 0, 0, 0, 4, 0, 0, 0, 5, 0, 0, 0, 6, 0, 0, 0, 7, 0, 0, 0] .little
    (do let fh ← FileHeader.new dbg; let e ← Reader.getEndianness; return (e, fh))).1 = .ok (.little, ⟨1, 2, 3, 4, 5, 6, 7⟩) := by decide +kernel
example : (run [0xEB, 0x9F, 1, 2, 0, 0, 0, 3, 0, 0, 0, 4, 0, 0, 0, 5, 0, 0, 0, 6, 0, 0, 0, 7] .little
    (do let fh ← FileHeader.new dbg; let e ← Reader.getEndianness; return (e, fh))).1 = .ok (.big, ⟨1, 2, 3, 4, 5, 6, 7⟩) := by decide +kernel

/-! ### src/btf/header.rs:131-218 -/

def headerOf (bytes : List UInt8) : Outcome Header :=
  (run bytes .little (do let fh ← FileHeader.new dbg; Header.new dbg fh)).1

example : headerOf [0x9F, 0xEB, 1, 0, 0x18, 0, 0, 0, 0, 0, 0, 0, 0x0C, 0, 0, 0, 0, 0, 0, 0, 0, 0, 0, 0,
    1, 0, 0, 0, 0xFF, 0, 0, 0x81, 3, 0, 0, 0] = .ok ⟨.Int, 1, 255, true, 3⟩ := by decide +kernel
example : headerOf [0x9F, 0xEB, 1, 0, 0xFF, 0xFF, 0xFF, 0x7F, 0xFF, 0xFF, 0xFF, 0x7F, 0x0C, 0, 0, 0, 0, 0, 0, 0, 0, 0, 0, 0] =
    .err .InvalidTypeSectionOffset := by decide +kernel
example : headerOf [0x9F, 0xEB, 1, 0, 0x18, 0, 0, 0, 0, 0, 0, 0xFF, 0xFF, 0xFF, 0xFF, 1, 0, 0, 0, 0, 0, 0, 0, 0] =
    .err .InvalidTypeSectionOffset := by decide +kernel

/-! ### src/btf/kind.rs:108-114 -/

example : ∀ i ∈ List.range 21, (match Kind.new (UInt32.ofNat i) with | .ok _ => false | .err _ => true | _ => false) =
    (i == 0 || i == 20) := by decide +kernel

/-! ### src/btf/offset.rs:91-196 -/

example : Offset.addU32 (.byteOffset 0) 1 = .ok (.byteOffset 1) := by decide +kernel
example : (match Offset.addU32 (.bitOffsetAndSize 0 0) 1 with | .err _ => true | _ => false) = true := by decide +kernel
example : Offset.add (.byteOffset 0) (.byteOffset 1) = .ok (.byteOffset 1) := by decide +kernel
example : Offset.add (.byteOffset 0) (.bitOffsetAndSize 1 1) = .ok (.bitOffsetAndSize 1 1) := by decide +kernel
example : (match Offset.add (.bitOffsetAndSize 0 0) (.byteOffset 1) with | .err _ => true | _ => false) = true := by decide +kernel
example : (match Offset.add (.bitOffsetAndSize 0 0) (.bitOffsetAndSize 1 1) with | .err _ => true | _ => false) = true := by decide +kernel
example : Offset.addU32 (.byteOffset 0xFFFFFFFF) 1 = .err .InvalidOffset := by decide +kernel
example : Offset.addU32 (.byteOffset 0xFFFFFFFE) 2 = .err .InvalidOffset := by decide +kernel
example : Offset.addU32 (.byteOffset 0xFFFFFFFF) 0 = .ok (.byteOffset 0xFFFFFFFF) := by decide +kernel
example : Offset.add (.byteOffset 0xFFFFFFFF) (.byteOffset 1) = .err .InvalidOffset := by decide +kernel
example : Offset.add (.byteOffset 0x80000000) (.byteOffset 0x80000000) = .err .InvalidOffset := by decide +kernel
example : Offset.add (.byteOffset 0x7FFFFFFF) (.byteOffset 0x7FFFFFFF) = .ok (.byteOffset 0xFFFFFFFE) := by decide +kernel
example : Offset.add (.byteOffset 0x20000000) (.bitOffsetAndSize 0 1) = .err .InvalidOffset := by decide +kernel
example : (match Offset.add (.byteOffset 0x1FFFFFFF) (.bitOffsetAndSize 0 1) with | .ok _ => true | _ => false) = true := by decide +kernel
example : Offset.add (.byteOffset 0x1FFFFFFF) (.bitOffsetAndSize 0xFFFFFFFF 1) = .err .InvalidOffset := by decide +kernel
example : Offset.add (.byteOffset 1) (.bitOffsetAndSize 7 1) = .ok (.bitOffsetAndSize 15 1) := by decide +kernel

/-! ### src/btf/struct_union.rs:171-230 -/

def standardStruct : List UInt8 :=
  [0x9F, 0xEB, 0x01, 0x00, 0x18, 0x00, 0x00, 0x00, 0x00, 0x00, 0x00, 0x00, 0x24, 0x00, 0x00, 0x00, 0x24, 0x00, 0x00, 0x00, 0x0F, 0x00, 0x00, 0x00, 0x00, 0x00, 0x00, 0x00, 0x02, 0x00, 0x00, 0x04, 0x02, 0x00, 0x00, 0x00, 0x01, 0x00, 0x00, 0x00, 0x02, 0x00, 0x00, 0x00, 0x08, 0x00, 0x00, 0x00, 0x08, 0x00, 0x00, 0x00, 0x03, 0x00, 0x00, 0x00, 0x08, 0x00, 0x00, 0x00, 0x00, 0x76, 0x61, 0x6C, 0x75, 0x65, 0x31, 0x00, 0x76, 0x61, 0x6C, 0x75, 0x65, 0x32, 0x00]

example : (match TypeInformation.new dbg (readableBuffer dbg standardStruct) with
     | .ok ti => decide (ti.get = [(1, .struct
        { kind := .Struct, nameOffset := 0, vlen := 2, kindFlag := false, sizeOrType := 2 }
        { name := none, size := 2, memberList :=
          [{ nameOffset := 1, name := some (str "value1"), tid := 2, offset := .byteOffset 1 },
           { nameOffset := 8, name := some (str "value2"), tid := 3, offset := .byteOffset 1 }] })])
     | _ => false) = true := by decide +kernel

end Btf.Tests

import Verif.Model.TypeInfo
import Verif.Model.Buffer

/-!
# Sample files, used to show that the hypotheses of the theorems are met (generated by tools/gen_samples.py)
-/

namespace Btf.Samples

/-- 64-bit debug build. -/
def dbg : Cfg := { width := .w64, overflowChecks := true }
/-- 64-bit release build. -/
def rel : Cfg := { width := .w64, overflowChecks := false }

/-- A word, little-endian. -/
def le32 (w : UInt32) : List UInt8 :=
  [w.toUInt8, (w >>> 8).toUInt8, (w >>> 16).toUInt8, (w >>> 24).toUInt8]

/-- A little-endian BTF file with the given type and string sections. -/
def leFile (types : List UInt32) (strings : List UInt8) : List UInt8 :=
  [0x9F, 0xEB, 1, 0] ++ le32 24 ++ le32 0 ++ le32 (UInt32.ofNat (4 * types.length))
    ++ le32 (UInt32.ofNat (4 * types.length)) ++ le32 (UInt32.ofNat strings.length)
    ++ types.flatMap le32 ++ strings

/-- A byte string in memory, on a 64-bit target. -/
def buffer (bytes : List UInt8) : Readable := readableBuffer dbg bytes

/-- Well-behaved types. -/
def zooTypes : List UInt32 :=
  [
   0x1, 0x1000000, 0x4, 0x1000020, -- 1: INT int
   0x5, 0x8000000, 0x1, -- 2: TYPEDEF myint
   0xb, 0x4000002, 0x10, 0x15, 0x4, 0x0, 0x1a, 0x4, 0x40, -- 3: STRUCT list_head
   0x0, 0x2000000, 0x3, -- 4: PTR None
   0x0, 0x3000000, 0x0, 0x1, 0x1, 0xa, -- 5: ARRAY None
   0x0, 0x5000002, 0x10, 0x1f, 0x1, 0x0, 0x21, 0x3, 0x0, -- 6: UNION None
   0x23, 0x4000004, 0x50, 0x29, 0x1, 0x0, 0x0, 0x6, 0x40, 0x2b, 0x5, 0xc0, 0x2f, 0x3, 0x200, -- 7: STRUCT outer
   0x0, 0xa000000, 0x7, -- 8: CONST None
   0x34, 0x12000000, 0x7, -- 9: TYPE_TAG tag
   0x0, 0x2000000, 0x8, -- 10: PTR None
   0x0, 0x9000000, 0xa, -- 11: VOLATILE None
   0x38, 0x7000000, 0x0, -- 12: FWD fwd
   0x0, 0xd000000, 0x1, -- 13: FUNC_PROTO None
   0x3c, 0x4000002, 0x58, 0x0, 0x7, 0x0, 0x41, 0x1, 0x280, -- 14: STRUCT nest
   0x43, 0x84000002, 0x8, 0x49, 0x1, 0x5000003, 0x4c, 0x1, 0x20, -- 15: STRUCT flags
   0x4f, 0x12000000, 0x4 -- 16: TYPE_TAG ptag
  ]

def zooStrings : List UInt8 :=
  [0, 105, 110, 116, 0, 109, 121, 105, 110, 116, 0, 108, 105, 115, 116, 95, 104, 101, 97, 100, 0, 110, 101, 120, 116, 0, 112, 114, 101, 118, 0, 97, 0, 98, 0, 111, 117, 116, 101, 114, 0, 120, 0, 97, 114, 114, 0, 104, 101, 97, 100, 0, 116, 97, 103, 0, 102, 119, 100, 0, 110, 101, 115, 116, 0, 121, 0, 102, 108, 97, 103, 115, 0, 108, 111, 0, 104, 105, 0, 112, 116, 97, 103, 0]

def zoo : TypeInformation where
  idToType := ⟨[
    (1, .int ⟨.Int, 1, 0, false, 4⟩ ⟨some (str "int"), 4, true, false, false, 0, 32⟩),
    (2, .typedef ⟨.Typedef, 5, 0, false, 1⟩ ⟨some (str "myint"), 1⟩),
    (3, .struct ⟨.Struct, 11, 2, false, 16⟩ ⟨some (str "list_head"), 16, [⟨21, some (str "next"), 4, .byteOffset 0⟩, ⟨26, some (str "prev"), 4, .byteOffset 8⟩]⟩),
    (4, .ptr ⟨.Ptr, 0, 0, false, 3⟩ ⟨3⟩),
    (5, .array ⟨.Array, 0, 0, false, 0⟩ ⟨1, 1, 10⟩),
    (6, .union ⟨.Union, 0, 2, false, 16⟩ ⟨none, 16, [⟨31, some (str "a"), 1, .byteOffset 0⟩, ⟨33, some (str "b"), 3, .byteOffset 0⟩]⟩),
    (7, .struct ⟨.Struct, 35, 4, false, 80⟩ ⟨some (str "outer"), 80, [⟨41, some (str "x"), 1, .byteOffset 0⟩, ⟨0, none, 6, .byteOffset 8⟩, ⟨43, some (str "arr"), 5, .byteOffset 24⟩, ⟨47, some (str "head"), 3, .byteOffset 64⟩]⟩),
    (8, .const ⟨.Const, 0, 0, false, 7⟩ ⟨7⟩),
    (9, .typeTag ⟨.TypeTag, 52, 0, false, 7⟩ ⟨some (str "tag"), 7⟩),
    (10, .ptr ⟨.Ptr, 0, 0, false, 8⟩ ⟨8⟩),
    (11, .volatile ⟨.Volatile, 0, 0, false, 10⟩ ⟨10⟩),
    (12, .fwd ⟨.Fwd, 56, 0, false, 0⟩ ⟨some (str "fwd"), 0⟩),
    (13, .funcProto ⟨.FuncProto, 0, 0, false, 1⟩ ⟨[], 1⟩),
    (14, .struct ⟨.Struct, 60, 2, false, 88⟩ ⟨some (str "nest"), 88, [⟨0, none, 7, .byteOffset 0⟩, ⟨65, some (str "y"), 1, .byteOffset 80⟩]⟩),
    (15, .struct ⟨.Struct, 67, 2, true, 8⟩ ⟨some (str "flags"), 8, [⟨73, some (str "lo"), 1, .bitOffsetAndSize 3 5⟩, ⟨76, some (str "hi"), 1, .byteOffset 4⟩]⟩),
    (16, .typeTag ⟨.TypeTag, 79, 0, false, 4⟩ ⟨some (str "ptag"), 4⟩)]⟩
  nameToId := ⟨[(str "flags", 15), (str "fwd", 12), (str "int", 1), (str "list_head", 3), (str "myint", 2), (str "nest", 14), (str "outer", 7), (str "ptag", 16), (str "tag", 9)]⟩
  idToName := ⟨[(1, str "int"), (2, str "myint"), (3, str "list_head"), (7, str "outer"), (9, str "tag"), (12, str "fwd"), (14, str "nest"), (15, str "flags"), (16, str "ptag")]⟩

/-- Types that are accepted by the parser but pathological. -/
def badTypes : List UInt32 :=
  [
   0x1, 0x8000000, 0x1, -- 1: TYPEDEF loop
   0x6, 0x1000000, 0x4, 0x20, -- 2: INT int
   0x0, 0x3000000, 0x0, 0x2, 0x2, 0xffffffff, -- 3: ARRAY None
   0x0, 0x3000000, 0x0, 0x3, 0x2, 0xffffffff, -- 4: ARRAY None
   0xa, 0x4000002, 0x8, 0x0, 0x5, 0x0, 0xf, 0x2, 0x0, -- 5: STRUCT self
   0x11, 0x8000000, 0x63, -- 6: TYPEDEF dangling
   0x1a, 0x84000003, 0x4, 0x1f, 0x2, 0x5000003, 0x0, 0x2, 0x8000008, 0x21, 0x2, 0x10, -- 7: STRUCT bits
   0x0, 0x3000000, 0x0, 0x2, 0x2, 0x80000000, -- 8: ARRAY None
   0x0, 0x3000000, 0x0, 0x8, 0x2, 0x80000000, -- 9: ARRAY None
   0x0, 0x3000000, 0x0, 0x9, 0x2, 0x2 -- 10: ARRAY None
  ]

def badStrings : List UInt8 :=
  [0, 108, 111, 111, 112, 0, 105, 110, 116, 0, 115, 101, 108, 102, 0, 120, 0, 100, 97, 110, 103, 108, 105, 110, 103, 0, 98, 105, 116, 115, 0, 102, 0, 103, 0]

def bad : TypeInformation where
  idToType := ⟨[
    (1, .typedef ⟨.Typedef, 1, 0, false, 1⟩ ⟨some (str "loop"), 1⟩),
    (2, .int ⟨.Int, 6, 0, false, 4⟩ ⟨some (str "int"), 4, false, false, false, 0, 32⟩),
    (3, .array ⟨.Array, 0, 0, false, 0⟩ ⟨2, 2, 4294967295⟩),
    (4, .array ⟨.Array, 0, 0, false, 0⟩ ⟨3, 2, 4294967295⟩),
    (5, .struct ⟨.Struct, 10, 2, false, 8⟩ ⟨some (str "self"), 8, [⟨0, none, 5, .byteOffset 0⟩, ⟨15, some (str "x"), 2, .byteOffset 0⟩]⟩),
    (6, .typedef ⟨.Typedef, 17, 0, false, 99⟩ ⟨some (str "dangling"), 99⟩),
    (7, .struct ⟨.Struct, 26, 3, true, 4⟩ ⟨some (str "bits"), 4, [⟨31, some (str "f"), 2, .bitOffsetAndSize 3 5⟩, ⟨0, none, 2, .bitOffsetAndSize 8 8⟩, ⟨33, some (str "g"), 2, .byteOffset 2⟩]⟩),
    (8, .array ⟨.Array, 0, 0, false, 0⟩ ⟨2, 2, 2147483648⟩),
    (9, .array ⟨.Array, 0, 0, false, 0⟩ ⟨8, 2, 2147483648⟩),
    (10, .array ⟨.Array, 0, 0, false, 0⟩ ⟨9, 2, 2⟩)]⟩
  nameToId := ⟨[(str "bits", 7), (str "dangling", 6), (str "int", 2), (str "loop", 1), (str "self", 5)]⟩
  idToName := ⟨[(1, str "loop"), (2, str "int"), (5, str "self"), (6, str "dangling"), (7, str "bits")]⟩

theorem zoo_parsed : TypeInformation.new dbg (buffer (leFile zooTypes zooStrings)) = .ok zoo := by
  decide +kernel
theorem bad_parsed : TypeInformation.new dbg (buffer (leFile badTypes badStrings)) = .ok bad := by
  decide +kernel

example : zoo.get.length = 16 := by decide +kernel
example : bad.get.length = 10 := by decide +kernel

end Btf.Samples

import Verif.Samples
import Verif.Spec.Same

/-!
# A sample file with the kinds that `Samples.zoo` does not have
-/

namespace Btf.Samples

def restTypes : List UInt32 :=
  [
   0x1, 0x86000002, 4,  0x3, 0xFFFFFFFF,  0x5, 0x7,               -- 1: ENUM e (signed)
   0x1, 0x06000001, 4,  0x3, 0xFFFFFFFF,                          -- 2: ENUM e
   0x7, 0x93000001, 8,  0x3, 0xFFFFFFFE, 0xFFFFFFFF,              -- 3: ENUM64 E (signed)
   0x7, 0x13000001, 8,  0x5, 1, 2,                                -- 4: ENUM64 E
   0x9, 0x10000000, 8,                                            -- 5: FLOAT f
   0x0, 0x0D000002, 5,  0x3, 5,  0, 0,                            -- 6: FUNC_PROTO
   0xB, 0x0C000000, 6,                                            -- 7: FUNC g
   0x0, 0x0B000000, 5,                                            -- 8: RESTRICT
   0xD, 0x0E000000, 1,  1,                                        -- 9: VAR v
   0xF, 0x0F000001, 4,  9, 0, 4,                                  -- 10: DATASEC s
   0x11, 0x11000000, 9, 0xFFFFFFFF                                -- 11: DECL_TAG t
  ]

def restStrings : List UInt8 :=
  [0, 101, 0, 97, 0, 98, 0, 69, 0, 102, 0, 103, 0, 118, 0, 115, 0, 233, 0]

def rest : TypeInformation where
  idToType := ⟨[
    (1, .enum ⟨.Enum, 1, 2, true, 4⟩ ⟨some (str "e"), 4, [⟨str "a", .signed (-1)⟩, ⟨str "b", .signed 7⟩], true⟩),
    (2, .enum ⟨.Enum, 1, 1, false, 4⟩ ⟨some (str "e"), 4, [⟨str "a", .unsigned 0xFFFFFFFF⟩], false⟩),
    (3, .enum64 ⟨.Enum64, 7, 1, true, 8⟩ ⟨some (str "E"), 8, [⟨str "a", .signed (-2)⟩], true⟩),
    (4, .enum64 ⟨.Enum64, 7, 1, false, 8⟩ ⟨some (str "E"), 8, [⟨str "b", .unsigned 0x200000001⟩], false⟩),
    (5, .float ⟨.Float, 9, 0, false, 8⟩ ⟨some (str "f"), 8⟩),
    (6, .funcProto ⟨.FuncProto, 0, 2, false, 5⟩ ⟨[⟨3, some (str "a"), 5⟩, ⟨0, none, 0⟩], 5⟩),
    (7, .func ⟨.Func, 11, 0, false, 6⟩ ⟨some (str "g"), 6⟩),
    (8, .restrict ⟨.Restrict, 0, 0, false, 5⟩ ⟨5⟩),
    (9, .var ⟨.Var, 13, 0, false, 1⟩ ⟨some (str "v"), 1, 1, .global⟩),
    (10, .dataSec ⟨.DataSec, 15, 1, false, 4⟩ ⟨some (str "s"), 4, [⟨9, 0, 4⟩]⟩),
    (11, .declTag ⟨.DeclTag, 17, 0, false, 9⟩ ⟨some (str "é"), 9, 0xFFFFFFFF⟩)]⟩
  nameToId := ⟨[(str "E", 4), (str "e", 2), (str "f", 5), (str "g", 7), (str "s", 10), (str "v", 9), (str "é", 11)]⟩
  idToName := ⟨[(1, str "e"), (2, str "e"), (3, str "E"), (4, str "E"), (5, str "f"), (7, str "g"), (9, str "v"), (10, str "s"),
    (11, str "é")]⟩

/-- The file, in either byte order. -/
def restFile (e : Endianness) : List UInt8 := Spec.fileOf e 1 0 restTypes restStrings

theorem rest_parsed : TypeInformation.new dbg (buffer (restFile .little)) = .ok rest := by decide +kernel

/-- The same file as `zoo`, in either byte order. -/
def zooFile (e : Endianness) : List UInt8 := Spec.fileOf e 1 0 zooTypes zooStrings

theorem zooFile_little : zooFile .little = leFile zooTypes zooStrings := by decide +kernel
theorem zoo_parsed_big : TypeInformation.new dbg (buffer (zooFile .big)) = .ok zoo := by decide +kernel

end Btf.Samples

import Verif.Model.Basic

/-!
# Member offsets: src/btf/offset.rs
-/

namespace Btf

/-- `Offset` (src/btf/offset.rs:15-21). -/
inductive Offset where
  | byteOffset (bytes : UInt32)
  | bitOffsetAndSize (bitOffset bitSize : UInt32)
  deriving DecidableEq, Repr

namespace Offset

/-- `impl Add<u32> for Offset` (src/btf/offset.rs:29-42). -/
def addU32 (self : Offset) (rhs : UInt32) : Outcome Offset :=
  match self with
  | .byteOffset b => do
    let s ← okOr (u32CheckedAdd b rhs) .InvalidOffset
    return .byteOffset s
  | .bitOffsetAndSize _ _ => .err .UnexpectedBitfield

/-- `impl Add<Offset> for Offset` (src/btf/offset.rs:51-84). -/
def add (self rhs : Offset) : Outcome Offset :=
  match self, rhs with
  | .byteOffset l, .byteOffset r => do
    let s ← okOr (u32CheckedAdd l r) .InvalidOffset
    return .byteOffset s
  | .byteOffset l, .bitOffsetAndSize rBit rSize => do
    let m ← okOr (u32CheckedMul l 8) .InvalidOffset
    let s ← okOr (u32CheckedAdd m rBit) .InvalidOffset
    return .bitOffsetAndSize s rSize
  | _, _ => .err .UnexpectedBitfield

end Offset

end Btf

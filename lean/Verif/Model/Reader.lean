import Verif.Model.LoadReason

/-!
# The byte source and the reader: src/btf/readable.rs, src/utils/reader.rs
-/

namespace Btf

/-- One request made to a `Readable` (src/utils/reader.rs:66), with the error it produced, if any (ghost state). -/
structure ReadEvent where
  offset : Nat
  len : Nat
  failed : Option Error
  deriving DecidableEq, Repr

/-- `trait Readable` (src/btf/readable.rs:12-15). The answer may depend on the whole history of earlier
requests (latest first), so any stateful implementation is covered. A successful read fills the buffer:
byte `i` of the buffer is the value of the returned function at `i`. -/
structure Readable where
  read : (history : List ReadEvent) → (offset len : Nat) → Except Error (Nat → UInt8)

/-- `Endianness` (src/utils/reader.rs:12-19). -/
inductive Endianness where
  | little
  | big
  deriving DecidableEq, Repr

/-- `Reader` (src/utils/reader.rs:22-31). `trace` is ghost state: the requests issued so far, latest
first. -/
structure Reader where
  readable : Readable
  offset : Nat
  endianness : Endianness
  trace : List ReadEvent

/-- A computation that uses a `&mut Reader` (src/utils/reader.rs:22-31). The reader is returned even when the computation fails. -/
def P (α : Type) := Reader → Res LoadReason α × Reader

namespace P

/-- Sequencing with `?` (e.g. src/btf/type_information.rs:467-469). -/
@[inline] def bind {α β : Type} (p : P α) (f : α → P β) : P β := fun r =>
  match p r with
  | (.ok a, r') => f a r'
  | (.err e, r') => (.err e, r')
  | (.panic, r') => (.panic, r')
  | (.nofuel, r') => (.nofuel, r')

/-- `do` notation for code that uses the reader with `?` (e.g. src/btf/type_information.rs:466-479). -/
instance : Monad P where
  pure a := fun r => (.ok a, r)
  bind := bind

/-- A computation that does not use the reader (e.g. src/btf/type_information.rs:439-456). -/
def lift {α : Type} (o : Res LoadReason α) : P α := fun r => (o, r)

/-- `return Err(..)` (e.g. src/btf/string.rs:15-78, src/btf/header.rs:38-79). -/
def fail {α : Type} (e : LoadReason) : P α := fun r => (.err e, r)

end P

namespace Reader

/-- `Reader::new` (src/utils/reader.rs:35-41). -/
def new (readable : Readable) : Reader :=
  { readable := readable, offset := 0, endianness := .little, trace := [] }

/-- `Reader::set_endianness` (src/utils/reader.rs:49-51). -/
def setEndianness (e : Endianness) : P Unit := fun r => (.ok (), { r with endianness := e })

/-- `Reader::offset` (src/utils/reader.rs:54-56). -/
def getOffset : P Nat := fun r => (.ok r.offset, r)

/-- `Reader::set_offset` (src/utils/reader.rs:59-61). -/
def setOffset (o : Nat) : P Unit := fun r => (.ok (), { r with offset := o })

/-- `Reader::read` (src/utils/reader.rs:64-69): request `len` bytes at the current offset; on success
advance the offset (`self.offset += buffer.len()`, an unchecked `usize` addition). Bytes beyond the
buffer do not exist; they are set to 0 so that nothing can depend on them. -/
def read (cfg : Cfg) (len : Nat) : P (Nat → UInt8) := fun r =>
  match r.readable.read r.trace r.offset len with
  | .error e => (.err (.source e), { r with trace := ⟨r.offset, len, some e⟩ :: r.trace })
  | .ok buffer =>
    match cfg.usizeAdd r.offset len with
    | .ok o => (.ok (fun i => if i < len then buffer i else 0), { r with offset := o, trace := ⟨r.offset, len, none⟩ :: r.trace })
    | .err e => (.err e, { r with trace := ⟨r.offset, len, none⟩ :: r.trace })
    | .panic => (.panic, { r with trace := ⟨r.offset, len, none⟩ :: r.trace })
    | .nofuel => (.nofuel, { r with trace := ⟨r.offset, len, none⟩ :: r.trace })

/-- `from_le_bytes` on `n` bytes (std, at src/utils/reader.rs:85, 99, 113), as a natural number. -/
def leNat (b : Nat → UInt8) : Nat → Nat
  | 0 => 0
  | n + 1 => leNat b n + (b n).toNat * 256 ^ n

/-- `from_be_bytes` on `n` bytes (std, at src/utils/reader.rs:87, 101, 115), as a natural number. -/
def beNat (b : Nat → UInt8) : Nat → Nat
  | 0 => 0
  | n + 1 => beNat b n * 256 + (b n).toNat

/-- The endianness switch shared by `u16`, `u32`, `u64` (src/utils/reader.rs:84-88, 98-102, 112-116). -/
def decodeNat (e : Endianness) (b : Nat → UInt8) (n : Nat) : Nat :=
  if e = .little then leNat b n else beNat b n

/-- The current endianness (src/utils/reader.rs:44-46). -/
def getEndianness : P Endianness := fun r => (.ok r.endianness, r)

/-- `Reader::u8` (src/utils/reader.rs:72-77). -/
def u8 (cfg : Cfg) : P UInt8 := do
  let b ← read cfg 1
  return b 0

/-- `Reader::u16` (src/utils/reader.rs:80-91). -/
def u16 (cfg : Cfg) : P UInt16 := do
  let b ← read cfg 2
  let e ← getEndianness
  return UInt16.ofNat (decodeNat e b 2)

/-- `Reader::u32` (src/utils/reader.rs:94-105). -/
def u32 (cfg : Cfg) : P UInt32 := do
  let b ← read cfg 4
  let e ← getEndianness
  return UInt32.ofNat (decodeNat e b 4)

/-- `Reader::u64` (src/utils/reader.rs:108-119). -/
def u64 (cfg : Cfg) : P UInt64 := do
  let b ← read cfg 8
  let e ← getEndianness
  return UInt64.ofNat (decodeNat e b 8)

/-- `Reader::i8` (src/utils/reader.rs:122-124): `as i8`. -/
def i8 (cfg : Cfg) : P Int8 := do
  let v ← u8 cfg
  return v.toInt8

/-- `Reader::i16` (src/utils/reader.rs:127-129): `as i16`. -/
def i16 (cfg : Cfg) : P Int16 := do
  let v ← u16 cfg
  return v.toInt16

/-- `Reader::i32` (src/utils/reader.rs:132-134): `as i32`. -/
def i32 (cfg : Cfg) : P Int32 := do
  let v ← u32 cfg
  return v.toInt32

/-- `Reader::i64` (src/utils/reader.rs:137-139): `as i64`. -/
def i64 (cfg : Cfg) : P Int64 := do
  let v ← u64 cfg
  return v.toInt64

end Reader

end Btf

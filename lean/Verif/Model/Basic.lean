/-!
# Results, build configuration and machine arithmetic
-/

namespace Btf

/-- `ErrorKind`: src/btf/error.rs:12-55. The accompanying `message` string (error.rs:59-65) is
in `Model/LoadReason.lean` and `Model/Message.lean`. -/
inductive ErrorKind where
  | IOError
  | EOF
  | InvalidOffset
  | InvalidMagic
  | InvalidBTFKind
  | InvalidStringOffset
  | InvalidString
  | UnsupportedType
  | InvalidTypeHeaderAttribute
  | InvalidTypeSectionOffset
  | InvalidTypePath
  | InvalidTypeID
  | NotSized
  | UnexpectedBitfield
  deriving DecidableEq, Repr

/-- What a call of a Rust function does: `Ok`/a plain value, `Err` (src/btf/error.rs:67-68) with an error of type
`ε`, a panic. `nofuel` is not a Rust outcome: the recursion bound given to the model was too small. -/
inductive Res (ε α : Type) where
  | ok (a : α)
  | err (e : ε)
  | panic
  | nofuel
  deriving DecidableEq, Repr

namespace Res

/-- Sequencing with `?` (e.g. src/btf/type_information.rs:436, 619): errors, panics and running out of fuel
propagate. -/
@[inline] def bind {ε α β : Type} (x : Res ε α) (f : α → Res ε β) : Res ε β :=
  match x with
  | ok a => f a
  | err e => err e
  | panic => panic
  | nofuel => nofuel

/-- `do` notation for the `?` on `BTFResult`s (src/btf/error.rs:67-68). -/
instance {ε : Type} : Monad (Res ε) where
  pure := ok
  bind := bind

/-- The same with another description of the error, e.g. only its kind (`Error::kind`, src/btf/error.rs:80-82). -/
def mapErr {ε ε' α : Type} (f : ε → ε') : Res ε α → Res ε' α
  | ok a => ok a
  | err e => err (f e)
  | panic => panic
  | nofuel => nofuel

end Res

/-- A result of which only the kind of the error is kept (`Error::kind`, src/btf/error.rs:80-82). -/
abbrev Outcome := Res ErrorKind

/-- Width of `usize` on the target (the `usize`s of src/utils/reader.rs:27 and
src/btf/type_information.rs:437-459). (Rust's standard library, used by the crate, exists for 32- and
64-bit targets; 16-bit targets are not modelled.) -/
inductive Width where
  | w32
  | w64
  deriving DecidableEq, Repr

/-- Build configuration: pointer width and whether arithmetic overflow checks are compiled in
(`debug` profile: yes, `release` profile: no; Cargo.toml:1-28 does not override either). -/
structure Cfg where
  width : Width
  overflowChecks : Bool
  deriving DecidableEq, Repr

namespace Cfg

/-- `usize::MAX + 1` for the `usize`s of src/utils/reader.rs:27, 67 and src/btf/type_information.rs:450, 581. -/
def usizeMod (c : Cfg) : Nat :=
  match c.width with
  | .w32 => 2 ^ 32
  | .w64 => 2 ^ 64

/-- Result of an unchecked machine operation whose exact value is `v` on an integer type with `m`
values: exact if it fits, otherwise panic (checks on) or wrap (checks off). Used for the plain operators at
src/utils/reader.rs:67, src/btf/type_information.rs:471, 581, src/btf/header.rs:38-79,
src/btf/string.rs:15-78 and src/btf/define_type.rs:54-83. -/
def wrapOr {ε : Type} (c : Cfg) (m v : Nat) : Res ε Nat :=
  if v < m then .ok v
  else if c.overflowChecks then .panic
  else .ok (v % m)

/-- Plain `a + b` on `usize` (src/utils/reader.rs:67, src/btf/header.rs:38-79, src/btf/string.rs:15-78,
src/btf/define_type.rs:54-83). -/
def usizeAdd {ε : Type} (c : Cfg) (a b : Nat) : Res ε Nat := c.wrapOr c.usizeMod (a + b)

/-- Plain `a * b` on `usize` (src/btf/type_information.rs:581). -/
def usizeMul {ε : Type} (c : Cfg) (a b : Nat) : Res ε Nat := c.wrapOr c.usizeMod (a * b)

/-- Plain `a + b` on `u32` (src/btf/type_information.rs:471). -/
def u32Add {ε : Type} (c : Cfg) (a b : UInt32) : Res ε UInt32 :=
  match c.wrapOr (ε := ε) (2 ^ 32) (a.toNat + b.toNat) with
  | .ok v => .ok (UInt32.ofNat v)
  | .err e => .err e
  | .panic => .panic
  | .nofuel => .nofuel

end Cfg

/-- `u32::checked_add` (src/btf/type_information.rs:441, src/btf/header.rs:41, 50, src/btf/offset.rs:51-84). -/
def u32CheckedAdd (a b : UInt32) : Option UInt32 :=
  if a.toNat + b.toNat < 2 ^ 32 then some (a + b) else none

/-- `u32::checked_mul` (src/btf/offset.rs:29-84). -/
def u32CheckedMul (a b : UInt32) : Option UInt32 :=
  if a.toNat * b.toNat < 2 ^ 32 then some (a * b) else none

/-- `usize::checked_add` (src/btf/type_information.rs:450, src/utils/readable_buffer.rs:31-38). -/
def Cfg.usizeCheckedAdd (c : Cfg) (a b : Nat) : Option Nat :=
  if a + b < c.usizeMod then some (a + b) else none

/-- `u64::checked_mul` (src/btf/type_information.rs:704), on values already known to be `u64`s. -/
def u64CheckedMul (a b : Nat) : Option Nat :=
  if a * b < 2 ^ 64 then some (a * b) else none

/-- `u32::try_from(v).ok()` for a `u64` value (src/btf/type_information.rs:705). -/
def u32TryFrom (v : Nat) : Option UInt32 :=
  if v < 2 ^ 32 then some (UInt32.ofNat v) else none

/-- `opt.ok_or(err)` (e.g. src/btf/type_information.rs:442, 548, 555, 560, 706). -/
def okOr {ε α : Type} (o : Option α) (e : ε) : Res ε α :=
  match o with
  | some a => .ok a
  | none => .err e

/-- A Rust `String`/`&str` (src/btf/type_information.rs:352-355, 607, src/btf/string.rs:15-78), represented
(as in Rust) by its UTF-8 bytes. -/
abbrev Str := List UInt8

/-- The UTF-8 bytes of a Lean string literal, for writing constants such as `"void"`
(src/btf/type_information.rs:497, 516, 555). -/
def str (s : String) : Str := s.toList.flatMap String.utf8EncodeChar

/-- `Error` (src/btf/error.rs:57-65). -/
structure Error where
  kind : ErrorKind
  message : Str
  deriving DecidableEq, Repr

end Btf

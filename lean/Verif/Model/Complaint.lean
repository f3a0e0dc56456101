import Verif.Model.Debug

/-!
# What the example programs say when they panic

`unwrap` on an `Err` shows the error with `{:?}`, so this is also the derived `Debug` of `Error` and of `ErrorKind`. The
programs of `Model/Examples.lean` are repeated here, with what they say. The line that the standard library prints before the
message (thread, file, line and column) is represented by the number of the line in the source.
-/

namespace Btf

/-- The derived `Debug` of `ErrorKind` (src/btf/error.rs:12-55). -/
def ErrorKind.debug : ErrorKind → Str
  | .IOError => str "IOError"
  | .EOF => str "EOF"
  | .InvalidOffset => str "InvalidOffset"
  | .InvalidMagic => str "InvalidMagic"
  | .InvalidBTFKind => str "InvalidBTFKind"
  | .InvalidStringOffset => str "InvalidStringOffset"
  | .InvalidString => str "InvalidString"
  | .UnsupportedType => str "UnsupportedType"
  | .InvalidTypeHeaderAttribute => str "InvalidTypeHeaderAttribute"
  | .InvalidTypeSectionOffset => str "InvalidTypeSectionOffset"
  | .InvalidTypePath => str "InvalidTypePath"
  | .InvalidTypeID => str "InvalidTypeID"
  | .NotSized => str "NotSized"
  | .UnexpectedBitfield => str "UnexpectedBitfield"

/-- The derived `Debug` of `Error` (src/btf/error.rs:57-65). The message can contain any characters (of the path, or of the
operating system), and which ones are escaped depends on tables of the standard library: `quote` is the `Debug` of `str`. -/
def Error.debug (quote : Str → Str) (e : Error) : Str :=
  debugStruct "Error" [("kind", e.kind.debug), ("message", quote e.message)]

/-- The `Error` that is returned (src/btf/type_information.rs:198-333, 399-426, 527-601). -/
def Told.result {α : Type} : Told α → Res Error α
  | .ok a => .ok a
  | .err r => .err ⟨r.kind, r.message TypeVariant.debug⟩
  | .panic => .panic
  | .nofuel => .nofuel

namespace Examples

/-- Why a program panics. -/
inductive Complaint where
  /-- `File::open(path).unwrap()` (examples/dump-btf.rs:20, the same in the others). -/
  | notOpened (path : String)
  /-- `.unwrap()` of an `Err` of the crate, in this line (examples/dump-btf.rs:44, get-type-size.rs:46, 49,
  get-type-offset.rs:47, 50). -/
  | error (line : Nat) (e : Error)
  /-- `.unwrap()` of a `None`, in this line (examples/get-type-size.rs:48, get-type-offset.rs:49). -/
  | nothing (line : Nat)
  /-- An overflow in the crate (src/btf/type_information.rs:581, and on 32-bit targets in `new`, with overflow checks). -/
  | arithmetic
  deriving DecidableEq

/-- How `main` ends (examples/dump-btf.rs:33-46). -/
inductive Close where
  | returned
  | panicked (c : Complaint)
  | nofuel
  deriving DecidableEq

/-- A run of `main` (examples/dump-btf.rs:33-46): what was printed, and how it ended. -/
structure Account where
  printed : List Line
  close : Close
  deriving DecidableEq

/-- `result.unwrap()` in a line of the program (e.g. examples/dump-btf.rs:44), followed by the rest. -/
def insist {α : Type} (printed : List Line) (line : Nat) (x : Res Error α) (rest : α → Account) : Account :=
  match x with
  | .ok a => rest a
  | .err e => ⟨printed, .panicked (.error line e)⟩
  | .panic => ⟨printed, .panicked .arithmetic⟩
  | .nofuel => ⟨printed, .nofuel⟩

/-- `option.unwrap()` (examples/get-type-size.rs:48), and `File::open(..).unwrap()` (line 20), followed by the rest. -/
def insistSome {α : Type} (printed : List Line) (c : Complaint) (x : Option α) (rest : α → Account) : Account :=
  match x with
  | some a => rest a
  | none => ⟨printed, .panicked c⟩

/-- `main` of examples/dump-btf.rs:33-46. -/
def dumpBtfSays (cfg : Cfg) (os : Os) (args : List String) : Account :=
  match args with
  | [_, path] =>
    insistSome [.opening path] (.notOpened path) (os.openFile path) fun file =>
    insist [.opening path] 44 (TypeInformation.newE cfg (readableFile file)) fun ti =>
    ⟨[.opening path, .types ti.get], .returned⟩
  | _ => ⟨[.usage], .returned⟩

/-- `main` of examples/get-type-size.rs:33-51. -/
def getTypeSizeSays (cfg : Cfg) (os : Os) (fuel : Nat) (args : List String) : Account :=
  match args with
  | [_, path, name] =>
    insistSome [.opening path] (.notOpened path) (os.openFile path) fun file =>
    insist [.opening path] 46 (TypeInformation.newE cfg (readableFile file)) fun ti =>
    insistSome [.opening path] (.nothing 48) (ti.idOf (str name)) fun tid =>
    insist [.opening path] 49 (TypeInformation.sizeOfT cfg ti fuel tid).result fun bytes =>
    ⟨[.opening path, .size name tid bytes], .returned⟩
  | _ => ⟨[.usage], .returned⟩

/-- `main` of examples/get-type-offset.rs:33-53. -/
def getTypeOffsetSays (cfg : Cfg) (os : Os) (fuel : Nat) (args : List String) : Account :=
  match args with
  | [_, path, name, typePath] =>
    insistSome [.opening path] (.notOpened path) (os.openFile path) fun file =>
    insist [.opening path] 47 (TypeInformation.newE cfg (readableFile file)) fun ti =>
    insistSome [.opening path] (.nothing 49) (ti.idOf (str name)) fun tid =>
    insist [.opening path] 50 (TypeInformation.offsetOfT cfg ti fuel tid (str typePath)).result fun answer =>
    ⟨[.opening path, .offset name typePath answer.1 answer.2], .returned⟩
  | _ => ⟨[.usage], .returned⟩

/-- The message of the panic (std, `Result::unwrap` and `Option::unwrap`, for the lines in `Complaint`). `os` is the `Debug` of
the `io::Error`, and `overflow` the message of an overflow. -/
def Complaint.text (quote : Str → Str) (os : String → Str) (overflow : Str) : Complaint → Str
  | .notOpened path => str "called `Result::unwrap()` on an `Err` value: " ++ os path
  | .error _ e => str "called `Result::unwrap()` on an `Err` value: " ++ e.debug quote
  | .nothing _ => str "called `Option::unwrap()` on a `None` value"
  | .arithmetic => overflow

end Examples

end Btf

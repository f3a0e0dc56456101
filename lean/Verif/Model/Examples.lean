import Verif.Model.TypeInfo

/-!
# The example programs: examples/dump-btf.rs, examples/get-type-size.rs, examples/get-type-offset.rs

The operating system is a parameter: whether a file can be opened, and how it answers reads. Command line
arguments that are not Unicode (`env::args` panics) and failures of `println!` are not modelled.
-/

namespace Btf.Examples

open Btf

/-- An opened `std::fs::File` (examples/dump-btf.rs:13-15), as far as `read_exact_at` is concerned
(examples/dump-btf.rs:27-28): given the earlier requests, an offset and a length, it fills the buffer or
fails with some `io::Error`, given by its text. -/
structure OsFile where
  readExactAt : (history : List ReadEvent) → (offset len : Nat) → Except Str (Nat → UInt8)

/-- `File::open` (examples/dump-btf.rs:20): `none` is an `io::Error`. -/
structure Os where
  openFile : (path : String) → Option OsFile

/-- `impl From<io::Error> for Error` (src/btf/error.rs:90-98): every `io::Error` becomes `IOError`, with its text. -/
def errorOfIoError (text : Str) : Error := ⟨.IOError, text⟩

/-- `impl Readable for ReadableFile` (examples/dump-btf.rs:25-31; the same in get-type-size.rs:25-31 and
get-type-offset.rs:25-31). -/
def readableFile (file : OsFile) : Readable where
  read history offset len :=
    match file.readExactAt history offset len with
    | .ok b => .ok b
    | .error text => .error (errorOfIoError text)

/-- One `println!` (examples/dump-btf.rs:36, 41, 45; examples/get-type-size.rs:36, 43, 50;
examples/get-type-offset.rs:36, 44, 52): the text is replaced by the values in it. -/
inductive Line where
  | usage
  | opening (path : String)
  | types (list : List (UInt32 × TypeVariant))
  | size (name : String) (tid : UInt32) (bytes : Nat)
  | offset (name path : String) (tid : UInt32) (offset : Offset)
  deriving DecidableEq

/-- How `main` ends (examples/dump-btf.rs:33-46): it returns, or it panics (e.g. in an `unwrap`), or (not an
outcome of the program) the bound given to the model was too small. -/
inductive Ending where
  | returned
  | panicked
  | nofuel
  deriving DecidableEq

/-- A run of `main` (examples/dump-btf.rs:33-46): what was printed, and how it ended. -/
structure Run where
  printed : List Line
  ending : Ending
  deriving DecidableEq

/-- `result.unwrap()` (e.g. examples/dump-btf.rs:44) followed by the rest of the program, `printed` having been
printed before. -/
def unwrapThen {α : Type} (printed : List Line) (x : Outcome α) (rest : α → Run) : Run :=
  match x with
  | .ok a => rest a
  | .err _ => ⟨printed, .panicked⟩
  | .panic => ⟨printed, .panicked⟩
  | .nofuel => ⟨printed, .nofuel⟩

/-- `option.unwrap()` (e.g. examples/get-type-size.rs:48), and `File::open(..).unwrap()` (line 20). -/
def unwrapOption {α : Type} (printed : List Line) (x : Option α) (rest : α → Run) : Run :=
  match x with
  | some a => rest a
  | none => ⟨printed, .panicked⟩

/-- `main` of examples/dump-btf.rs:33-46. `args[0]` is the name of the program. -/
def dumpBtf (cfg : Cfg) (os : Os) (args : List String) : Run :=
  match args with
  | [_, path] =>
    unwrapOption [.opening path] (os.openFile path) fun file =>
    unwrapThen [.opening path] (TypeInformation.new cfg (readableFile file)) fun ti =>
    ⟨[.opening path, .types ti.get], .returned⟩
  | _ => ⟨[.usage], .returned⟩

/-- `main` of examples/get-type-size.rs:33-51. -/
def getTypeSize (cfg : Cfg) (os : Os) (fuel : Nat) (args : List String) : Run :=
  match args with
  | [_, path, name] =>
    unwrapOption [.opening path] (os.openFile path) fun file =>
    unwrapThen [.opening path] (TypeInformation.new cfg (readableFile file)) fun ti =>
    unwrapOption [.opening path] (ti.idOf (str name)) fun tid =>
    unwrapThen [.opening path] (TypeInformation.sizeOf cfg ti fuel tid) fun bytes =>
    ⟨[.opening path, .size name tid bytes], .returned⟩
  | _ => ⟨[.usage], .returned⟩

/-- `main` of examples/get-type-offset.rs:33-53. -/
def getTypeOffset (cfg : Cfg) (os : Os) (fuel : Nat) (args : List String) : Run :=
  match args with
  | [_, path, name, typePath] =>
    unwrapOption [.opening path] (os.openFile path) fun file =>
    unwrapThen [.opening path] (TypeInformation.new cfg (readableFile file)) fun ti =>
    unwrapOption [.opening path] (ti.idOf (str name)) fun tid =>
    unwrapThen [.opening path] (TypeInformation.offsetOf cfg ti fuel tid (str typePath)) fun answer =>
    ⟨[.opening path, .offset name typePath answer.1 answer.2], .returned⟩
  | _ => ⟨[.usage], .returned⟩

end Btf.Examples

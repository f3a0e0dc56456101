import Verif.Spec.Shape
import Verif.Spec.Requests

/-!
# Sources that change while they are read
-/

namespace Btf.Spec

open Btf

/-- A request for one byte of the string section. -/
def ForName (fh : FileHeader) (ev : ReadEvent) : Prop := Within (strStart fh) (strEnd fh) ev ∧ ev.len = 1

/-- The request is for (at least) the byte at position `i`. -/
def Covers (ev : ReadEvent) (i : Nat) : Prop := ev.offset ≤ i ∧ i < ev.offset + ev.len

/-- The position is in the string section. -/
def InStrings (fh : FileHeader) (i : Nat) : Prop := strStart fh ≤ i ∧ i < strEnd fh

/-- One of the requests in the trace (latest first) was answered with the byte `b` for position `i`. -/
def Answered (R : Readable) (trace : List ReadEvent) (i : Nat) (b : UInt8) : Prop :=
  ∃ later ev earlier buffer, trace = later ++ ev :: earlier ∧ R.read earlier ev.offset ev.len = .ok buffer ∧
    Covers ev i ∧ buffer (i - ev.offset) = b

/-- No answer in the trace contradicts another one, at the positions in `here`. -/
def Steady (R : Readable) (trace : List ReadEvent) (here : Nat → Prop) : Prop :=
  ∀ i b b', here i → Answered R trace i b → Answered R trace i b' → b = b'

/-- The byte string contains everything the source has answered. -/
def Snapshot (R : Readable) (trace : List ReadEvent) (file : List UInt8) : Prop :=
  ∀ i b, Answered R trace i b → file[i]? = some b

/-- The name, if there is one, is replaced by the empty one. -/
def blank : Option Str → Option Str
  | none => none
  | some _ => some []

/-- All names in the type are replaced by empty ones. -/
def blankNames : TypeVariant → TypeVariant
  | .void => .void
  | .int h d => .int h { d with name := blank d.name }
  | .typedef h d => .typedef h { d with name := blank d.name }
  | .enum h d => .enum h { d with name := blank d.name, namedValueList := d.namedValueList.map fun v => { v with name := [] } }
  | .ptr h d => .ptr h d
  | .const h d => .const h d
  | .volatile h d => .volatile h d
  | .array h d => .array h d
  | .funcProto h d => .funcProto h { d with parameterList := d.parameterList.map fun p => { p with name := blank p.name } }
  | .struct h d => .struct h { d with name := blank d.name, memberList := d.memberList.map fun m => { m with name := blank m.name } }
  | .union h d => .union h { d with name := blank d.name, memberList := d.memberList.map fun m => { m with name := blank m.name } }
  | .fwd h d => .fwd h { d with name := blank d.name }
  | .var h d => .var h { d with name := blank d.name }
  | .enum64 h d => .enum64 h { d with name := blank d.name, namedValueList := d.namedValueList.map fun v => { v with name := [] } }
  | .func h d => .func h { d with name := blank d.name }
  | .float h d => .float h { d with name := blank d.name }
  | .restrict h d => .restrict h d
  | .dataSec h d => .dataSec h { d with name := blank d.name }
  | .typeTag h d => .typeTag h { d with name := blank d.name }
  | .declTag h d => .declTag h { d with name := blank d.name }

end Btf.Spec

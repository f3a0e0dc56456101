import Verif.Model.Reader

/-!
# The requests a computation makes

A trace lists the requests made to a `Readable`, latest first, each with the error it produced.
-/

namespace Btf.Spec

open Btf

/-- Every request in the trace was answered as recorded: it failed with the recorded error, or succeeded. -/
inductive Faithful (R : Readable) : List ReadEvent → Prop where
  | nil : Faithful R []
  | failed {trace offset len k} : R.read trace offset len = .error k → Faithful R trace →
      Faithful R (⟨offset, len, some k⟩ :: trace)
  | done {trace offset len b} : R.read trace offset len = .ok b → Faithful R trace →
      Faithful R (⟨offset, len, none⟩ :: trace)

/-- No request failed. -/
def NoFailure (trace : List ReadEvent) : Prop := ∀ ev ∈ trace, ev.failed = none

/-- Two answers to a request for `len` bytes are the same. -/
def SameAnswer (len : Nat) : Except Error (Nat → UInt8) → Except Error (Nat → UInt8) → Prop
  | .ok b, .ok b' => ∀ i < len, b i = b' i
  | .error k, .error k' => k = k'
  | _, _ => False

end Btf.Spec

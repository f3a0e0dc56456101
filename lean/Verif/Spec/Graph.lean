import Verif.Model.TypeInfo

/-!
# The type graph: aliases, sizes, pointees

Everything here is stated over what `from_id` and `id_of` report; the query functions of the crate are
not mentioned. Also: what it means for a query to return or to run for ever.
-/

namespace Btf.Spec

open Btf

/-- A query with a recursion bound returns `o` if some bound is enough to produce `o`. -/
def Returns {α : Type} (f : Nat → Outcome α) (o : Outcome α) : Prop := o ≠ .nofuel ∧ ∃ n, f n = o

/-- A query runs for ever (in Rust: recursion until the stack is exhausted, or an endless loop) if no
recursion bound is enough. -/
def Diverges {α : Type} (f : Nat → Outcome α) : Prop := ∀ n, f n = .nofuel

/-- The type whose size a type has, for the kinds that are only a name, a qualifier, a tag or a
variable of another type. -/
def sizeAlias : TypeVariant → Option UInt32
  | .typedef _ d => some d.tid
  | .const _ d => some d.tid
  | .volatile _ d => some d.tid
  | .restrict _ d => some d.tid
  | .typeTag _ d => some d.tid
  | .var _ d => some d.tid
  | _ => none

/-- The size recorded in the type itself. -/
def ownSize : TypeVariant → Option Nat
  | .int _ d => some d.size
  | .float _ d => some d.size
  | .enum _ d => some d.size
  | .enum64 _ d => some d.size
  | .struct _ d => some d.size
  | .union _ d => some d.size
  | .dataSec _ d => some d.size
  | _ => none

/-- Recorded sizes are `u32` values (true of every parsed file: `Props.parsed_sizes_fit`). -/
def SizesFit (ti : TypeInformation) : Prop :=
  ∀ t v n, ti.fromId t = some v → ownSize v = some n → n < 2 ^ 32

def IsPtr : TypeVariant → Prop
  | .ptr _ _ => True
  | _ => False

/-- Kinds that have no size. -/
def Unsized : TypeVariant → Prop
  | .void => True
  | .func _ _ => True
  | .funcProto _ _ => True
  | .fwd _ _ => True
  | .declTag _ _ => True
  | _ => False

/-- The size of pointers: half of `struct list_head`. -/
def PointerSize (ti : TypeInformation) (n : Nat) : Prop :=
  ∃ tid h d, ti.idOf (str "list_head") = some tid ∧ ti.fromId tid = some (.struct h d) ∧ n = d.size / 2

/-- `t` is an object of `n` bytes. `limit` bounds the size of every array involved. -/
inductive HasSize (limit : Option Nat) (ti : TypeInformation) : UInt32 → Nat → Prop where
  | own {t v n} : ti.fromId t = some v → ownSize v = some n → HasSize limit ti t n
  | ptr {t v n} : ti.fromId t = some v → IsPtr v → PointerSize ti n → HasSize limit ti t n
  | array {t h d n} : ti.fromId t = some (.array h d) → HasSize limit ti d.elementTid n →
      (∀ l, limit = some l → n * d.elementCount.toNat < l) →
      HasSize limit ti t (n * d.elementCount.toNat)
  | alias {t v u n} : ti.fromId t = some v → sizeAlias v = some u → HasSize limit ti u n →
      HasSize limit ti t n

/-- The type a size depends on: the aliased type, or the element type of an array. -/
def sizeRef : TypeVariant → Option UInt32
  | .array _ d => some d.elementTid
  | v => sizeAlias v

/-- The type a typedef or qualifier stands for. -/
def aliasOf : TypeVariant → Option UInt32
  | .typedef _ d => some d.tid
  | .const _ d => some d.tid
  | .volatile _ d => some d.tid
  | .restrict _ d => some d.tid
  | _ => none

/-- As `aliasOf`, and a forward declaration stands for the type it refers to. -/
def accessAlias : TypeVariant → Option UInt32
  | .fwd _ d => some d.tid
  | v => aliasOf v

/-- One step of a chain. -/
def Refers (ti : TypeInformation) (ref : TypeVariant → Option UInt32) (t u : UInt32) : Prop :=
  ∃ v, ti.fromId t = some v ∧ ref v = some u

/-- Following references `ref` any number of times. -/
inductive Chain (ti : TypeInformation) (ref : TypeVariant → Option UInt32) : UInt32 → UInt32 → Prop where
  | refl {t} : Chain ti ref t t
  | step {t v u w} : ti.fromId t = some v → ref v = some u → Chain ti ref u w → Chain ti ref t w

/-- The chain of references from `t` never ends. -/
def Endless (ti : TypeInformation) (ref : TypeVariant → Option UInt32) (t : UInt32) : Prop :=
  ∀ u, Chain ti ref t u → ∃ v w, ti.fromId u = some v ∧ ref v = some w

end Btf.Spec

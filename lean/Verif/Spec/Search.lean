import Verif.Spec.Access
import Verif.Spec.Path
import Mathlib.Logic.Relation

/-!
# Lookups, step by step

`Search cfg ti complete t o cs r`: looking for `cs` in an object of type `t` that is at the offset `o` ends with `r`. In
contrast to `Access`, this also says what happens on type graphs that no compiler writes: which member is used, which
error is reported, and whether there is an end at all.
-/

namespace Btf.Spec

open Btf

/-- `c` is `b` after `a`. Nothing is inside a bitfield. -/
def After (a b c : Offset) : Prop := ¬ IsBitfield a ∧ bitWidth c = bitWidth b ∧ bitPos c = bitPos a + bitPos b

/-- The error if there is no such offset. -/
inductive NotAfter (a b : Offset) : ErrorKind → Prop where
  | bitfield : IsBitfield a → NotAfter a b .UnexpectedBitfield
  | tooLarge : ¬ IsBitfield a → (∀ c, ¬ After a b c) → NotAfter a b .InvalidOffset

/-- The component cannot be applied to such a type. -/
def Closed (v : TypeVariant) : PathComponent → Prop
  | .index _ => ∀ hd d, v ≠ .array hd d
  | .name _ => membersOf v = none

/-- How a lookup ends: `.ok` with the type and the offset that were found, `.err`, or `.panic`. `complete` says whether
`cs` is the whole path, or what precedes an error of syntax. -/
inductive Search (cfg : Cfg) (ti : TypeInformation) (complete : Bool) :
    UInt32 → Offset → List PathComponent → Outcome (UInt32 × Offset) → Prop where
  /-- The path ends here. -/
  | done {t o} : complete = true → Search cfg ti complete t o [] (.ok (t, o))
  /-- The error of syntax is reached. -/
  | broken {t o} : complete = false → Search cfg ti complete t o [] (.err .InvalidTypePath)
  /-- There is no such type. -/
  | missing {t a o c cs} : Chain ti accessAlias t a → ti.fromId a = none →
      Search cfg ti complete t o (c :: cs) (.err .InvalidTypeID)
  /-- The type has no elements, or no members. -/
  | closed {t v o c cs} : Resolves ti t v → Closed v c → Search cfg ti complete t o (c :: cs) (.err .InvalidTypePath)
  | outOfBounds {t hd d i o cs} : Resolves ti t (.array hd d) → d.elementCount.toNat ≤ i →
      Search cfg ti complete t o (.index i :: cs) (.err .InvalidTypePath)
  /-- `size_of` fails for the elements. -/
  | elementError {t hd d i o cs e} : Resolves ti t (.array hd d) → i < d.elementCount.toNat →
      Returns (fun k => TypeInformation.sizeOf cfg ti k d.elementTid) (.err e) →
      Search cfg ti complete t o (.index i :: cs) (.err e)
  | elementPanic {t hd d i o cs} : Resolves ti t (.array hd d) → i < d.elementCount.toNat →
      Returns (fun k => TypeInformation.sizeOf cfg ti k d.elementTid) .panic →
      Search cfg ti complete t o (.index i :: cs) .panic
  /-- The offset in the array does not fit in 32 bits. -/
  | elementFar {t hd d i n o cs} : Resolves ti t (.array hd d) → i < d.elementCount.toNat →
      Returns (fun k => TypeInformation.sizeOf cfg ti k d.elementTid) (.ok n) → 2 ^ 32 ≤ i * n →
      Search cfg ti complete t o (.index i :: cs) (.err .InvalidTypePath)
  | elementNowhere {t hd d i n o cs e} : Resolves ti t (.array hd d) → i < d.elementCount.toNat →
      Returns (fun k => TypeInformation.sizeOf cfg ti k d.elementTid) (.ok n) → i * n < 2 ^ 32 →
      NotAfter o (.byteOffset (UInt32.ofNat (i * n))) e → Search cfg ti complete t o (.index i :: cs) (.err e)
  /-- The lookup goes on in an element. -/
  | element {t hd d i n o o' cs r} : Resolves ti t (.array hd d) → i < d.elementCount.toNat →
      Returns (fun k => TypeInformation.sizeOf cfg ti k d.elementTid) (.ok n) → i * n < 2 ^ 32 →
      After o (.byteOffset (UInt32.ofNat (i * n))) o' →
      Search cfg ti complete d.elementTid o' cs r → Search cfg ti complete t o (.index i :: cs) r
  /-- The lookup in an unnamed member, after failures in all unnamed members before it, does not fail: this is the
  end. -/
  | unnamed {t v pre m post name o cs r} (q : Member → Offset) (e : Member → ErrorKind) : Resolves ti t v →
      membersOf v = some (pre ++ m :: post) → (∀ a ∈ pre, a.name = none → After a.offset o (q a)) →
      (∀ a ∈ pre, a.name = none → Search cfg ti complete a.tid (q a) (.name name :: cs) (.err (e a))) →
      m.name = none → After m.offset o (q m) → Search cfg ti complete m.tid (q m) (.name name :: cs) r →
      (∀ k, r ≠ .err k) → Search cfg ti complete t o (.name name :: cs) r
  /-- The offset of an unnamed member is not possible: this is the end. -/
  | unnamedNowhere {t v pre m post name o cs k} (q : Member → Offset) (e : Member → ErrorKind) : Resolves ti t v →
      membersOf v = some (pre ++ m :: post) → (∀ a ∈ pre, a.name = none → After a.offset o (q a)) →
      (∀ a ∈ pre, a.name = none → Search cfg ti complete a.tid (q a) (.name name :: cs) (.err (e a))) →
      m.name = none → NotAfter m.offset o k → Search cfg ti complete t o (.name name :: cs) (.err k)
  /-- The lookup fails in all unnamed members, and goes on in the first member with the name. -/
  | named {t v pre m post name o o' cs r} (q : Member → Offset) (e : Member → ErrorKind) : Resolves ti t v →
      membersOf v = some (pre ++ m :: post) → (∀ a ∈ pre ++ m :: post, a.name = none → After a.offset o (q a)) →
      (∀ a ∈ pre ++ m :: post, a.name = none → Search cfg ti complete a.tid (q a) (.name name :: cs) (.err (e a))) →
      m.name = some name → (∀ a ∈ pre, a.name ≠ some name) → After o m.offset o' →
      Search cfg ti complete m.tid o' cs r → Search cfg ti complete t o (.name name :: cs) r
  | namedNowhere {t v pre m post name o cs k} (q : Member → Offset) (e : Member → ErrorKind) : Resolves ti t v →
      membersOf v = some (pre ++ m :: post) → (∀ a ∈ pre ++ m :: post, a.name = none → After a.offset o (q a)) →
      (∀ a ∈ pre ++ m :: post, a.name = none → Search cfg ti complete a.tid (q a) (.name name :: cs) (.err (e a))) →
      m.name = some name → (∀ a ∈ pre, a.name ≠ some name) → NotAfter o m.offset k →
      Search cfg ti complete t o (.name name :: cs) (.err k)
  /-- The lookup fails in all unnamed members, and there is no member with the name. -/
  | notFound {t v ms name o cs} (q : Member → Offset) (e : Member → ErrorKind) : Resolves ti t v → membersOf v = some ms →
      (∀ a ∈ ms, a.name = none → After a.offset o (q a)) →
      (∀ a ∈ ms, a.name = none → Search cfg ti complete a.tid (q a) (.name name :: cs) (.err (e a))) →
      (∀ a ∈ ms, a.name ≠ some name) → Search cfg ti complete t o (.name name :: cs) (.err .InvalidTypePath)

/-- The lookup fails in all unnamed ones of the members `ms`. -/
def FailsIn (cfg : Cfg) (ti : TypeInformation) (complete : Bool) (o : Offset) (cs : List PathComponent) (ms : List Member) :
    Prop :=
  ∀ a ∈ ms, a.name = none → ∃ q e, After a.offset o q ∧ Search cfg ti complete a.tid q cs (.err e)

/-- What is being looked for, and where. -/
structure Task where
  type : UInt32
  offset : Offset
  rest : List PathComponent

/-- A lookup leads to another lookup: in an element, in an unnamed member, or in a named member. -/
inductive Leads (cfg : Cfg) (ti : TypeInformation) (complete : Bool) : Task → Task → Prop where
  | element {t hd d i n o o' cs} : Resolves ti t (.array hd d) → i < d.elementCount.toNat →
      Returns (fun k => TypeInformation.sizeOf cfg ti k d.elementTid) (.ok n) → i * n < 2 ^ 32 →
      After o (.byteOffset (UInt32.ofNat (i * n))) o' →
      Leads cfg ti complete ⟨t, o, .index i :: cs⟩ ⟨d.elementTid, o', cs⟩
  | unnamed {t v pre m post name o o' cs} : Resolves ti t v → membersOf v = some (pre ++ m :: post) →
      FailsIn cfg ti complete o (.name name :: cs) pre → m.name = none → After m.offset o o' →
      Leads cfg ti complete ⟨t, o, .name name :: cs⟩ ⟨m.tid, o', .name name :: cs⟩
  | named {t v pre m post name o o' cs} : Resolves ti t v → membersOf v = some (pre ++ m :: post) →
      FailsIn cfg ti complete o (.name name :: cs) (pre ++ m :: post) → m.name = some name →
      (∀ a ∈ pre, a.name ≠ some name) → After o m.offset o' →
      Leads cfg ti complete ⟨t, o, .name name :: cs⟩ ⟨m.tid, o', cs⟩

/-- What a lookup has to know about a type cannot be computed: the type is an alias of itself, or an array is asked for
an element whose size depends on itself. -/
inductive Stuck (ti : TypeInformation) : Task → Prop where
  | circle {t a o c cs} : Chain ti accessAlias t a → Relation.TransGen (Refers ti accessAlias) a a → Stuck ti ⟨t, o, c :: cs⟩
  | size {t hd d i a o cs} : Resolves ti t (.array hd d) → i < d.elementCount.toNat → Chain ti sizeRef d.elementTid a →
      Relation.TransGen (Refers ti sizeRef) a a → Stuck ti ⟨t, o, .index i :: cs⟩

/-- `cs` are the first components of the text `s`: a name is followed by the end, by a dot or by a bracket. -/
def Reads (limit : Nat) (s : Str) (cs : List PathComponent) : Prop :=
  ∃ p rest, s = p ++ rest ∧ Path limit p cs ∧
    ∀ n, cs.getLast? = some (.name n) → rest = [] ∨ ∃ x, rest = 46 :: x ∨ rest = 91 :: x

/-- `s` is not a path, and `cs` are the components that precede what is wrong. -/
def Breaks (limit : Nat) (s : Str) (cs : List PathComponent) : Prop :=
  Reads limit s cs ∧ (∀ c, ¬ Reads limit s (cs ++ [c])) ∧ ∀ ds, ¬ AcceptedPath limit s ds

/-- A struct or union, or an alias of it, has an unnamed member of type `u` at its very beginning. -/
def Begins0 (ti : TypeInformation) (t u : UInt32) : Prop :=
  ∃ v ms m, Resolves ti t v ∧ membersOf v = some ms ∧ m ∈ ms ∧ m.name = none ∧ m.offset = .byteOffset 0 ∧ m.tid = u

end Btf.Spec

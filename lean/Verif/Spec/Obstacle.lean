import Verif.Spec.Message
import Verif.Spec.Search

/-!
# The first obstacle

Which reason `offset_of` gives for an error: what is wrong with a text that is not a path, and what stops a lookup first.
In contrast to `Explains` and `PathReason`, there is only one.
-/

namespace Btf.Spec

open Btf

/-- What separates a name from what precedes it. -/
def Sep (last : Option PathComponent) (sep : Str) : Prop := last = none ∧ sep = [] ∨ last ≠ none ∧ sep = [46]

/-- What is wrong with a text that follows a path of `n` bytes with the last component `last`. -/
inductive Piece (limit : Nat) (last : Option PathComponent) (n : Nat) : Str → Reason → Prop where
  /-- A name cannot start like this. -/
  | nameStart {sep b rest} : Sep last sep → ¬ NameStart b → (last = none → b ≠ 91) →
      Piece limit last n (sep ++ b :: rest) (.invalidCharacter (n + sep.length))
  /-- A name cannot continue like this. -/
  | nameChar {sep w b rest} : Sep last sep → IsName w → ¬ NameChar b → b ≠ 46 → b ≠ 91 →
      Piece limit last n (sep ++ w ++ b :: rest) (.invalidCharacter (n + sep.length + w.length))
  /-- Nothing but a dot or a bracket may follow an index. -/
  | afterIndex {i b rest} : last = some (.index i) → b ≠ 46 → b ≠ 91 → Piece limit last n (b :: rest) (.invalidCharacter n)
  /-- An index has digits only. -/
  | digit {ds b rest} : (∀ d ∈ ds, Digit d) → ¬ Digit b → b ≠ 93 →
      Piece limit last n ([91] ++ ds ++ b :: rest) (.invalidCharacter (n + 1 + ds.length))
  /-- There is no closing bracket. (After a name, an opening bracket at the end is accepted.) -/
  | unclosed {ds} : (∀ d ∈ ds, Digit d) → (ds = [] → ∀ x, last ≠ some (.name x)) → Piece limit last n ([91] ++ ds) .unclosedIndex
  | empty {rest} : Piece limit last n ([91, 93] ++ rest) .emptyIndex
  | tooLarge {ds rest} : ds ≠ [] → (∀ d ∈ ds, Digit d) → limit ≤ decimal ds →
      Piece limit last n ([91] ++ ds ++ 93 :: rest) (.invalidIndexValue true)

/-- `s` is the path `cs` followed by something that is wrong for the reason `r`. -/
def Flaw (limit : Nat) (s : Str) (cs : List PathComponent) (r : Reason) : Prop :=
  ∃ p rest, s = p ++ rest ∧ Path limit p cs ∧ Piece limit cs.getLast? p.length rest r

/-- The two offsets can be added. -/
def Summable (a : Nat) (width : Option UInt32) (b : Nat) (width' : Option UInt32) : Prop := ∀ r, ¬ AddReason a width b width' r

/-- Each unnamed one of the members has an offset that is possible in the object at `p`. -/
def UnnamedFit (p : Place) (ms : List Member) : Prop :=
  ∀ a ∈ ms, a.name = none → Summable (bitPos a.offset) (bitWidth a.offset) p.bits p.width

/-- What stops a lookup of `cs` in the object at `p` first, `flaw` being what is wrong with the text after `cs`. Unnamed
members are not looked into, but their offsets have to be possible. -/
inductive Obstacle (cfg : Cfg) (ti : TypeInformation) (flaw : Option Reason) : Place → List PathComponent → Reason → Prop where
  /-- The end of `cs` is reached, and there the text is wrong. -/
  | text {p r} : flaw = some r → Obstacle cfg ti flaw p [] r
  /-- The first unnamed member whose offset is not possible. -/
  | unnamed {p v pre m post name cs r} : Resolves ti p.type v → membersOf v = some (pre ++ m :: post) → UnnamedFit p pre →
      m.name = none → AddReason (bitPos m.offset) (bitWidth m.offset) p.bits p.width r → Obstacle cfg ti flaw p (.name name :: cs) r
  /-- There is none, and the component cannot be applied. -/
  | component {p c cs r} : (∀ name v ms, c = .name name → Resolves ti p.type v → membersOf v = some ms → UnnamedFit p ms) →
      Explains cfg ti p c r → Obstacle cfg ti flaw p (c :: cs) r
  /-- The lookup reaches an element. -/
  | element {p hd d i n cs r} : Resolves ti p.type (.array hd d) → i < d.elementCount.toNat →
      Returns (fun k => TypeInformation.sizeOf cfg ti k d.elementTid) (.ok n) → i * n < 2 ^ 32 →
      Summable p.bits p.width (8 * (i * n)) none → Obstacle cfg ti flaw ⟨d.elementTid, p.bits + 8 * (i * n), none⟩ cs r →
      Obstacle cfg ti flaw p (.index i :: cs) r
  /-- The lookup reaches the first member with the name. -/
  | member {p v pre m post name cs r} : Resolves ti p.type v → membersOf v = some (pre ++ m :: post) →
      UnnamedFit p (pre ++ m :: post) → m.name = some name → (∀ a ∈ pre, a.name ≠ some name) →
      Summable p.bits p.width (bitPos m.offset) (bitWidth m.offset) →
      Obstacle cfg ti flaw ⟨m.tid, p.bits + bitPos m.offset, bitWidth m.offset⟩ cs r →
      Obstacle cfg ti flaw p (.name name :: cs) r

/-- No struct or union has an unnamed member. -/
def NoUnnamed (ti : TypeInformation) : Prop := ∀ t v ms, ti.fromId t = some v → membersOf v = some ms → ∀ m ∈ ms, m.name ≠ none

end Btf.Spec

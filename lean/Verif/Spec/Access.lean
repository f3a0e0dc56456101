import Verif.Spec.Graph
import Verif.Spec.Offset

/-!
# C accesses

`Access ti t cs u bits w`: starting at an object of type `t`, the designator `cs` (e.g. `.a.b[3]`) reaches
an object of type `u` that starts `bits` bits after the start of the first object; `w` is its width in
bits if it is a bitfield. This is the C meaning of member and element designators, including members of
anonymous structs and unions; nothing goes through a pointer, and nothing goes inside a bitfield.
-/

namespace Btf.Spec

open Btf

/-- `a` is what `t` names once typedefs, qualifiers and forward declarations are removed, with
contents `v`. -/
def Resolves (ti : TypeInformation) (t : UInt32) (v : TypeVariant) : Prop :=
  ∃ a, Chain ti accessAlias t a ∧ ti.fromId a = some v ∧ accessAlias v = none

/-- The members of a struct or union. -/
def membersOf : TypeVariant → Option (List Member)
  | .struct _ d => some d.memberList
  | .union _ d => some d.memberList
  | _ => none

inductive Access (ti : TypeInformation) :
    UInt32 → List PathComponent → UInt32 → (bits : Nat) → (width : Option UInt32) → Prop where
  /-- The object itself. -/
  | here {t} : Access ti t [] t 0 none
  /-- Element `i` of an array. -/
  | element {t hd d i n cs u bits w} : Resolves ti t (.array hd d) → i < d.elementCount.toNat →
      HasSize none ti d.elementTid n → Access ti d.elementTid cs u bits w →
      Access ti t (.index i :: cs) u (8 * (i * n) + bits) w
  /-- A named member, and on from there. -/
  | member {t v ms m name cs u bits w} : Resolves ti t v → membersOf v = some ms → m ∈ ms →
      m.name = some name → bitWidth m.offset = none → Access ti m.tid cs u bits w →
      Access ti t (.name name :: cs) u (bitPos m.offset + bits) w
  /-- A named bitfield, where the designator must end. -/
  | bitfield {t v ms m name w} : Resolves ti t v → membersOf v = some ms → m ∈ ms →
      m.name = some name → bitWidth m.offset = some w →
      Access ti t [.name name] m.tid (bitPos m.offset) (some w)
  /-- A member of an anonymous struct or union is a member of the enclosing one. -/
  | anonymous {t v ms m name cs u bits w} : Resolves ti t v → membersOf v = some ms → m ∈ ms →
      m.name = none → bitWidth m.offset = none → Access ti m.tid (.name name :: cs) u bits w →
      Access ti t (.name name :: cs) u (bitPos m.offset + bits) w

/-- `o` is the offset `bits` with width `w`. -/
def Denotes (o : Offset) (bits : Nat) (w : Option UInt32) : Prop := bitPos o = bits ∧ bitWidth o = w

end Btf.Spec

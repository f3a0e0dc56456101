import Verif.Spec.Access

/-!
# Renumbering, merging and extracting types

`Renamed f v v'`: the type `v'` is the type `v` with every type id `i` replaced by `f i`. Headers, names of
types, string offsets and contents that have nothing to do with layout (enumerators, parameters, index types
of arrays, ..) may differ.
-/

namespace Btf.Spec

open Btf

/-- The member lists agree, up to `f`. -/
inductive RenamedMembers (f : UInt32 → UInt32) : List Member → List Member → Prop where
  | nil : RenamedMembers f [] []
  | cons {m m' ms ms'} : m'.name = m.name → m'.tid = f m.tid → m'.offset = m.offset →
      RenamedMembers f ms ms' → RenamedMembers f (m :: ms) (m' :: ms')

inductive Renamed (f : UInt32 → UInt32) : TypeVariant → TypeVariant → Prop where
  | void : Renamed f .void .void
  | int {h h' d d'} : d'.size = d.size → Renamed f (.int h d) (.int h' d')
  | float {h h' d d'} : d'.size = d.size → Renamed f (.float h d) (.float h' d')
  | enum {h h' d d'} : d'.size = d.size → Renamed f (.enum h d) (.enum h' d')
  | enum64 {h h' d d'} : d'.size = d.size → Renamed f (.enum64 h d) (.enum64 h' d')
  | dataSec {h h' d d'} : d'.size = d.size → Renamed f (.dataSec h d) (.dataSec h' d')
  | struct {h h' d d'} : d'.size = d.size → RenamedMembers f d.memberList d'.memberList →
      Renamed f (.struct h d) (.struct h' d')
  | union {h h' d d'} : d'.size = d.size → RenamedMembers f d.memberList d'.memberList →
      Renamed f (.union h d) (.union h' d')
  | ptr {h h' d d'} : d'.tid = f d.tid → Renamed f (.ptr h d) (.ptr h' d')
  | typedef {h h' d d'} : d'.tid = f d.tid → Renamed f (.typedef h d) (.typedef h' d')
  | const {h h' d d'} : d'.tid = f d.tid → Renamed f (.const h d) (.const h' d')
  | volatile {h h' d d'} : d'.tid = f d.tid → Renamed f (.volatile h d) (.volatile h' d')
  | restrict {h h' d d'} : d'.tid = f d.tid → Renamed f (.restrict h d) (.restrict h' d')
  | typeTag {h h' d d'} : d'.tid = f d.tid → Renamed f (.typeTag h d) (.typeTag h' d')
  | fwd {h h' d d'} : d'.tid = f d.tid → Renamed f (.fwd h d) (.fwd h' d')
  | var {h h' d d'} : d'.tid = f d.tid → Renamed f (.var h d) (.var h' d')
  | array {h h' d d'} : d'.elementTid = f d.elementTid → d'.elementCount = d.elementCount →
      Renamed f (.array h d) (.array h' d')
  | func {h h' d d'} : Renamed f (.func h d) (.func h' d')
  | funcProto {h h' d d'} : Renamed f (.funcProto h d) (.funcProto h' d')
  | declTag {h h' d d'} : Renamed f (.declTag h d) (.declTag h' d')

/-- An object of type `v` involves an object of type `u`: `v` is an alias, a tag, a variable or an array of
`u`, or has a member of type `u`. (A pointer does not involve its target.) -/
def Involves (v : TypeVariant) (u : UInt32) : Prop :=
  accessAlias v = some u ∨ sizeRef v = some u ∨ ∃ ms m, membersOf v = some ms ∧ m ∈ ms ∧ m.tid = u

/-- The types an object of type `t` involves, directly or indirectly. -/
inductive InvolvedIn (ti : TypeInformation) (t : UInt32) : UInt32 → Prop where
  | self : InvolvedIn ti t t
  | step {u v w} : InvolvedIn ti t u → ti.fromId u = some v → Involves v w → InvolvedIn ti t w

/-- The types in `S` of `ti` are found in `ti'`, `t` as `f t`. `f` may renumber types and may also merge
equal ones; `S` contains all types its members involve; and, if `S` contains a pointer type, pointers have the same
size. -/
structure Renumbers (f : UInt32 → UInt32) (S : UInt32 → Prop) (ti ti' : TypeInformation) : Prop where
  present : ∀ t v, S t → ti.fromId t = some v → ∃ v', ti'.fromId (f t) = some v' ∧ Renamed f v v'
  missing : ∀ t, S t → ti.fromId t = none → ti'.fromId (f t) = none
  closed : ∀ t v u, S t → ti.fromId t = some v → Involves v u → S u
  pointers : ∀ t v, S t → ti.fromId t = some v → IsPtr v → ∀ n, PointerSize ti n ↔ PointerSize ti' n

/-- Replaces the type id of an answer. -/
def renameAnswer (f : UInt32 → UInt32) : Outcome (UInt32 × Offset) → Outcome (UInt32 × Offset)
  | .ok (u, o) => .ok (f u, o)
  | .err e => .err e
  | .panic => .panic
  | .nofuel => .nofuel

end Btf.Spec

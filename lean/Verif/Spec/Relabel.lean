import Verif.Spec.Access
import Verif.Spec.Path
import Mathlib.Data.List.Forall2

/-!
# Giving members other names

`Relabels N ti ti'`: `ti'` is `ti`, but members have other names: `N old new` says which ones they may get. Unnamed members
stay unnamed, and all other types are the same. (Names and headers of structs and unions may differ, too.)
-/

namespace Btf.Spec

open Btf

/-- Both have a name, and `N` relates the names; or neither has one. -/
inductive SameName (N : Str → Str → Prop) : Option Str → Option Str → Prop where
  | unnamed : SameName N none none
  | named {x x'} : N x x' → SameName N (some x) (some x')

structure SameMember (N : Str → Str → Prop) (m m' : Member) : Prop where
  name : SameName N m.name m'.name
  type : m'.tid = m.tid
  offset : m'.offset = m.offset

/-- The type `v'` is the type `v` with other names for members. -/
inductive Relabelled (N : Str → Str → Prop) : TypeVariant → TypeVariant → Prop where
  | same {v} : membersOf v = none → Relabelled N v v
  | struct {h h' d d'} : d'.size = d.size → List.Forall₂ (SameMember N) d.memberList d'.memberList →
      Relabelled N (.struct h d) (.struct h' d')
  | union {h h' d d'} : d'.size = d.size → List.Forall₂ (SameMember N) d.memberList d'.memberList →
      Relabelled N (.union h d) (.union h' d')

structure Relabels (N : Str → Str → Prop) (ti ti' : TypeInformation) : Prop where
  present : ∀ t v, ti.fromId t = some v → ∃ v', ti'.fromId t = some v' ∧ Relabelled N v v'
  missing : ∀ t, ti.fromId t = none → ti'.fromId t = none
  pointers : ∀ t v, ti.fromId t = some v → IsPtr v → ∀ n, PointerSize ti n ↔ PointerSize ti' n

/-- The name `n` of a component finds the same members as `n'` after the change. -/
def Finds (N : Str → Str → Prop) (n n' : Str) : Prop := ∀ x x', N x x' → (x = n ↔ x' = n')

/-- The component `c'` means after the change what `c` means before. -/
inductive SameStep (N : Str → Str → Prop) : PathComponent → PathComponent → Prop where
  | index {i} : SameStep N (.index i) (.index i)
  | name {n n'} : Finds N n n' → SameStep N (.name n) (.name n')

/-! ### Which names of a file can be written in a path -/

/-- A byte of a name in a file, whose characters are taken for Latin-1, that can be part of a name in a path: a letter, a
digit or an underscore, or one of `ª ² ³ µ ¹ º ¼ ½ ¾ ê ò ó õ ù ú ü ý þ`. -/
def WritableByte (b : UInt8) : Prop :=
  (65 ≤ b.toNat ∧ b.toNat ≤ 90) ∨ (97 ≤ b.toNat ∧ b.toNat ≤ 122) ∨ (48 ≤ b.toNat ∧ b.toNat ≤ 57) ∨ b.toNat = 95 ∨
    b.toNat ∈ [0xAA, 0xB2, 0xB3, 0xB5, 0xB9, 0xBA, 0xBC, 0xBD, 0xBE, 0xEA, 0xF2, 0xF3, 0xF5, 0xF9, 0xFA, 0xFC, 0xFD, 0xFE]

/-- Such a name can be written in a path: it is not empty, does not start with a digit and has only such bytes. -/
def Writable (bs : List UInt8) : Prop :=
  (∃ b rest, bs = b :: rest ∧ ¬ (48 ≤ b.toNat ∧ b.toNat ≤ 57)) ∧ ∀ b ∈ bs, WritableByte b

instance (b : UInt8) : Decidable (WritableByte b) := by unfold WritableByte; infer_instance

end Btf.Spec

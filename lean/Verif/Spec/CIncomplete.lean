import Verif.Spec.CHeader

/-!
# Header files with incomplete types

A declaration such as `struct file;` introduces a name without saying what it means. If the header file also says it, before or
after, then in C the name means that; if not, the type is incomplete: there are pointers to it, but it has no size and no members.
-/

namespace Btf.Spec

open Btf

/-- The records for such declarations: a name only. -/
def incomplete (names : List Name) : List Decl := names.map fun name => .fwd name 0

/-- The file for a header file with the types `Ts`, in which the records of incomplete types are `before` and `after` those of the
types. -/
def incompleteProgram (p : Nat) (before : List Name) (Ts : List CType) (after : List Name) : List Decl :=
  .struct (str "list_head") (UInt32.ofNat (2 * p)) [] ::
    (incomplete before ++ declareAll (1 + before.length) Ts ++ incomplete after)

end Btf.Spec

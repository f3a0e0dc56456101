import Verif.Spec.CHeader

/-!
# Header files with other declarations

A file of a program has more than the types of a header file: functions, variables, enumerations, tags, sections.
-/

namespace Btf.Spec

open Btf

/-- The file for a header file with the types `Ts`, with any other declarations before and after. -/
def amongProgram (p : Nat) (before : List Decl) (Ts : List CType) (after : List Decl) : List Decl :=
  .struct (str "list_head") (UInt32.ofNat (2 * p)) [] :: (before ++ declareAll (1 + before.length) Ts ++ after)

/-- `i` is the last place in the list where a declaration with the name is. -/
def LastNamed (ds : List Decl) (name : Name) (i : Nat) : Prop :=
  (∃ d, ds[i]? = some d ∧ declName d = name) ∧ ∀ j d, i < j → ds[j]? = some d → declName d ≠ name

end Btf.Spec

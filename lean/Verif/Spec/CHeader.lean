import Verif.Spec.CTypes

/-!
# Many C types in one file
-/

namespace Btf.Spec

open Btf

/-- The name by which the type can be asked for: that of a typedef, or the tag of a struct or union. -/
def CType.label : CType → Name
  | .renamed (.typedef name) _ => name
  | .record _ tag _ _ => tag
  | _ => []

mutual
/-- The type, and all types it is made of. -/
def CType.parts : CType → List CType
  | .scalar s => [.scalar s]
  | .pointer w => [.pointer w]
  | .array n t => t.parts ++ [.array n t]
  | .record isUnion tag s ms => ms.parts ++ [.record isUnion tag s ms]
  | .renamed how t => t.parts ++ [.renamed how t]

def CMembers.parts : CMembers → List CType
  | .nil => []
  | .cons _ _ _ type rest => type.parts ++ rest.parts
end

/-- The type without typedefs and qualifiers around it. -/
def CType.core : CType → CType
  | .renamed _ t => t.core
  | t => t

/-- What a header file declares: types, one after the other. -/
def headerParts (Ts : List CType) : List CType := Ts.flatMap CType.parts

/-- A name stands for one type (but `typedef struct s { .. } s` and `typedef const struct s s` are possible). -/
def OneMeaning (Ts : List CType) : Prop :=
  ∀ S ∈ headerParts Ts, ∀ S' ∈ headerParts Ts, S.label = S'.label → S.label ≠ [] → S.core = S'.core

/-- The declarations for the types, which get the ids after `k`. -/
def declareAll : Nat → List CType → List Decl
  | _, [] => []
  | k, T :: Ts => T.declare k ++ declareAll (k + T.count) Ts

/-- `struct list_head`, with two pointers of `p` bytes, and all types of a header file. -/
def headerProgram (p : Nat) (Ts : List CType) : List Decl :=
  .struct (str "list_head") (UInt32.ofNat (2 * p)) [] :: declareAll 1 Ts

end Btf.Spec

import Verif.Model.Path

/-!
# The path syntax

A grammar for access paths, written without reference to the parser. A path is a string given by its
UTF-8 bytes; letters and digits of names are classified by the byte value taken as a Latin-1 code point.
Only the *type* of components (`PathComponent`) is shared with the model.
-/

namespace Btf.Spec

/-- The code points below 256 that Unicode calls alphabetic. -/
def Letter (c : Nat) : Prop :=
  (65 ≤ c ∧ c ≤ 90) ∨ (97 ≤ c ∧ c ≤ 122) ∨ c = 170 ∨ c = 181 ∨ c = 186
    ∨ (192 ≤ c ∧ c ≤ 214) ∨ (216 ≤ c ∧ c ≤ 246) ∨ (248 ≤ c ∧ c ≤ 255)

/-- The code points below 256 that Unicode calls numeric: the ASCII digits, superscripts, fractions. -/
def NumericSign (c : Nat) : Prop :=
  (48 ≤ c ∧ c ≤ 57) ∨ c = 178 ∨ c = 179 ∨ c = 185 ∨ c = 188 ∨ c = 189 ∨ c = 190

/-- A name starts with a letter or `_` and continues with letters, numeric signs and `_`. -/
def NameStart (b : UInt8) : Prop := Letter b.toNat ∨ b.toNat = 95
def NameChar (b : UInt8) : Prop := Letter b.toNat ∨ NumericSign b.toNat ∨ b.toNat = 95

inductive IsName : Str → Prop where
  | mk (b : UInt8) (rest : Str) : NameStart b → (∀ c ∈ rest, NameChar c) → IsName (b :: rest)

/-- An ASCII decimal digit. -/
def Digit (b : UInt8) : Prop := 48 ≤ b.toNat ∧ b.toNat ≤ 57

/-- The decimal value of a digit string. -/
def decimal (ds : Str) : Nat := ds.foldl (fun acc d => 10 * acc + (d.toNat - 48)) 0

/-- `ds` is a decimal literal for `i`, which is below `limit`. -/
structure IsIndex (limit : Nat) (ds : Str) (i : Nat) : Prop where
  nonempty : ds ≠ []
  digits : ∀ d ∈ ds, Digit d
  value : decimal ds = i
  fits : i < limit

/-- What may follow a component: any number of `.name` and `[index]`. -/
inductive Parts (limit : Nat) : Str → List PathComponent → Prop where
  | nil : Parts limit [] []
  | name {n rest : Str} {cs : List PathComponent} :
      IsName n → Parts limit rest cs → Parts limit ([46] ++ n ++ rest) (.name n :: cs)
  | index {ds rest : Str} {i : Nat} {cs : List PathComponent} :
      IsIndex limit ds i → Parts limit rest cs →
      Parts limit ([91] ++ ds ++ [93] ++ rest) (.index i :: cs)

/-- The documented path syntax: nothing, or `name` or `[index]` followed by parts. `limit` is the number
of values of `usize`. -/
inductive Path (limit : Nat) : Str → List PathComponent → Prop where
  | empty : Path limit [] []
  | name {n rest : Str} {cs : List PathComponent} :
      IsName n → Parts limit rest cs → Path limit (n ++ rest) (.name n :: cs)
  | index {ds rest : Str} {i : Nat} {cs : List PathComponent} :
      IsIndex limit ds i → Parts limit rest cs →
      Path limit ([91] ++ ds ++ [93] ++ rest) (.index i :: cs)

/-- The syntax the crate accepts: the documented one, plus one dangling `.` after a non-empty path, or
one dangling `[` after a path that ends in a name. -/
inductive AcceptedPath (limit : Nat) : Str → List PathComponent → Prop where
  | strict {p : Str} {cs : List PathComponent} : Path limit p cs → AcceptedPath limit p cs
  | danglingDot {p : Str} {cs : List PathComponent} :
      Path limit p cs → cs ≠ [] → AcceptedPath limit (p ++ [46]) cs
  | danglingOpen {p n : Str} {cs : List PathComponent} :
      Path limit p cs → cs.getLast? = some (.name n) → AcceptedPath limit (p ++ [91]) cs

end Btf.Spec

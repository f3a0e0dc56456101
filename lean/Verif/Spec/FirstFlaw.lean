import Verif.Spec.Flaws

/-!
# Which of several flaws is reported

What the parser needs from a file, in the order in which it asks for it. The first need that is not met determines
the error. (`Spec.FileFlaw` does not say which flaw comes first.)
-/

namespace Btf.Spec

open Btf

/-- The first of the needs `ns` that is not met is not met because of `q`. -/
def First {N : Type} (unmet : N → LoadReason → Prop) (ns : List N) (q : LoadReason) : Prop :=
  ∃ before n after, ns = before ++ n :: after ∧ (∀ m ∈ before, ∀ q', ¬ unmet m q') ∧ unmet n q

/-- The file has no `n` bytes at `pos`, and this is what the source says about it. -/
def Missing (R : Readable) (f : List UInt8) (pos n : Nat) (q : LoadReason) : Prop :=
  f.length < pos + n ∧ ∃ history x, R.read history pos n = .error x ∧ q = .source x

/-- What the source says about a request that it cannot answer does not depend on the earlier requests. -/
def SameWords (R : Readable) : Prop :=
  ∀ h h' pos n x x', R.read h pos n = .error x → R.read h' pos n = .error x' → x = x'

/-! ### The header of the file -/

inductive HeaderNeed where
  /-- `n` bytes at `pos`, in one request. -/
  | bytes (pos n : Nat)
  /-- The first two bytes are one of the magics. -/
  | magic
  /-- The type section starts before 4 GiB. -/
  | typeStart
  /-- The type section ends before 4 GiB. -/
  | typeEnd

def HeaderNeed.unmet (R : Readable) (f : List UInt8) : HeaderNeed → LoadReason → Prop
  | bytes pos n, q => Missing R f pos n q
  | magic, q => ∃ v : UInt16, q = .invalidMagic v ∧ (∀ e, f.take 2 ≠ Spec.magic e) ∧
      f[0]? = some (UInt8.ofNat (v.toNat % 256)) ∧ f[1]? = some (UInt8.ofNat (v.toNat / 256))
  | typeStart, q => q = .typeSectionStart ∧ ∃ e fh, Preamble f e fh ∧ 2 ^ 32 ≤ Spec.typeStart fh
  | typeEnd, q => q = .typeSectionEnd ∧ ∃ e fh, Preamble f e fh ∧ 2 ^ 32 ≤ Spec.typeEnd fh

/-- The magic; version, flags and the five words; then the place of the type section. -/
def headerNeeds : List HeaderNeed :=
  [.bytes 0 2, .magic, .bytes 2 1, .bytes 3 1, .bytes 4 4, .bytes 8 4, .bytes 12 4, .bytes 16 4, .bytes 20 4, .typeStart, .typeEnd]

/-! ### Records -/

inductive Need where
  /-- `n` bytes at `pos`, in one request. -/
  | bytes (pos n : Nat)
  /-- The type section goes on up to `pos`. -/
  | inside (pos : Nat)
  /-- The word at `pos` has a valid kind in bits 24-28. -/
  | kind (pos : Nat)
  /-- The word at `pos` is the offset of a string. -/
  | string (pos : Nat)
  /-- The word at `pos` is 0 or the offset of a string. -/
  | name (pos : Nat)
  /-- The word at `pos` is a multiple of 8. -/
  | aligned (pos : Nat)

/-- The string at offset `off` cannot be decoded because of `q`. Strings are read byte by byte. -/
def BadString (R : Readable) (f : List UInt8) (fh : FileHeader) (off : UInt32) (q : LoadReason) : Prop :=
  StringFlaw f fh off q ∧ ∀ x, q = .source x → Missing R f (max f.length (strStart fh + off.toNat)) 1 q

def Need.unmet (R : Readable) (f : List UInt8) (e : Endianness) (fh : FileHeader) : Need → LoadReason → Prop
  | bytes pos n, q => Missing R f pos n q
  | inside pos, q => q = .typeSectionOffset ∧ typeEnd fh < pos
  | kind pos, q => ∃ info value : UInt32, q = .invalidKind value ∧ Word f e pos info ∧
      value.toNat = info.toNat / 2 ^ 24 % 32 ∧ ∀ k, kindCode k ≠ value.toNat
  | string pos, q => ∃ off, Word f e pos off ∧ BadString R f fh off q
  | name pos, q => ∃ off, Word f e pos off ∧ off ≠ 0 ∧ BadString R f fh off q
  | aligned pos, q => q = .unaligned ∧ ∃ w, Word f e pos w ∧ ¬ 8 ∣ w.toNat

/-- The header of a record at `pos`: the kind is looked at before the third word is read. -/
def recordNeeds (pos : Nat) : List Need :=
  [.inside (pos + 12), .bytes pos 4, .bytes (pos + 4) 4, .kind (pos + 4), .bytes (pos + 8) 4]

/-- The items of the body, `size` bytes each. -/
def itemNeeds (vlen size pos : Nat) (item : Nat → List Need) : List Need :=
  (List.range vlen).flatMap fun i => item (pos + i * size)

/-- A member: the three words, its name, its position. -/
def memberNeeds (kindFlag : Bool) (pos : Nat) : List Need :=
  [.bytes pos 4, .bytes (pos + 4) 4, .bytes (pos + 8) 4, .name pos] ++ if kindFlag then [] else [.aligned (pos + 8)]

/-- The rest of the record at `pos`: the body must be inside the section, then the items are read; the name of the record
comes last. -/
def bodyNeeds (th : Header) (pos : Nat) : List Need :=
  .inside (pos + 12 + boundedSize .crate th.kind th.vlen) ::
  match th.kind with
  | .Ptr | .Volatile | .Const | .Restrict => []
  | .Fwd | .Typedef | .Func | .Float | .TypeTag => [.name pos]
  | .Int | .Var | .DeclTag => [.bytes (pos + 12) 4, .name pos]
  | .Array => [.bytes (pos + 12) 4, .bytes (pos + 16) 4, .bytes (pos + 20) 4]
  | .Struct | .Union => itemNeeds th.vlen 12 (pos + 12) (memberNeeds th.kindFlag) ++ [.name pos]
  | .Enum => itemNeeds th.vlen 8 (pos + 12) (fun p => [.bytes p 4, .string p, .bytes (p + 4) 4]) ++ [.name pos]
  | .Enum64 => itemNeeds th.vlen 12 (pos + 12) (fun p => [.bytes p 4, .string p, .bytes (p + 4) 8]) ++ [.name pos]
  | .FuncProto => itemNeeds th.vlen 8 (pos + 12) (fun p => [.bytes p 4, .bytes (p + 4) 4, .name p])
  | .DataSec => itemNeeds th.vlen 12 (pos + 12) (fun p => [.bytes p 4, .bytes (p + 4) 4, .bytes (p + 8) 4]) ++ [.name pos]

/-- The first flaw of the file: in its header; in the header of a record; or in the body of a record. -/
inductive FirstFlaw (R : Readable) (f : List UInt8) (q : LoadReason) : Prop where
  | header : First (HeaderNeed.unmet R f) headerNeeds q → FirstFlaw R f q
  | record {e fh vs pos} : Preamble f e fh → typeEnd fh < 2 ^ 32 → Records .crate f e fh (typeStart fh) vs pos →
      pos < typeEnd fh → First (Need.unmet R f e fh) (recordNeeds pos) q → FirstFlaw R f q
  | body {e fh vs pos th} : Preamble f e fh → typeEnd fh < 2 ^ 32 → Records .crate f e fh (typeStart fh) vs pos →
      pos + 12 ≤ typeEnd fh → HeaderAt f e pos th → First (Need.unmet R f e fh) (bodyNeeds th pos) q → FirstFlaw R f q

end Btf.Spec

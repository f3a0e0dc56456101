import Verif.Spec.Format

/-!
# What can be wrong with a file

`FileFlaw f q`: the file has a defect for which the error `q` is the appropriate one. A file may have
several flaws; they are only looked for in the header and in the first record that does not decode.
If the file is shorter than its headers say, the error comes from the `Readable`, so any error is allowed.
-/

namespace Btf.Spec

open Btf

/-- The string at offset `off` cannot be decoded. -/
inductive StringFlaw (f : List UInt8) (fh : FileHeader) (off : UInt32) : LoadReason → Prop where
  /-- The section starts beyond 4 GiB. -/
  | sectionStart : 2 ^ 32 ≤ strStart fh → StringFlaw f fh off .stringSectionStart
  /-- The section ends beyond 4 GiB. -/
  | sectionEnd : strStart fh < 2 ^ 32 → 2 ^ 32 ≤ strEnd fh → StringFlaw f fh off .stringSectionEnd
  /-- The string starts beyond 4 GiB. -/
  | overflow : strEnd fh < 2 ^ 32 → 2 ^ 32 ≤ strStart fh + off.toNat → StringFlaw f fh off .stringOverflow
  /-- The string does not start inside the section. The error has its place in the file. -/
  | outside {place : UInt32} : strEnd fh < 2 ^ 32 → place.toNat = strStart fh + off.toNat → strEnd fh ≤ place.toNat →
      StringFlaw f fh off (.stringOffset place)
  /-- The section has no NUL after the start of the string. The error has its place in the file. -/
  | unterminated {place : UInt32} : strEnd fh < 2 ^ 32 → place.toNat = strStart fh + off.toNat → place.toNat < strEnd fh →
      (∀ i, place.toNat ≤ i → i < strEnd fh → ∃ b, f[i]? = some b ∧ b ≠ 0) →
      StringFlaw f fh off (.unterminated place)
  /-- The file ends before the section and before a NUL. -/
  | truncated {e} : strEnd fh < 2 ^ 32 → strStart fh + off.toNat < strEnd fh → f.length < strEnd fh →
      (∀ i, strStart fh + off.toNat ≤ i → f[i]? ≠ some 0) → StringFlaw f fh off (.source e)

/-- Whether records of this kind have a name. -/
def named : Kind → Bool
  | .Ptr | .Array | .Volatile | .Const | .Restrict | .FuncProto => false
  | _ => true

/-- The size of the items of which the body consists. -/
def itemSize : Kind → Nat
  | .Enum | .FuncProto => 8
  | _ => 12

/-- The record with header `th` and its body at `pos` refers to the string at offset `off`: as its name, as
the (optional) name of a member or parameter, or as the (mandatory) name of an enumerator. -/
inductive StringRef (f : List UInt8) (e : Endianness) (th : Header) (pos : Nat) (off : UInt32) : Prop where
  | name : named th.kind = true → off = th.nameOffset → off ≠ 0 → StringRef f e th pos off
  | item (i : Nat) : th.kind = .Struct ∨ th.kind = .Union ∨ th.kind = .FuncProto → i < th.vlen →
      Word f e (pos + i * itemSize th.kind) off → off ≠ 0 → StringRef f e th pos off
  | enumerator (i : Nat) : th.kind = .Enum ∨ th.kind = .Enum64 → i < th.vlen →
      Word f e (pos + i * itemSize th.kind) off → StringRef f e th pos off

/-- The record at `pos` cannot be decoded. -/
inductive RecordFlaw (f : List UInt8) (e : Endianness) (fh : FileHeader) (pos : Nat) : LoadReason → Prop where
  /-- The section ends inside the header of the record. -/
  | header : typeEnd fh < pos + 12 → RecordFlaw f e fh pos .typeSectionOffset
  /-- The file ends inside the header of the record. -/
  | headerTruncated {err} : pos + 12 ≤ typeEnd fh → f.length < pos + 12 → RecordFlaw f e fh pos (.source err)
  /-- There is no such kind. The error has the number. -/
  | kind {info value : UInt32} : pos + 12 ≤ typeEnd fh → Word f e (pos + 4) info →
      value.toNat = info.toNat / 2 ^ 24 % 32 → (∀ k, kindCode k ≠ value.toNat) → RecordFlaw f e fh pos (.invalidKind value)
  /-- The section ends inside the body of the record. -/
  | body {th} : pos + 12 ≤ typeEnd fh → HeaderAt f e pos th →
      typeEnd fh < pos + 12 + boundedSize .crate th.kind th.vlen →
      RecordFlaw f e fh pos .typeSectionOffset
  /-- The file ends inside the body of the record. -/
  | bodyTruncated {th err} : pos + 12 + boundedSize .crate th.kind th.vlen ≤ typeEnd fh → HeaderAt f e pos th →
      f.length < pos + 12 + bodySize th.kind th.vlen → RecordFlaw f e fh pos (.source err)
  /-- A string cannot be decoded. -/
  | string {th off q} : pos + 12 + boundedSize .crate th.kind th.vlen ≤ typeEnd fh → HeaderAt f e pos th →
      StringRef f e th (pos + 12) off → StringFlaw f fh off q → RecordFlaw f e fh pos q
  /-- A member is not at a byte boundary although the kind flag is not set. -/
  | misaligned {th i raw} : pos + 12 + boundedSize .crate th.kind th.vlen ≤ typeEnd fh → HeaderAt f e pos th →
      th.kind = .Struct ∨ th.kind = .Union → th.kindFlag = false → i < th.vlen →
      Word f e (pos + 12 + i * 12 + 8) raw → ¬ 8 ∣ raw.toNat → RecordFlaw f e fh pos .unaligned

/-- The file cannot be decoded. -/
inductive FileFlaw (f : List UInt8) : LoadReason → Prop where
  /-- The file is shorter than the header. -/
  | truncated {e} : f.length < 24 → FileFlaw f (.source e)
  /-- The first two bytes are wrong. The error has them, as a little-endian number. -/
  | magic {v : UInt16} : (∀ e, f.take 2 ≠ magic e) → f[0]? = some (UInt8.ofNat (v.toNat % 256)) →
      f[1]? = some (UInt8.ofNat (v.toNat / 256)) → FileFlaw f (.invalidMagic v)
  /-- The type section starts beyond 4 GiB. -/
  | sectionStart {e fh} : Preamble f e fh → 2 ^ 32 ≤ typeStart fh → FileFlaw f .typeSectionStart
  /-- The type section ends beyond 4 GiB. -/
  | sectionEnd {e fh} : Preamble f e fh → typeStart fh < 2 ^ 32 → 2 ^ 32 ≤ typeEnd fh → FileFlaw f .typeSectionEnd
  /-- A record is wrong; those before it are fine. -/
  | record {e fh vs pos q} : Preamble f e fh → typeEnd fh < 2 ^ 32 →
      Records .crate f e fh (typeStart fh) vs pos → pos < typeEnd fh → RecordFlaw f e fh pos q → FileFlaw f q

end Btf.Spec

import Verif.Spec.FirstFlaw
import Verif.Spec.Shape

/-!
# Which requests `new` makes, in which order

A request is a place (offset, number of bytes). The needs of the parser (`Spec.FirstFlaw`) are listed in the order in which it
asks for them; here it is said which requests each of them takes.
-/

namespace Btf.Spec

open Btf

/-- The string at offset `off` ends inside the section of the strings; its bytes are asked for one by one, up to the first zero,
which is included. -/
def StringAsks (f : List UInt8) (fh : FileHeader) (off : UInt32) (l : List (Nat × Nat)) : Prop :=
  strEnd fh < 2 ^ 32 ∧ ∃ k, strStart fh + off.toNat + k < strEnd fh ∧
    (∀ i < k, f[strStart fh + off.toNat + i]? ≠ some 0) ∧ f[strStart fh + off.toNat + k]? = some 0 ∧
    l = (List.range (k + 1)).map fun i => (strStart fh + off.toNat + i, 1)

/-- There is no string at offset `off`: either this can be seen from the header of the file; or the bytes from there on are asked
for one by one, up to the end of the section, or up to the first byte that the file does not have. -/
def StringStops (f : List UInt8) (fh : FileHeader) (off : UInt32) (l : List (Nat × Nat)) : Prop :=
  ((2 ^ 32 ≤ strEnd fh ∨ strEnd fh ≤ strStart fh + off.toNat) ∧ l = []) ∨
  (strEnd fh < 2 ^ 32 ∧ strStart fh + off.toNat < strEnd fh ∧
    (∀ i, strStart fh + off.toNat ≤ i → i < strEnd fh → f[i]? ≠ some 0) ∧
    ∃ last, (last = strEnd fh ∧ strEnd fh ≤ f.length ∨
        last = max f.length (strStart fh + off.toNat) + 1 ∧ f.length < strEnd fh) ∧
      l = (List.range (last - (strStart fh + off.toNat))).map fun i => (strStart fh + off.toNat + i, 1))

/-- The need is met, and these requests are made for it. -/
def Need.asks (f : List UInt8) (e : Endianness) (fh : FileHeader) : Need → List (Nat × Nat) → Prop
  | bytes pos n, l => pos + n ≤ f.length ∧ l = [(pos, n)]
  | inside pos, l => pos ≤ typeEnd fh ∧ l = []
  | kind pos, l => (∃ info k, Word f e pos info ∧ kindCode k = info.toNat / 2 ^ 24 % 32) ∧ l = []
  | string pos, l => ∃ off, Word f e pos off ∧ StringAsks f fh off l
  | name pos, l => ∃ off, Word f e pos off ∧ if off = 0 then l = [] else StringAsks f fh off l
  | aligned pos, l => (∃ w, Word f e pos w ∧ 8 ∣ w.toNat) ∧ l = []

/-- The need is not met, and these requests are made until this is known. -/
def Need.stops (f : List UInt8) (e : Endianness) (fh : FileHeader) : Need → List (Nat × Nat) → Prop
  | bytes pos n, l => f.length < pos + n ∧ l = [(pos, n)]
  | inside pos, l => typeEnd fh < pos ∧ l = []
  | kind pos, l => (∃ info, Word f e pos info ∧ ∀ k, kindCode k ≠ info.toNat / 2 ^ 24 % 32) ∧ l = []
  | string pos, l => ∃ off, Word f e pos off ∧ StringStops f fh off l
  | name pos, l => ∃ off, Word f e pos off ∧ off ≠ 0 ∧ StringStops f fh off l
  | aligned pos, l => (∃ w, Word f e pos w ∧ ¬ 8 ∣ w.toNat) ∧ l = []

/-- The requests for the needs, one after the other; all are met. -/
inductive AsksAll (f : List UInt8) (e : Endianness) (fh : FileHeader) : List Need → List (Nat × Nat) → Prop where
  | nil : AsksAll f e fh [] []
  | cons {n ns l l'} : n.asks f e fh l → AsksAll f e fh ns l' → AsksAll f e fh (n :: ns) (l ++ l')

/-- The requests for the needs, one after the other, up to the first that is not met; the later ones are not looked at. -/
inductive StopsAt (f : List UInt8) (e : Endianness) (fh : FileHeader) : List Need → List (Nat × Nat) → Prop where
  | here {n ns l} : n.stops f e fh l → StopsAt f e fh (n :: ns) l
  | later {n ns l l'} : n.asks f e fh l → StopsAt f e fh ns l' → StopsAt f e fh (n :: ns) (l ++ l')

/-- The requests for the records from `pos` on: for each its header, its body and the names. -/
inductive RecordAsks (f : List UInt8) (e : Endianness) (fh : FileHeader) : Nat → List (Nat × Nat) → Prop where
  | nil {pos} : typeEnd fh ≤ pos → RecordAsks f e fh pos []
  | cons {pos th l l'} : pos < typeEnd fh → HeaderAt f e pos th → AsksAll f e fh (recordNeeds pos ++ bodyNeeds th pos) l →
      RecordAsks f e fh (pos + 12 + bodySize th.kind th.vlen) l' → RecordAsks f e fh pos (l ++ l')

/-- The requests for the records from `pos` on, one of which cannot be decoded. -/
inductive RecordStops (f : List UInt8) (e : Endianness) (fh : FileHeader) : Nat → List (Nat × Nat) → Prop where
  | header {pos l} : pos < typeEnd fh → StopsAt f e fh (recordNeeds pos) l → RecordStops f e fh pos l
  | body {pos th l} : pos < typeEnd fh → HeaderAt f e pos th → StopsAt f e fh (recordNeeds pos ++ bodyNeeds th pos) l →
      RecordStops f e fh pos l
  | later {pos th l l'} : pos < typeEnd fh → HeaderAt f e pos th → AsksAll f e fh (recordNeeds pos ++ bodyNeeds th pos) l →
      RecordStops f e fh (pos + 12 + bodySize th.kind th.vlen) l' → RecordStops f e fh pos (l ++ l')

/-- All requests for a file: the fields of the header, then the records. -/
def FileAsks (f : List UInt8) (l : List (Nat × Nat)) : Prop :=
  ∃ e fh l', Preamble f e fh ∧ typeEnd fh < 2 ^ 32 ∧ RecordAsks f e fh (typeStart fh) l' ∧ l = headerFields ++ l'

/-- All requests for a file that is refused: the magic, if it is wrong; the fields of the header up to the one that is missing; all fields
of the header, if the type section ends behind 4 GiB; or the fields of the header and the records up to the one that cannot
be decoded. -/
inductive FileStops (f : List UInt8) : List (Nat × Nat) → Prop where
  | magic : 2 ≤ f.length → (∀ e, f.take 2 ≠ Spec.magic e) → FileStops f [(0, 2)]
  | short {i pos n} : headerFields[i]? = some (pos, n) → f.length < pos + n → (∀ j < i, ∀ p m, headerFields[j]? = some (p, m) → p + m ≤ f.length) →
      (0 < i → ∃ e, f.take 2 = Spec.magic e) → FileStops f (headerFields.take (i + 1))
  | big {e fh} : Preamble f e fh → 2 ^ 32 ≤ typeEnd fh → FileStops f headerFields
  | record {e fh l} : Preamble f e fh → typeEnd fh < 2 ^ 32 → RecordStops f e fh (typeStart fh) l → FileStops f (headerFields ++ l)

end Btf.Spec

import Verif.Spec.Encode
import Verif.Proofs.FileSame
import Verif.Proofs.FileDialect

/-!
# The writer of `Spec/Encode` writes what it should
-/

namespace Btf

open Spec


variable {f : List UInt8} {e : Endianness} {fh : FileHeader} {off : Name → UInt32}

/-! ### Words -/

theorem flatMap_getElem? {α β : Type} {g : α → List β} {k : Nat} (hg : ∀ x, (g x).length = k) (xs : List α) :
    ∀ {i j : Nat}, j < k → (xs.flatMap g)[k * i + j]? = xs[i]?.bind (fun x => (g x)[j]?) := by
  induction xs with
  | nil => intro i j hj; simp
  | cons x xs ih =>
    intro i j hj
    rw [List.flatMap_cons]
    cases i with
    | zero => rw [List.getElem?_append_left (by rw [hg]; omega)]; simp
    | succ i =>
      rw [List.getElem?_append_right (by rw [hg]; rw [Nat.mul_succ]; omega), hg]
      have : k * (i + 1) + j - k = k * i + j := by rw [Nat.mul_succ]; omega
      rw [this, ih hj]; simp

theorem flatMap_length' {α β : Type} {g : α → List β} {k : Nat} (hg : ∀ x, (g x).length = k) (xs : List α) :
    (xs.flatMap g).length = k * xs.length := by
  induction xs with
  | nil => simp
  | cons x xs ih => rw [List.flatMap_cons, List.length_append, hg, ih, List.length_cons, Nat.mul_succ]; omega

/-- The header that the head words mean. -/
def headOf (kind : Kind) (name : UInt32) (vlen : Nat) (kindFlag : Bool) (sizeOrType : UInt32) : Header :=
  ⟨kind, name, vlen, kindFlag, sizeOrType⟩

theorem kindCode_lt (k : Kind) : kindCode k < 32 := by cases k <;> decide

theorem headerAt_words {pos : Nat} {k : Kind} {name sz : UInt32} {vlen : Nat} {kf : Bool} {rest : List UInt32}
    (hv : vlen < 2 ^ 16)
    (hw : ∀ j w, (headWords k name vlen kf sz ++ rest)[j]? = some w → Word f e (pos + 4 * j) w) :
    HeaderAt f e pos ⟨k, name, vlen, kf, sz⟩ := by
  have hk := kindCode_lt k
  refine ⟨hw 0 _ rfl, hw 2 _ rfl, _, hw 1 _ rfl, ?_, ?_, ?_⟩ <;>
    (rw [UInt32.toNat_ofNat_of_lt' (by rw [UInt32.size]; cases kf <;> simp only [b2n, Bool.false_eq_true, ↓reduceIte] <;> omega)]
     cases kf <;> simp only [b2n, Bool.false_eq_true, ↓reduceIte])
  all_goals first | omega | (simp; omega)

/-- The words after the head. -/
theorem body_words {pos : Nat} {k : Kind} {name sz : UInt32} {vlen : Nat} {kf : Bool} {rest : List UInt32}
    (hw : ∀ j w, (headWords k name vlen kf sz ++ rest)[j]? = some w → Word f e (pos + 4 * j) w) {j : Nat} {w : UInt32}
    (h : rest[j]? = some w) : Word f e (pos + 12 + 4 * j) w := by
  have := hw (j + 3) w (by rw [headWords, List.getElem?_append_right (by simp)]; simpa using h)
  rwa [show pos + 4 * (j + 3) = pos + 12 + 4 * j by omega] at this

/-- The words of item `i` of a list. -/
theorem item_words {α : Type} {g : α → List UInt32} {k pos : Nat} (hg : ∀ x, (g x).length = k) {xs : List α}
    (hw : ∀ j w, (xs.flatMap g)[j]? = some w → Word f e (pos + 4 * j) w) {i : Nat} (hi : i < xs.length) {j : Nat} {w : UInt32}
    (hj : (g xs[i])[j]? = some w) : Word f e (pos + i * (4 * k) + 4 * j) w := by
  have hjk : j < k := by
    have := (List.getElem?_eq_some_iff.1 hj).1
    rw [hg] at this; exact this
  have := hw (k * i + j) w (by rw [flatMap_getElem? hg xs hjk, List.getElem?_eq_getElem hi]; exact hj)
  rwa [show pos + 4 * (k * i + j) = pos + i * (4 * k) + 4 * j by ring] at this

/-! ### Records -/

/-- The offset of a member. -/
def offsetOfDecl (m : MemberDecl) : Offset :=
  match m.width with
  | none => .byteOffset (UInt32.ofNat (m.position / 8))
  | some w => .bitOffsetAndSize (UInt32.ofNat m.position) (UInt32.ofNat w)

def memberOf (off : Name → UInt32) (m : MemberDecl) : Member := ⟨off m.name, nameStr m.name, m.tid, offsetOfDecl m⟩

def structOf (off : Name → UInt32) (name : Name) (size : UInt32) (ms : List MemberDecl) : StructData :=
  ⟨nameStr name, size.toNat, ms.map (memberOf off)⟩

def enumerator32 (signed : Bool) (v : Name × Int) : NamedValue32 :=
  ⟨latin1 v.1, if signed then .signed (Int32.ofInt v.2) else .unsigned (UInt32.ofNat v.2.toNat)⟩

def enumerator64 (signed : Bool) (v : Name × Int) : NamedValue64 :=
  ⟨latin1 v.1, if signed then .signed (Int64.ofInt v.2) else .unsigned (UInt64.ofNat v.2.toNat)⟩

/-- The type read from the words of a declaration. -/
def variantOf (off : Name → UInt32) : Decl → TypeVariant
  | .int name size signed char boolean offset bits => .int ⟨.Int, off name, 0, false, size⟩
      ⟨nameStr name, size.toNat, signed, char, boolean, offset.toNat, bits.toNat⟩
  | .ptr tid => .ptr ⟨.Ptr, 0, 0, false, tid⟩ ⟨tid⟩
  | .array element index count => .array ⟨.Array, 0, 0, false, 0⟩ ⟨element, index, count⟩
  | .struct name size ms => .struct ⟨.Struct, off name, ms.length, hasBitfield ms, size⟩ (structOf off name size ms)
  | .union name size ms => .union ⟨.Union, off name, ms.length, hasBitfield ms, size⟩ (structOf off name size ms)
  | .enum name size signed vs => .enum ⟨.Enum, off name, vs.length, signed, size⟩
      ⟨nameStr name, size.toNat, vs.map (enumerator32 signed), signed⟩
  | .fwd name tid => .fwd ⟨.Fwd, off name, 0, false, tid⟩ ⟨nameStr name, tid⟩
  | .typedef name tid => .typedef ⟨.Typedef, off name, 0, false, tid⟩ ⟨nameStr name, tid⟩
  | .volatile tid => .volatile ⟨.Volatile, 0, 0, false, tid⟩ ⟨tid⟩
  | .const tid => .const ⟨.Const, 0, 0, false, tid⟩ ⟨tid⟩
  | .restrict tid => .restrict ⟨.Restrict, 0, 0, false, tid⟩ ⟨tid⟩
  | .func name prototype => .func ⟨.Func, off name, 0, false, prototype⟩ ⟨nameStr name, prototype⟩
  | .funcProto result ps => .funcProto ⟨.FuncProto, 0, ps.length, false, result⟩
      ⟨ps.map (fun p => ⟨off p.1, nameStr p.1, p.2⟩), result⟩
  | .var name tid linkage => .var ⟨.Var, off name, 0, false, tid⟩
      ⟨nameStr name, tid, linkage, if linkage = 0 then .static else .global⟩
  | .dataSec name size vs => .dataSec ⟨.DataSec, off name, vs.length, false, size⟩ ⟨nameStr name, size.toNat, vs⟩
  | .float name size => .float ⟨.Float, off name, 0, false, size⟩ ⟨nameStr name, size.toNat⟩
  | .declTag name tid index => .declTag ⟨.DeclTag, off name, 0, false, tid⟩ ⟨nameStr name, tid, index⟩
  | .typeTag name tid => .typeTag ⟨.TypeTag, off name, 0, false, tid⟩ ⟨nameStr name, tid⟩
  | .enum64 name size signed vs => .enum64 ⟨.Enum64, off name, vs.length, signed, size⟩
      ⟨nameStr name, size.toNat, vs.map (enumerator64 signed), signed⟩

/-- The names are in the string table. -/
structure NamesStored (f : List UInt8) (fh : FileHeader) (off : Name → UInt32) (names : List Name) : Prop where
  stored : ∀ name ∈ names, StringAt f fh (off name) (latin1 name)
  zero : ∀ name ∈ names, off name = 0 ↔ name = []

theorem NamesStored.sub {names names' : List Name} (h : NamesStored f fh off names) (hs : ∀ n ∈ names', n ∈ names) :
    NamesStored f fh off names' := ⟨fun n hn => h.stored n (hs n hn), fun n hn => h.zero n (hs n hn)⟩

theorem NamesStored.nameAt {names : List Name} (h : NamesStored f fh off names) {name : Name} (hn : name ∈ names) :
    NameAt f fh (off name) (nameStr name) := by
  unfold nameStr
  split
  · exact (h.zero name hn).2 ‹_›
  · exact ⟨fun h0 => ‹¬ _› ((h.zero name hn).1 h0), h.stored name hn⟩

theorem b2n_iff (b : Bool) : b2n b = 1 ↔ b = true := by cases b <;> simp [b2n]
theorem b2n_le (b : Bool) : b2n b ≤ 1 := by cases b <;> simp [b2n]

theorem intBody_words {pos : Nat} {th : Header} {name : Name} {signed char boolean : Bool} {offset bits : UInt8}
    (hn : NameAt f fh th.nameOffset (nameStr name))
    (hw : Word f e pos (UInt32.ofNat (b2n boolean * 2 ^ 26 + b2n char * 2 ^ 25 + b2n signed * 2 ^ 24 + offset.toNat * 2 ^ 16 + bits.toNat))) :
    IntBody f e fh th pos ⟨nameStr name, th.sizeOrType.toNat, signed, char, boolean, offset.toNat, bits.toNat⟩ := by
  have h1 := b2n_le boolean; have h2 := b2n_le char; have h3 := b2n_le signed
  have h4 := offset.toNat_lt; have h5 := bits.toNat_lt
  refine ⟨_, hw, hn, rfl, ?_, ?_, ?_, ?_, ?_⟩ <;>
    (rw [UInt32.toNat_ofNat_of_lt' (by rw [UInt32.size]; omega)]; try rw [← b2n_iff]) <;> simp only [] <;> omega

theorem offset_words {ms : List MemberDecl} {m : MemberDecl} (hm : m ∈ ms) (hg : GoodMember (hasBitfield ms) m) :
    MemberOffset (hasBitfield ms) (UInt32.ofNat (m.position + 2 ^ 24 * m.width.getD 0)) (offsetOfDecl m) := by
  obtain ⟨-, hg⟩ := hg
  unfold offsetOfDecl
  cases hw : m.width with
  | none =>
    rw [hw] at hg
    simp only [] at hg
    obtain ⟨h1, h2⟩ := hg
    simp only [Option.getD_none, Nat.mul_zero, Nat.add_zero]
    cases hb : hasBitfield ms with
    | false =>
      rw [hb] at h2
      simp only [Bool.false_eq_true, ↓reduceIte] at h2
      refine ⟨?_, rfl⟩
      simp only [bitPos]
      rw [UInt32.toNat_ofNat_of_lt' (by rw [UInt32.size]; omega), UInt32.toNat_ofNat_of_lt' (by rw [UInt32.size]; omega)]
      omega
    | true =>
      rw [hb] at h2
      simp only [↓reduceIte] at h2
      refine ⟨?_, ?_⟩
      · simp only [bitPos]
        rw [UInt32.toNat_ofNat_of_lt' (by rw [UInt32.size]; omega), UInt32.toNat_ofNat_of_lt' (by rw [UInt32.size]; omega)]
        omega
      · simp only [bitWidth]
        rw [UInt32.toNat_ofNat_of_lt' (by rw [UInt32.size]; omega)]
        omega
  | some w =>
    have hb : hasBitfield ms = true := List.any_eq_true.2 ⟨m, hm, by rw [hw]; rfl⟩
    rw [hw] at hg
    simp only [] at hg
    rw [hb]
    simp only [Option.getD_some]
    refine ⟨?_, ?_⟩
    · simp only [bitPos]
      rw [UInt32.toNat_ofNat_of_lt' (by rw [UInt32.size]; omega), UInt32.toNat_ofNat_of_lt' (by rw [UInt32.size]; omega)]
      omega
    · simp only [bitWidth]
      rw [UInt32.toNat_ofNat_of_lt' (by rw [UInt32.size]; omega), UInt32.toNat_ofNat_of_lt' (by rw [UInt32.size]; omega)]
      refine ⟨by omega, .inl ?_⟩
      intro h0
      have := congrArg UInt32.toNat h0
      rw [UInt32.toNat_ofNat_of_lt' (by rw [UInt32.size]; omega)] at this
      simp at this; omega

theorem structBody_words {pos : Nat} {th : Header} {name : Name} {ms : List MemberDecl}
    (hn : NamesStored f fh off (name :: ms.map MemberDecl.name)) (hoff : th.nameOffset = off name)
    (hl : th.vlen = ms.length) (hkf : th.kindFlag = hasBitfield ms) (hg : ∀ m ∈ ms, GoodMember (hasBitfield ms) m)
    (hw : ∀ j w, (ms.flatMap (words.memberWords off))[j]? = some w → Word f e (pos + 4 * j) w) :
    StructBody f e fh th pos (structOf off name th.sizeOrType ms) := by
  refine ⟨hoff ▸ hn.nameAt (by simp), rfl, by simp [structOf, hl], ?_⟩
  intro i hi
  simp only [structOf, List.length_map] at hi
  have hit := fun j w h => item_words (k := 3) (g := words.memberWords off) (fun _ => rfl) hw hi (j := j) (w := w) h
  simp only [structOf, List.getElem_map]
  have hmem := List.getElem_mem hi
  refine ⟨hit 0 _ rfl, hn.nameAt (by simp only [List.mem_cons, List.mem_map]; exact .inr ⟨_, hmem, rfl⟩), hit 1 _ rfl, _, hit 2 _ rfl, ?_⟩
  rw [hkf]
  exact offset_words hmem (hg _ hmem)

theorem value32_words {signed : Bool} {v : Name × Int} (h : InRange 32 signed v.2) :
    Value32 signed (lowWord v.2 0).toNat (enumerator32 signed v).value := by
  cases signed with
  | true =>
    simp only [InRange, ↓reduceIte, Nat.add_one_sub_one] at h
    simp only [enumerator32, ↓reduceIte, Value32, true_and, lowWord, pow_zero, Int.ediv_one]
    rw [Int32.toInt_ofInt_of_le (by omega) (by omega), UInt32.toNat_ofNat_of_lt' (by rw [UInt32.size]; omega)]
    simp only [twosComplement]
    split <;> omega
  | false =>
    simp only [InRange, Bool.false_eq_true, ↓reduceIte] at h
    simp only [enumerator32, Bool.false_eq_true, ↓reduceIte, Value32, true_and, lowWord, pow_zero, Int.ediv_one]
    rw [UInt32.toNat_ofNat_of_lt' (by rw [UInt32.size]; omega), UInt32.toNat_ofNat_of_lt' (by rw [UInt32.size]; omega)]
    omega

theorem value64_words {signed : Bool} {v : Name × Int} (h : InRange 64 signed v.2) :
    Value64 signed ((lowWord v.2 0).toNat + 2 ^ 32 * (lowWord v.2 32).toNat) (enumerator64 signed v).value := by
  cases signed with
  | true =>
    simp only [InRange, ↓reduceIte, Nat.add_one_sub_one] at h
    simp only [enumerator64, ↓reduceIte, Value64, true_and, lowWord, pow_zero, Int.ediv_one]
    rw [Int64.toInt_ofInt_of_le (by omega) (by omega), UInt32.toNat_ofNat_of_lt' (by rw [UInt32.size]; omega),
      UInt32.toNat_ofNat_of_lt' (by rw [UInt32.size]; omega)]
    simp only [twosComplement]
    split <;> omega
  | false =>
    simp only [InRange, Bool.false_eq_true, ↓reduceIte] at h
    simp only [enumerator64, Bool.false_eq_true, ↓reduceIte, Value64, true_and, lowWord, pow_zero, Int.ediv_one]
    rw [UInt32.toNat_ofNat_of_lt' (by rw [UInt32.size]; omega), UInt32.toNat_ofNat_of_lt' (by rw [UInt32.size]; omega),
      UInt64.toNat_ofNat_of_lt' (by rw [UInt64.size]; omega)]
    omega

theorem headWords_length (k : Kind) (name : UInt32) (vlen : Nat) (kf : Bool) (sz : UInt32) :
    (headWords k name vlen kf sz).length = 3 := rfl

/-- The number of words of a record. -/
theorem words_length (off : Name → UInt32) (d : Decl) : ∀ th, headerOf (variantOf off d) = some th →
    4 * (words off d).length = 12 + bodySize th.kind th.vlen := by
  intro th h
  cases d <;> cases h <;> simp only [words, List.length_append, headWords_length, bodySize, List.length_cons, List.length_nil]
  case struct ms => rw [flatMap_length' (k := 3) (fun _ => rfl)]; omega
  case union ms => rw [flatMap_length' (k := 3) (fun _ => rfl)]; omega
  case enum => rw [flatMap_length' (k := 2) (fun _ => rfl)]; omega
  case funcProto => rw [flatMap_length' (k := 2) (fun _ => rfl)]; omega
  case dataSec => rw [flatMap_length' (k := 3) (fun _ => rfl)]; omega
  case enum64 => rw [flatMap_length' (k := 3) (fun _ => rfl)]; omega

theorem record_words {pos : Nat} {d : Decl} (hg : Good d) (hn : NamesStored f fh off (namesOf d))
    (hw : ∀ j w, (words off d)[j]? = some w → Word f e (pos + 4 * j) w)
    (hend : pos + 4 * (words off d).length ≤ typeEnd fh) :
    RecordAt .documented f e fh pos (variantOf off d) (pos + 4 * (words off d).length) := by
  have key : ∀ th, headerOf (variantOf off d) = some th → HeaderAt f e pos th →
      Body .documented f e fh th (pos + 12) (variantOf off d) →
      RecordAt .documented f e fh pos (variantOf off d) (pos + 4 * (words off d).length) := by
    intro th h1 h2 h3
    have := words_length off d th h1
    exact ⟨th, h2, h3, by simp only [boundedSize]; omega, by omega⟩
  cases d with
  | int name size signed char boolean offset bits =>
    exact key _ rfl (headerAt_words (by decide) hw) ⟨rfl, rfl, intBody_words (hn.nameAt (by simp [namesOf])) (body_words hw (j := 0) rfl)⟩
  | ptr tid => exact key _ rfl (headerAt_words (rest := []) (by decide) (by simpa [words] using hw)) ⟨rfl, rfl, rfl⟩
  | array element index count =>
    exact key _ rfl (headerAt_words (by decide) hw) ⟨rfl, rfl, body_words hw (j := 0) rfl, body_words hw (j := 1) rfl, body_words hw (j := 2) rfl⟩
  | struct name size ms =>
    exact key _ rfl (headerAt_words hg.2.1 hw) ⟨rfl, rfl, structBody_words hn rfl rfl rfl hg.2.2 fun j w => body_words hw⟩
  | union name size ms =>
    exact key _ rfl (headerAt_words hg.2.1 hw) ⟨rfl, rfl, structBody_words hn rfl rfl rfl hg.2.2 fun j w => body_words hw⟩
  | enum name size signed vs =>
    refine key _ rfl (headerAt_words hg.2.1 hw) ⟨rfl, rfl, hn.nameAt (by simp [namesOf]), rfl, rfl, by simp, ?_⟩
    intro i hi
    simp only [List.length_map] at hi
    have hit := fun j w h => item_words (k := 2) (g := fun v : Name × Int => [off v.1, lowWord v.2 0]) (fun _ => rfl)
      (fun j w => body_words hw) hi (j := j) (w := w) h
    have hmem := List.getElem_mem hi
    simp only [List.getElem_map]
    exact ⟨_, _, hit 0 _ rfl, hn.stored _ (by simp only [namesOf, List.mem_cons, List.mem_map]; exact .inr ⟨_, hmem, rfl⟩),
      hit 1 _ rfl, value32_words (hg.2.2 _ hmem).2⟩
  | fwd name tid =>
    exact key _ rfl (headerAt_words (rest := []) (by decide) (by simpa [words] using hw)) ⟨rfl, rfl, hn.nameAt (by simp [namesOf]), rfl⟩
  | typedef name tid =>
    exact key _ rfl (headerAt_words (rest := []) (by decide) (by simpa [words] using hw)) ⟨rfl, rfl, hn.nameAt (by simp [namesOf]), rfl⟩
  | volatile tid => exact key _ rfl (headerAt_words (rest := []) (by decide) (by simpa [words] using hw)) ⟨rfl, rfl, rfl⟩
  | const tid => exact key _ rfl (headerAt_words (rest := []) (by decide) (by simpa [words] using hw)) ⟨rfl, rfl, rfl⟩
  | restrict tid => exact key _ rfl (headerAt_words (rest := []) (by decide) (by simpa [words] using hw)) ⟨rfl, rfl, rfl⟩
  | func name prototype =>
    exact key _ rfl (headerAt_words (rest := []) (by decide) (by simpa [words] using hw)) ⟨rfl, rfl, hn.nameAt (by simp [namesOf]), rfl⟩
  | funcProto result ps =>
    refine key _ rfl (headerAt_words hg.1 hw) ⟨rfl, rfl, rfl, by simp, ?_⟩
    intro i hi
    simp only [List.length_map] at hi
    have hit := fun j w h => item_words (k := 2) (g := fun p : Name × UInt32 => [off p.1, p.2]) (fun _ => rfl)
      (fun j w => body_words hw) hi (j := j) (w := w) h
    have hmem := List.getElem_mem hi
    simp only [List.getElem_map]
    exact ⟨hit 0 _ rfl, hn.nameAt (by simp only [namesOf, List.mem_map]; exact ⟨_, hmem, rfl⟩), hit 1 _ rfl⟩
  | var name tid linkage =>
    refine key _ rfl (headerAt_words (by decide) hw) ⟨rfl, rfl, hn.nameAt (by simp [namesOf]), rfl, body_words hw (j := 0) rfl, ?_⟩
    simp only []
    split <;> simp_all
  | dataSec name size vs =>
    refine key _ rfl (headerAt_words hg.2 hw) ⟨rfl, rfl, hn.nameAt (by simp [namesOf]), rfl, rfl, ?_⟩
    intro i hi
    have hit := fun j w h => item_words (k := 3) (g := fun v : Variable => [v.varDeclId, v.offset, v.varSize]) (fun _ => rfl)
      (fun j w => body_words hw) hi (j := j) (w := w) h
    exact ⟨hit 0 _ rfl, hit 1 _ rfl, hit 2 _ rfl⟩
  | float name size =>
    exact key _ rfl (headerAt_words (rest := []) (by decide) (by simpa [words] using hw)) ⟨rfl, rfl, hn.nameAt (by simp [namesOf]), rfl⟩
  | declTag name tid index =>
    exact key _ rfl (headerAt_words (by decide) hw) ⟨rfl, rfl, hn.nameAt (by simp [namesOf]), rfl, body_words hw (j := 0) rfl⟩
  | typeTag name tid =>
    exact key _ rfl (headerAt_words (rest := []) (by decide) (by simpa [words] using hw)) ⟨rfl, rfl, hn.nameAt (by simp [namesOf]), rfl⟩
  | enum64 name size signed vs =>
    refine key _ rfl (headerAt_words hg.2.1 hw) ⟨rfl, rfl, hn.nameAt (by simp [namesOf]), rfl, rfl, by simp, ?_⟩
    intro i hi
    simp only [List.length_map] at hi
    have hit := fun j w h => item_words (k := 3) (g := fun v : Name × Int => [off v.1, lowWord v.2 0, lowWord v.2 32]) (fun _ => rfl)
      (fun j w => body_words hw) hi (j := j) (w := w) h
    have hmem := List.getElem_mem hi
    simp only [List.getElem_map]
    exact ⟨_, _, hit 0 _ rfl, hn.stored _ (by simp only [namesOf, List.mem_cons, List.mem_map]; exact .inr ⟨_, hmem, rfl⟩),
      ⟨_, _, hit 1 _ rfl, hit 2 _ rfl, rfl⟩, value64_words (hg.2.2 _ hmem).2⟩

theorem records_words {ds : List Decl} : ∀ {pos : Nat}, (∀ d ∈ ds, Good d) → (∀ d ∈ ds, NamesStored f fh off (namesOf d)) →
    (∀ j w, (ds.flatMap (words off))[j]? = some w → Word f e (pos + 4 * j) w) →
    pos + 4 * (ds.flatMap (words off)).length ≤ typeEnd fh →
    Records .documented f e fh pos (ds.map (variantOf off)) (pos + 4 * (ds.flatMap (words off)).length) := by
  induction ds with
  | nil => intro pos _ _ _ _; exact .nil
  | cons d ds ih =>
    intro pos hg hn hw hend
    rw [List.flatMap_cons, List.length_append] at hend ⊢
    rw [List.flatMap_cons] at hw
    have h1 := record_words (pos := pos) (hg d (by simp)) (hn d (by simp))
      (fun j w h => hw j w (by rw [List.getElem?_append_left (List.getElem?_eq_some_iff.1 h).1]; exact h)) (by omega)
    refine .cons h1 ?_
    have h2 := ih (pos := pos + 4 * (words off d).length) (fun d hd => hg d (by simp [hd])) (fun d hd => hn d (by simp [hd]))
      (fun j w h => by
        have := hw ((words off d).length + j) w (by rw [List.getElem?_append_right (by omega), Nat.add_sub_cancel_left]; exact h)
        rwa [Nat.mul_add, ← Nat.add_assoc] at this) (by omega)
    rwa [show pos + 4 * (words off d).length + 4 * (ds.flatMap (words off)).length =
      pos + 4 * ((words off d).length + (ds.flatMap (words off)).length) by omega] at h2

/-! ### Strings -/

theorem nameOffset_spec {table : List UInt8} {name : Name} (h : ∃ i < table.length, (name ++ [0]).isPrefixOf (table.drop i))
    (hl : table.length < 2 ^ 32) :
    (nameOffset table name).toNat < table.length ∧ name ++ [0] <+: table.drop (nameOffset table name).toNat := by
  obtain ⟨i, hi, hp⟩ := h
  have hlt := List.findIdx_lt_length_of_exists (p := fun i => (name ++ [0]).isPrefixOf (table.drop i)) (xs := List.range table.length)
    ⟨i, by simpa using hi, hp⟩
  have hget := List.findIdx_getElem (w := hlt)
  simp only [List.getElem_range] at hget
  rw [List.length_range] at hlt
  unfold nameOffset
  rw [UInt32.toNat_ofNat_of_lt' (by rw [UInt32.size]; omega)]
  exact ⟨hlt, List.isPrefixOf_iff_prefix.1 hget⟩

theorem stored_in_table {names : List Name} {name : Name} (h : name ∈ names) :
    ∃ i < (0 :: names.flatMap (· ++ [0])).length, (name ++ [0]).isPrefixOf ((0 :: names.flatMap (· ++ [0])).drop i) := by
  obtain ⟨s, t, rfl⟩ := List.append_of_mem h
  refine ⟨(s.flatMap (· ++ [0])).length + 1, ?_, ?_⟩
  · simp only [List.flatMap_append, List.flatMap_cons, List.length_append, List.length_cons]
    omega
  · rw [List.isPrefixOf_iff_prefix, List.drop_succ_cons, List.flatMap_append, List.drop_left, List.flatMap_cons]
    exact List.prefix_append _ _

theorem good_names {d : Decl} (hg : Good d) : ∀ name ∈ namesOf d, (0 : UInt8) ∉ name := by
  intro name hn
  cases d <;> simp only [namesOf, List.mem_cons, List.not_mem_nil, or_false, List.mem_map] at hn <;> simp only [Good] at hg
  case int | fwd | typedef | func | var | float | declTag | typeTag => subst hn; exact hg
  case dataSec => subst hn; exact hg.1
  case struct | union =>
    rcases hn with rfl | ⟨m, hm, rfl⟩
    · exact hg.1
    · exact (hg.2.2 m hm).1
  case enum | enum64 =>
    rcases hn with rfl | ⟨m, hm, rfl⟩
    · exact hg.1
    · exact (hg.2.2 m hm).1
  case funcProto =>
    obtain ⟨p, hp, rfl⟩ := hn
    exact hg.2 p hp

theorem encode_drop (e : Endianness) (ds : List Decl) :
    (encode e ds).drop (24 + 4 * (typeWords ds).length) = stringTable ds := by
  apply List.ext_getElem?
  intro i
  rw [List.getElem?_drop, encode, strings_fileOf e (by omega), Nat.add_sub_cancel_left]

theorem nameOffset_nil (rest : List UInt8) : nameOffset (0 :: rest) [] = 0 := by
  unfold nameOffset
  rw [List.length_cons, List.range_succ_eq_map, List.findIdx_cons]
  simp [List.isPrefixOf]

/-- The header of the written file. -/
def encodeHeader (ds : List Decl) : FileHeader := writtenHeader 1 0 (typeWords ds) (stringTable ds)

section
variable {ds : List Decl} (hsize : 24 + 4 * (typeWords ds).length + (stringTable ds).length < 2 ^ 32)
include hsize

theorem encode_places : typeStart (encodeHeader ds) = 24 ∧ typeEnd (encodeHeader ds) = 24 + 4 * (typeWords ds).length ∧
    strStart (encodeHeader ds) = 24 + 4 * (typeWords ds).length ∧
    strEnd (encodeHeader ds) = 24 + 4 * (typeWords ds).length + (stringTable ds).length := by
  have h1 : (UInt32.ofNat (4 * (typeWords ds).length)).toNat = 4 * (typeWords ds).length :=
    UInt32.toNat_ofNat_of_lt' (by rw [UInt32.size]; omega)
  have h2 : (UInt32.ofNat (stringTable ds).length).toNat = (stringTable ds).length :=
    UInt32.toNat_ofNat_of_lt' (by rw [UInt32.size]; omega)
  have h3 : (24 : UInt32).toNat = 24 := rfl
  have h4 : (0 : UInt32).toNat = 0 := rfl
  refine ⟨?_, ?_, ?_, ?_⟩ <;> simp only [typeStart, typeEnd, strStart, strEnd, encodeHeader, writtenHeader, h1, h2, h3, h4]

theorem encode_names (hg : ∀ d ∈ ds, Good d) {d : Decl} (hd : d ∈ ds) :
    NamesStored (encode e ds) (encodeHeader ds) (nameOffset (stringTable ds)) (namesOf d) := by
  obtain ⟨-, -, hs, he⟩ := encode_places hsize
  have hin : ∀ name ∈ namesOf d, name ∈ ds.flatMap namesOf := fun name hn => List.mem_flatMap.2 ⟨d, hd, hn⟩
  have hspec : ∀ name ∈ namesOf d, _ := fun name hn =>
    nameOffset_spec (table := stringTable ds) (name := name) (stored_in_table (hin name hn)) (by omega)
  constructor
  · intro name hn
    obtain ⟨-, h2⟩ := hspec name hn
    have hl := h2.length_le
    rw [List.length_append, List.length_drop, List.length_singleton] at hl
    refine ⟨by omega, name, by omega, good_names (hg d hd) name hn, ?_, rfl⟩
    rw [hs, ← List.drop_drop, encode_drop]
    have := List.prefix_iff_eq_take.1 h2
    rw [List.length_append, List.length_singleton] at this
    exact this.symm
  · intro name hn
    constructor
    · intro h0
      obtain ⟨-, h2⟩ := hspec name hn
      rw [h0] at h2
      cases name with
      | nil => rfl
      | cons b bs =>
        have hz := good_names (hg d hd) _ hn
        simp only [UInt32.toNat_zero, List.drop_zero, stringTable, List.cons_append, List.cons_prefix_cons] at h2
        exact absurd (by rw [h2.1]; simp) hz
    · rintro rfl
      exact nameOffset_nil _

/-- The written file decodes to the declared types. -/
theorem encode_decodes (e : Endianness) (hg : ∀ d ∈ ds, Good d) :
    Decodes .documented (encode e ds) (ds.map (variantOf (nameOffset (stringTable ds)))) := by
  obtain ⟨h1, h2, -, -⟩ := encode_places hsize
  refine ⟨e, encodeHeader ds, 24 + 4 * (typeWords ds).length, preamble_fileOf e, by omega, ?_, ?_⟩
  · rw [h1]
    refine records_words hg (fun d hd => encode_names hsize hg hd) (fun j w h => word_fileOf e h) ?_
    rw [h2]; rfl
  · exact h2.symm
end

/-! ### What is read -/

theorem says_member {bf : Bool} {m : MemberDecl} (hg : GoodMember bf m) :
    SaysMember m (memberOf off m) := by
  obtain ⟨-, hg⟩ := hg
  refine ⟨rfl, rfl, ?_, ?_⟩ <;> simp only [memberOf, offsetOfDecl]
  · cases hw : m.width with
    | none =>
      rw [hw] at hg
      simp only [] at hg
      have : m.position < 2 ^ 32 := by
        have := hg.2
        split at this <;> omega
      simp only [bitPos]
      rw [UInt32.toNat_ofNat_of_lt' (by rw [UInt32.size]; omega)]
      omega
    | some w =>
      rw [hw] at hg
      simp only [] at hg
      simp only [bitPos]
      rw [UInt32.toNat_ofNat_of_lt' (by rw [UInt32.size]; omega)]
  · cases hw : m.width with
    | none => rfl
    | some w =>
      rw [hw] at hg
      simp only [] at hg
      simp only [bitWidth, Option.map_some]
      rw [UInt32.toNat_ofNat_of_lt' (by rw [UInt32.size]; omega)]

theorem forall₂_map {α β : Type} {R : α → β → Prop} {g : α → β} {xs : List α} (h : ∀ x ∈ xs, R x (g x)) :
    List.Forall₂ R xs (xs.map g) := by
  induction xs with
  | nil => exact .nil
  | cons x xs ih => exact .cons (h x (by simp)) (ih fun y hy => h y (by simp [hy]))

theorem says_value32 {signed : Bool} {v : Name × Int} (h : InRange 32 signed v.2) : value32 (enumerator32 signed v).value = v.2 := by
  cases signed with
  | true =>
    simp only [InRange, ↓reduceIte, Nat.add_one_sub_one] at h
    simp only [enumerator32, ↓reduceIte, value32]
    rw [Int32.toInt_ofInt_of_le (by omega) (by omega)]
  | false =>
    simp only [InRange, Bool.false_eq_true, ↓reduceIte] at h
    simp only [enumerator32, Bool.false_eq_true, ↓reduceIte, value32]
    rw [UInt32.toNat_ofNat_of_lt' (by rw [UInt32.size]; omega)]
    omega

theorem says_value64 {signed : Bool} {v : Name × Int} (h : InRange 64 signed v.2) : value64 (enumerator64 signed v).value = v.2 := by
  cases signed with
  | true =>
    simp only [InRange, ↓reduceIte, Nat.add_one_sub_one] at h
    simp only [enumerator64, ↓reduceIte, value64]
    rw [Int64.toInt_ofInt_of_le (by omega) (by omega)]
  | false =>
    simp only [InRange, Bool.false_eq_true, ↓reduceIte] at h
    simp only [enumerator64, Bool.false_eq_true, ↓reduceIte, value64]
    rw [UInt64.toNat_ofNat_of_lt' (by rw [UInt64.size]; omega)]
    omega

theorem says_variantOf {d : Decl} (hg : Good d) : Says d (variantOf off d) := by
  cases d with
  | struct name size ms => exact ⟨rfl, rfl, forall₂_map fun m hm => says_member (hg.2.2 m hm)⟩
  | union name size ms => exact ⟨rfl, rfl, forall₂_map fun m hm => says_member (hg.2.2 m hm)⟩
  | enum name size signed vs => exact ⟨rfl, rfl, rfl, forall₂_map fun v hv => ⟨rfl, says_value32 (hg.2.2 v hv).2⟩⟩
  | enum64 name size signed vs => exact ⟨rfl, rfl, rfl, forall₂_map fun v hv => ⟨rfl, says_value64 (hg.2.2 v hv).2⟩⟩
  | funcProto result ps => exact ⟨rfl, forall₂_map fun p hp => ⟨rfl, rfl⟩⟩
  | _ => exact rfl

end Btf

import Verif.Spec.Keep
import Verif.Spec.Fill
import Verif.Proofs.FileDialect
import Verif.Proofs.FileSame

/-!
# Proofs: what is reported matches the words of the file, and files with matching words are reported alike
-/

namespace Btf

open Spec

section

variable {f f' : List UInt8} {e : Endianness} {fh fh' : FileHeader} {pos pos' : Nat}

/-- The words from `pos` on match. -/
def CellsAt (f : List UInt8) (e : Endianness) (fh : FileHeader) (pos : Nat) (l : List Cell) : Prop :=
  ∀ i c, l[i]? = some c → CellAt f e fh (pos + 4 * i) c

theorem cellsAt_nil : CellsAt f e fh pos [] := fun _ _ h => by simp at h

theorem cellsAt_cons {c : Cell} {l : List Cell} :
    CellsAt f e fh pos (c :: l) ↔ CellAt f e fh pos c ∧ CellsAt f e fh (pos + 4) l := by
  constructor
  · intro h
    refine ⟨by simpa using h 0 c rfl, fun i c' hi => ?_⟩
    have := h (i + 1) c' (by simpa using hi)
    rwa [show pos + 4 * (i + 1) = pos + 4 + 4 * i by omega] at this
  · rintro ⟨h, ht⟩ i c' hi
    cases i with
    | zero => cases hi; exact h
    | succ i =>
      rw [show pos + 4 * (i + 1) = pos + 4 + 4 * i by omega]
      exact ht i c' (by simpa using hi)

theorem cellsAt_append {l m : List Cell} :
    CellsAt f e fh pos (l ++ m) ↔ CellsAt f e fh pos l ∧ CellsAt f e fh (pos + 4 * l.length) m := by
  induction l generalizing pos with
  | nil => simp only [List.nil_append, List.length_nil, Nat.mul_zero, Nat.add_zero]; exact ⟨fun h => ⟨cellsAt_nil, h⟩, fun h => h.2⟩
  | cons c l ih =>
    rw [List.cons_append, cellsAt_cons, cellsAt_cons, ih, List.length_cons,
      show pos + 4 + 4 * l.length = pos + 4 * (l.length + 1) by omega]
    exact and_assoc.symm

theorem cellsAt_items {α : Type} {item : Nat → α → Prop} {size : Nat} {g : α → List Cell} {xs : List α} {pos : Nat}
    (h : Items item size pos xs) (hg : ∀ x, 4 * (g x).length = size) (hitem : ∀ pos x, item pos x → CellsAt f e fh pos (g x)) :
    CellsAt f e fh pos (xs.flatMap g) := by
  induction xs generalizing pos with
  | nil => exact cellsAt_nil
  | cons x xs ih =>
    obtain ⟨h1, h2⟩ := items_cons.1 h
    rw [List.flatMap_cons, cellsAt_append, hg]
    exact ⟨hitem _ _ h1, ih h2⟩

theorem items_cellsAt {α : Type} {item item' : Nat → α → Prop} {size : Nat} {g : α → List Cell} {xs : List α} {pos pos' : Nat}
    (h : Items item size pos xs) (hc : CellsAt f' e fh' pos' (xs.flatMap g)) (hg : ∀ x, 4 * (g x).length = size)
    (hitem : ∀ pos pos' x, item pos x → CellsAt f' e fh' pos' (g x) → item' pos' x) : Items item' size pos' xs := by
  induction xs generalizing pos pos' with
  | nil => intro i hi; cases hi
  | cons x xs ih =>
    obtain ⟨h1, h2⟩ := items_cons.1 h
    rw [List.flatMap_cons, cellsAt_append, hg] at hc
    exact items_cons.2 ⟨hitem _ _ _ h1 hc.1, ih h2 hc.2⟩

theorem matches_whole (w : UInt32) : Matches (whole w.toNat) w := by
  intro x hx
  simp only [whole, List.mem_singleton] at hx
  subst hx
  have := w.toNat_lt
  simp only []
  omega

theorem whole_matches {v : Nat} {w : UInt32} (h : Matches (whole v) w) : w.toNat = v := by
  have := h ⟨0, 32, v⟩ (by simp [whole])
  have := w.toNat_lt
  simp only [] at *
  omega

theorem cellAt_whole {w : UInt32} : CellAt f e fh pos (whole w.toNat) ↔ Word f e pos w := by
  constructor
  · rintro ⟨w', h1, h2, -⟩
    rwa [UInt32.toNat_inj.1 (whole_matches h2)] at h1
  · intro h; exact ⟨w, h, matches_whole w, fun s hs => by cases hs⟩

theorem cellAt_named {w : UInt32} {s : Option Str} (hs : s = none → w = 0) (hw : w = 0 → s = none) :
    CellAt f e fh pos (nameCell w s) ↔ Word f e pos w ∧ NameAt f fh w s := by
  constructor
  · rintro ⟨w', h1, h2, h3⟩
    have : w' = w := UInt32.toNat_inj.1 (whole_matches h2)
    subst this
    refine ⟨h1, ?_⟩
    cases s with
    | none => exact hs rfl
    | some s => exact ⟨fun h => by simpa using hw h, h3 s rfl⟩
  · rintro ⟨h1, h2⟩
    refine ⟨w, h1, matches_whole w, ?_⟩
    intro s' hs'
    cases s with
    | none => cases hs'
    | some s => cases hs'; exact h2.2

theorem nameAt_zero {w : UInt32} {s : Option Str} (h : NameAt f fh w s) : (s = none → w = 0) ∧ (w = 0 → s = none) := by
  cases s with
  | none => exact ⟨fun _ => h, fun _ => rfl⟩
  | some s => exact ⟨fun h => (by cases h), fun h' => absurd h' h.1⟩

/-- A word with a name, in one file, and the matching word in the other one. -/
theorem named_cells {w : UInt32} {s : Option Str} (h : NameAt f fh w s) :
    (CellAt f' e fh' pos' (nameCell w s) ↔ Word f' e pos' w ∧ NameAt f' fh' w s) :=
  cellAt_named (nameAt_zero h).1 (nameAt_zero h).2

theorem flag_value {b : Bool} {low : Nat} {w : UInt32} :
    w.toNat / 2 ^ (flag low b).low % 2 ^ (flag low b).width = (flag low b).value ↔ (b = true ↔ w.toNat / 2 ^ low % 2 = 1) := by
  simp only [flag, Nat.pow_one]
  cases b <;> simp <;> omega

/-- The second and third word of the header. -/
theorem head_cells {th : Header} :
    CellsAt f e fh (pos + 4) ((headCells th none).tail) ∧ Word f e pos th.nameOffset ↔ HeaderAt f e pos th := by
  simp only [headCells, List.tail_cons, cellsAt_cons, cellAt_whole]
  constructor
  · rintro ⟨⟨⟨w, h1, h2, -⟩, h3, -⟩, h4⟩
    have hlt := w.toNat_lt
    refine ⟨h4, by simpa [Nat.add_assoc] using h3, w, h1, ?_, ?_, ?_⟩
    · exact (h2 ⟨24, 5, kindCode th.kind⟩ (List.mem_cons_of_mem _ List.mem_cons_self)).symm
    · have := h2 ⟨0, 16, _⟩ (List.mem_cons_self)
      simp only [] at this
      omega
    · have := flag_value.1 (h2 (flag 31 th.kindFlag) (by simp))
      rw [this]
      omega
  · rintro ⟨h1, h2, info, h3, h4, h5, h6⟩
    have hlt := info.toNat_lt
    refine ⟨⟨⟨info, h3, ?_, fun s hs => by cases hs⟩, by simpa [Nat.add_assoc] using h2, cellsAt_nil⟩, h1⟩
    intro x hx
    simp only [List.mem_cons, List.not_mem_nil, or_false] at hx
    rcases hx with rfl | rfl | rfl
    · simp only []; omega
    · simp only []; omega
    · refine flag_value.2 ?_
      rw [h6]
      omega

theorem raw_cell {kf : Bool} {raw : UInt32} {o : Offset} (h : MemberOffset kf raw o) :
    CellAt f e fh pos (if kf then ⟨[⟨0, 24, bitPos o⟩, ⟨24, 8, match bitWidth o with | none => 0 | some w => w.toNat⟩], none⟩
      else whole (bitPos o)) ↔ Word f e pos raw := by
  cases kf with
  | false =>
    simp only [Bool.false_eq_true, if_false]
    rw [h.1]; exact cellAt_whole
  | true =>
    simp only [if_true]
    obtain ⟨h6, h7⟩ := h
    have hlt := raw.toNat_lt
    have hw : (match bitWidth o with | none => 0 | some w => w.toNat) = raw.toNat / 2 ^ 24 := by
      cases hw : bitWidth o with
      | none => rw [hw] at h7; exact h7.symm
      | some w => rw [hw] at h7; exact h7.1
    rw [hw, h6]
    constructor
    · rintro ⟨w, h1, h2, -⟩
      have ha := h2 ⟨0, 24, _⟩ (List.mem_cons_self)
      have hb := h2 ⟨24, 8, raw.toNat / 2 ^ 24⟩ (List.mem_cons_of_mem _ List.mem_cons_self)
      have hwlt := w.toNat_lt
      simp only [] at ha hb
      have : w = raw := UInt32.toNat_inj.1 (by omega)
      rwa [← this]
    · intro h
      refine ⟨raw, h, ?_, fun s hs => by cases hs⟩
      intro x hx
      simp only [List.mem_cons, List.not_mem_nil, or_false] at hx
      rcases hx with rfl | rfl <;> simp only [] <;> omega

theorem member_cells {kf : Bool} {m : Member} (h : MemberAt f e fh kf pos m) :
    CellsAt f' e fh' pos' (memberCells kf m) ↔ MemberAt f' e fh' kf pos' m := by
  obtain ⟨h1, h2, h3, raw, h4, h5⟩ := h
  simp only [memberCells, cellsAt_cons, named_cells h2, cellAt_whole]
  constructor
  · rintro ⟨⟨h6, h7⟩, h8, h9, -⟩
    exact ⟨h6, h7, h8, raw, (raw_cell h5).1 h9, h5⟩
  · rintro ⟨h6, h7, h8, raw', h9, h10⟩
    have : raw' = raw := by
      have := (raw_cell (f := f') (e := e) (fh := fh) (pos := pos' + 8) h10).2 h9
      exact word_unique h9 ((raw_cell h5).1 this)
    subst this
    exact ⟨⟨h6, h7⟩, h8, (raw_cell h5).2 h9, cellsAt_nil⟩

theorem bits32_value {s : Bool} {v : Nat} {x : Integer32Value} (hv : v < 2 ^ 32) (h : Value32 s v x) : bits32 x = v := by
  cases x <;> simp only [Value32, bits32] at h ⊢
  · rw [h.2]; unfold twosComplement; split <;> omega
  · exact h.2

theorem bits64_value {s : Bool} {v : Nat} {x : Integer64Value} (hv : v < 2 ^ 64) (h : Value64 s v x) : bits64 x = v := by
  cases x <;> simp only [Value64, bits64] at h ⊢
  · rw [h.2]; unfold twosComplement; split <;> omega
  · exact h.2

/-- The word that leads to the name of an enumerator. -/
theorem cellAt_string {s : Str} : CellAt f e fh pos ⟨[], some s⟩ ↔ ∃ off, Word f e pos off ∧ StringAt f fh off s := by
  constructor
  · rintro ⟨w, h1, -, h3⟩; exact ⟨w, h1, h3 s rfl⟩
  · rintro ⟨w, h1, h2⟩; exact ⟨w, h1, (fun x hx => by cases hx), fun s' hs' => by cases hs'; exact h2⟩

theorem value_cells {s : Bool} {x : NamedValue32} (h : EnumeratorAt f e fh s pos x) :
    CellsAt f' e fh' pos' (valueCells x) ↔ EnumeratorAt f' e fh' s pos' x := by
  obtain ⟨off, v, h1, h2, h3, h4⟩ := h
  obtain ⟨w, hw, rfl⟩ := intAt_word h3
  simp only [valueCells, cellsAt_cons, bits32_value w.toNat_lt h4, cellAt_whole, cellAt_string]
  constructor
  · rintro ⟨⟨off', h5, h6⟩, h7, -⟩
    exact ⟨off', w.toNat, h5, h6, h7, h4⟩
  · rintro ⟨off', v', h5, h6, h7, h8⟩
    obtain ⟨w', hw', rfl⟩ := intAt_word h7
    have : w' = w := UInt32.toNat_inj.1 ((bits32_value w'.toNat_lt h8).symm.trans (bits32_value w.toNat_lt h4))
    subst this
    exact ⟨⟨off', h5, h6⟩, hw', cellsAt_nil⟩

theorem wide_lt {v : Nat} (h : WideAt .crate f e pos v) : v < 2 ^ 64 := by
  obtain ⟨lo, hi, hlo, hhi⟩ := wide_words h
  have hl := lo.toNat_lt
  have hh := hi.toNat_lt
  cases e with
  | little =>
    have hv : v = lo.toNat + 2 ^ 32 * hi.toNat := wide_unique h (wide_little.1 ⟨lo, hi, hlo, hhi, rfl⟩)
    omega
  | big =>
    have hv : v = hi.toNat + 2 ^ 32 * lo.toNat := wide_unique h (wide_big hlo hhi).2
    omega

theorem wide_cells {s : Bool} {x : NamedValue64} (h : Enumerator64At .crate f e fh s pos x) :
    CellsAt f' e fh' pos' (wideCells e x) ↔ Enumerator64At .crate f' e fh' s pos' x := by
  obtain ⟨off, v, h1, -, h3, h4⟩ := h
  have hb := bits64_value (wide_lt h3) h4
  have hlt := wide_lt h3
  have hlo : (UInt32.ofNat (v % 2 ^ 32)).toNat = v % 2 ^ 32 := UInt32.toNat_ofNat_of_lt' (by rw [UInt32.size]; omega)
  have hhi : (UInt32.ofNat (v / 2 ^ 32)).toNat = v / 2 ^ 32 := UInt32.toNat_ofNat_of_lt' (by rw [UInt32.size]; omega)
  have key : ∀ {p q : Nat}, CellsAt f' e fh' p (wideCells e x).tail ↔ WideAt .crate f' e p v := by
    intro p q
    cases e with
    | little =>
      simp only [wideCells, List.tail_cons, cellsAt_cons, hb]
      rw [← hlo, ← hhi, cellAt_whole, cellAt_whole]
      constructor
      · rintro ⟨h6, h7, -⟩
        have := wide_little.1 ⟨_, _, h6, h7, rfl⟩
        rwa [hlo, hhi, Nat.mod_add_div] at this
      · intro h6
        obtain ⟨lo, hi, h7, h8, h9⟩ := wide_little.2 h6
        have := lo.toNat_lt
        have := hi.toNat_lt
        refine ⟨?_, ?_, cellsAt_nil⟩
        · rwa [show UInt32.ofNat (v % 2 ^ 32) = lo from UInt32.toNat_inj.1 (by omega)]
        · rwa [show UInt32.ofNat (v / 2 ^ 32) = hi from UInt32.toNat_inj.1 (by omega)]
    | big =>
      simp only [wideCells, List.tail_cons, cellsAt_cons, hb]
      rw [← hlo, ← hhi, cellAt_whole, cellAt_whole]
      constructor
      · rintro ⟨h6, h7, -⟩
        have := (wide_big h6 h7).2
        rwa [hlo, hhi, Nat.mod_add_div] at this
      · intro h6
        obtain ⟨lo, hi, h7, h8⟩ := wide_words h6
        have h9 : v = hi.toNat + 2 ^ 32 * lo.toNat := wide_unique h6 (wide_big h7 h8).2
        have := lo.toNat_lt
        have := hi.toNat_lt
        refine ⟨?_, ?_, cellsAt_nil⟩
        · rwa [show UInt32.ofNat (v / 2 ^ 32) = lo from UInt32.toNat_inj.1 (by omega)]
        · rwa [show UInt32.ofNat (v % 2 ^ 32) = hi from UInt32.toNat_inj.1 (by omega)]
  have hcons : wideCells e x = ⟨[], some x.name⟩ :: (wideCells e x).tail := by cases e <;> rfl
  rw [hcons, cellsAt_cons, cellAt_string, key (q := 0)]
  constructor
  · rintro ⟨⟨off', h5, h6⟩, h7⟩
    exact ⟨off', v, h5, h6, h7, h4⟩
  · rintro ⟨off', v', h5, h6, h7, h8⟩
    have : v' = v := (bits64_value (wide_lt h7) h8).symm.trans hb
    subst this
    exact ⟨⟨off', h5, h6⟩, h7⟩


theorem head_named {th : Header} {name : Option Str} : CellsAt f e fh pos (headCells th name) ↔
    HeaderAt f e pos th ∧ ∀ s, name = some s → StringAt f fh th.nameOffset s := by
  rw [show headCells th name = nameCell th.nameOffset name :: (headCells th none).tail from rfl, cellsAt_cons, ← head_cells (fh := fh)]
  constructor
  · rintro ⟨⟨w, h1, h2, h3⟩, h4⟩
    have : w = th.nameOffset := UInt32.toNat_inj.1 (whole_matches h2)
    subst this
    exact ⟨⟨h4, h1⟩, h3⟩
  · rintro ⟨⟨h4, h1⟩, h3⟩
    exact ⟨⟨_, h1, matches_whole _, h3⟩, h4⟩

theorem strings_name {w : UInt32} {s : Option Str} (h : NameAt f fh w s) :
    (∀ x, s = some x → StringAt f' fh' w x) ↔ NameAt f' fh' w s := by
  cases s with
  | none => exact ⟨fun _ => h, fun _ x hx => by cases hx⟩
  | some s => exact ⟨fun h' => ⟨h.1, h' s rfl⟩, fun h' x hx => by cases hx; exact h'.2⟩

theorem int_cell {th : Header} {d : IntData} (h : IntBody f e fh th pos d) :
    CellAt f' e fh' pos' (intCell d) ∧ NameAt f' fh' th.nameOffset d.name ↔ IntBody f' e fh' th pos' d := by
  obtain ⟨w, h1, h2, h3, -, -, -, h4, h5⟩ := h
  constructor
  · rintro ⟨⟨w', h6, h7, -⟩, h8⟩
    refine ⟨w', h6, h8, h3, ?_, ?_, ?_, ?_, ?_⟩
    · exact flag_value.1 (h7 (flag 24 d.signed) (by simp [intCell]))
    · exact flag_value.1 (h7 (flag 25 d.char) (by simp [intCell]))
    · exact flag_value.1 (h7 (flag 26 d.boolean) (by simp [intCell]))
    · exact (h7 ⟨16, 8, d.offset⟩ (by simp [intCell])).symm
    · have := h7 ⟨0, 8, d.bits⟩ (by simp [intCell])
      simp only [] at this
      omega
  · rintro ⟨w', h6, h8, -, a, b, c, d', e'⟩
    refine ⟨⟨w', h6, ?_, fun s hs => by cases hs⟩, h8⟩
    intro x hx
    simp only [intCell, List.mem_cons, List.not_mem_nil, or_false] at hx
    rcases hx with rfl | rfl | rfl | rfl | rfl
    · simp only []; omega
    · simp only []; omega
    · exact flag_value.2 a
    · exact flag_value.2 b
    · exact flag_value.2 c

theorem items_iff {α : Type} {item item' : Nat → α → Prop} {size : Nat} {g : α → List Cell} {xs : List α}
    (h : Items item size pos xs) (hg : ∀ x, 4 * (g x).length = size)
    (hitem : ∀ pos pos' x, item pos x → (CellsAt f' e fh' pos' (g x) ↔ item' pos' x)) :
    CellsAt f' e fh' pos' (xs.flatMap g) ↔ Items item' size pos' xs := by
  induction xs generalizing pos pos' with
  | nil => exact ⟨fun _ i hi => (by cases hi), fun _ => cellsAt_nil⟩
  | cons x xs ih =>
    obtain ⟨h1, h2⟩ := items_cons.1 h
    rw [List.flatMap_cons, cellsAt_append, hg, items_cons, hitem _ _ _ h1, ih h2]

theorem param_cells {x : Parameter} (h : ParameterAt f e fh pos x) :
    CellsAt f' e fh' pos' [nameCell x.nameOffset x.name, whole x.tid.toNat] ↔ ParameterAt f' e fh' pos' x := by
  simp only [cellsAt_cons, named_cells h.2.1, cellAt_whole]
  exact ⟨fun h => ⟨h.1.1, h.1.2, h.2.1⟩, fun h => ⟨⟨h.1, h.2.1⟩, h.2.2, cellsAt_nil⟩⟩

theorem variable_cells {x : Variable} :
    CellsAt f' e fh' pos' [whole x.varDeclId.toNat, whole x.offset.toNat, whole x.varSize.toNat] ↔ VariableAt f' e pos' x := by
  simp only [cellsAt_cons, cellAt_whole]
  exact ⟨fun h => ⟨h.1, h.2.1, h.2.2.1⟩, fun h => ⟨h.1, h.2.1, h.2.2, cellsAt_nil⟩⟩

/-- If the file `f` has a record for a type, the words of any other file match exactly if it has one, too. -/
theorem body_cells {th : Header} {v : TypeVariant} (h : Body .crate f e fh th pos v) :
    CellsAt f' e fh' pos' (cells e v) ↔ HeaderAt f' e pos' th ∧ Body .crate f' e fh' th (pos' + 12) v := by
  have plain : ∀ {name : Option Str}, NameAt f fh th.nameOffset name → (CellsAt f' e fh' pos' (headCells th name) ↔
      HeaderAt f' e pos' th ∧ NameAt f' fh' th.nameOffset name) := fun h => by rw [head_named, strings_name h]
  have bare : CellsAt f' e fh' pos' (headCells th none) ↔ HeaderAt f' e pos' th := by
    rw [head_named]; exact ⟨fun h => h.1, fun h => ⟨h, fun _ hs => by cases hs⟩⟩
  have struct : ∀ {d : StructData}, StructBody f e fh th pos d →
      (CellsAt f' e fh' pos' (headCells th d.name ++ d.memberList.flatMap (memberCells th.kindFlag)) ↔
        HeaderAt f' e pos' th ∧ StructBody f' e fh' th (pos' + 12) d) := by
    rintro d ⟨h1, h2, h3, h4⟩
    rw [cellsAt_append, plain h1, items_iff h4 (fun _ => rfl) (fun _ _ _ => member_cells)]
    exact ⟨fun h => ⟨h.1.1, h.1.2, h2, h3, h.2⟩, fun h => ⟨⟨h.1, h.2.1⟩, h.2.2.2.2⟩⟩
  cases v <;> simp only [Body] at h <;> simp only [cells, reportedHeader, bodyCells, Body] <;>
    (try obtain ⟨rfl, hk, h⟩ := h) <;> simp only [hk, true_and]
  case ptr => rw [List.append_nil, bare]; simp only [h, and_true]
  case const => rw [List.append_nil, bare]; simp only [h, and_true]
  case volatile => rw [List.append_nil, bare]; simp only [h, and_true]
  case restrict => rw [List.append_nil, bare]; simp only [h, and_true]
  case typedef => rw [List.append_nil, plain h.1]; simp only [NamedTidBody, h.2, and_true]
  case fwd => rw [List.append_nil, plain h.1]; simp only [NamedTidBody, h.2, and_true]
  case typeTag => rw [List.append_nil, plain h.1]; simp only [NamedTidBody, h.2, and_true]
  case func => rw [List.append_nil, plain h.1]; simp only [h.2, and_true]
  case float => rw [List.append_nil, plain h.1]; simp only [h.2, and_true]
  case int =>
    have hn : NameAt f fh _ _ := h.choose_spec.2.1
    rw [cellsAt_append, plain hn, cellsAt_cons, ← int_cell h]
    exact ⟨fun h => ⟨h.1.1, h.2.1, h.1.2⟩, fun h => ⟨⟨h.1, h.2.2⟩, h.2.1, cellsAt_nil⟩⟩
  case array =>
    rw [cellsAt_append, bare]
    simp only [cellsAt_cons, cellAt_whole, ArrayBody]
    exact ⟨fun h => ⟨h.1, h.2.1, h.2.2.1, h.2.2.2.1⟩, fun h => ⟨h.1, h.2.1, h.2.2.1, h.2.2.2, cellsAt_nil⟩⟩
  case struct => exact struct h
  case union => exact struct h
  case enum =>
    obtain ⟨h1, h2, h3, h4, h5⟩ := h
    rw [cellsAt_append, plain h1, items_iff h5 (fun _ => rfl) (fun _ _ _ => value_cells)]
    exact ⟨fun h => ⟨h.1.1, h.1.2, h2, h3, h4, h.2⟩, fun h => ⟨⟨h.1, h.2.1⟩, h.2.2.2.2.2⟩⟩
  case enum64 =>
    obtain ⟨h1, h2, h3, h4, h5⟩ := h
    rw [cellsAt_append, plain h1, items_iff h5 (fun _ => by cases e <;> rfl) (fun _ _ _ => wide_cells)]
    exact ⟨fun h => ⟨h.1.1, h.1.2, h2, h3, h4, h.2⟩, fun h => ⟨⟨h.1, h.2.1⟩, h.2.2.2.2.2⟩⟩
  case funcProto =>
    obtain ⟨h1, h2, h3⟩ := h
    rw [cellsAt_append, bare, items_iff h3 (fun _ => rfl) (fun _ _ _ => param_cells)]
    exact ⟨fun h => ⟨h.1, h1, h2, h.2⟩, fun h => ⟨h.1, h.2.2.2⟩⟩
  case var =>
    obtain ⟨h1, h2, h3, h4⟩ := h
    rw [cellsAt_append, plain h1, cellsAt_cons, cellAt_whole]
    exact ⟨fun h => ⟨h.1.1, h.1.2, h2, h.2.1, h4⟩, fun h => ⟨⟨h.1, h.2.1⟩, h.2.2.2.1, cellsAt_nil⟩⟩
  case dataSec =>
    obtain ⟨h1, h2, h3, h4⟩ := h
    rw [cellsAt_append, plain h1, items_iff h4 (fun _ => rfl) (fun _ _ _ _ => variable_cells)]
    exact ⟨fun h => ⟨h.1.1, h.1.2, h2, h3, h.2⟩, fun h => ⟨⟨h.1, h.2.1⟩, h.2.2.2.2⟩⟩
  case declTag =>
    obtain ⟨h1, h2, h3⟩ := h
    rw [cellsAt_append, plain h1, cellsAt_cons, cellAt_whole]
    exact ⟨fun h => ⟨h.1.1, h.1.2, h2, h.2.1⟩, fun h => ⟨⟨h.1, h.2.1⟩, h.2.2.2, cellsAt_nil⟩⟩

theorem flatMap_size {α : Type} {g : α → List Cell} {k : Nat} (hg : ∀ x, 4 * (g x).length = k) (l : List α) :
    4 * (l.flatMap g).length = k * l.length := by
  induction l with
  | nil => rfl
  | cons x l ih =>
    rw [List.flatMap_cons, List.length_append, List.length_cons, Nat.mul_add, hg, ih, Nat.mul_add]
    omega

theorem cells_length (e : Endianness) (v : TypeVariant) : 4 * (cells e v).length = recordBytes v := by
  cases v <;> simp only [cells, reportedHeader, bodyCells, headCells, recordBytes, List.length_append, List.length_cons, List.length_nil,
    Nat.mul_add]
  case struct => rw [flatMap_size (k := 12) fun _ => rfl]
  case union => rw [flatMap_size (k := 12) fun _ => rfl]
  case enum => rw [flatMap_size (k := 8) fun _ => rfl]
  case enum64 => rw [flatMap_size (k := 12) fun _ => by cases e <;> rfl]
  case funcProto => rw [flatMap_size (k := 8) fun _ => rfl]
  case dataSec => rw [flatMap_size (k := 12) fun _ => rfl]

theorem body_bytes {th : Header} {v : TypeVariant} (h2 : Body .crate f e fh th pos v) :
    12 + bodySize th.kind th.vlen = recordBytes v := by
  cases v <;> simp only [Body] at h2 <;> simp only [recordBytes, bodySize, h2.2.1]
  case struct => rw [h2.2.2.2.2.1]
  case union => rw [h2.2.2.2.2.1]
  case enum => rw [h2.2.2.2.2.2.1]
  case enum64 => rw [h2.2.2.2.2.2.1]
  case funcProto => rw [h2.2.2.2.1]
  case dataSec => rw [h2.2.2.2.2.1]

/-- The words of the records of a file match what is reported. -/
theorem records_cells {next : Nat} {vs : List TypeVariant} (h : Records .crate f e fh pos vs next) :
    CellsAt f e fh pos (vs.flatMap (cells e)) := by
  induction h with
  | nil => exact cellsAt_nil
  | cons h1 _ ih =>
    obtain ⟨th, h2, h3, -, rfl⟩ := h1
    rw [List.flatMap_cons, cellsAt_append, cells_length, ← body_bytes h3, ← Nat.add_assoc]
    exact ⟨(body_cells h3).2 ⟨h2, h3⟩, ih⟩

/-- A file whose words match has the same records, if the type section is at least as long. -/
theorem cells_records {next : Nat} {vs : List TypeVariant} (h : Records .crate f e fh pos vs next)
    (hc : CellsAt f' e fh' pos' (vs.flatMap (cells e))) (hlen : typeEnd fh - pos ≤ typeEnd fh' - pos')
    (hle : pos' ≤ typeEnd fh') :
    Records .crate f' e fh' pos' vs (pos' + (next - pos)) ∧ pos ≤ next := by
  induction h generalizing pos' with
  | nil => rw [Nat.sub_self]; exact ⟨.nil, Nat.le_refl _⟩
  | @cons pos v mid vs next h1 h2 ih =>
    obtain ⟨th, h3, h4, h5, rfl⟩ := h1
    rw [List.flatMap_cons, cellsAt_append, cells_length, ← body_bytes h4, ← Nat.add_assoc] at hc
    obtain ⟨h6, h7⟩ := (body_cells h4).1 hc.1
    have hb : pos' + 12 + boundedSize .crate th.kind th.vlen ≤ typeEnd fh' := by omega
    by_cases hin : pos' + 12 + bodySize th.kind th.vlen ≤ typeEnd fh'
    · obtain ⟨h8, h9⟩ := ih hc.2 (by omega) hin
      refine ⟨.cons ⟨th, h6, h7, hb, rfl⟩ ?_, by omega⟩
      rw [show pos' + (next - pos) = pos' + 12 + bodySize th.kind th.vlen + (next - (pos + 12 + bodySize th.kind th.vlen)) by omega]
      exact h8
    · cases h2 with
      | nil =>
        refine ⟨.cons ⟨th, h6, h7, hb, rfl⟩ ?_, by omega⟩
        rw [show pos' + (pos + 12 + bodySize th.kind th.vlen - pos) = pos' + 12 + bodySize th.kind th.vlen by omega]
        exact .nil
      | cons h10 _ =>
        obtain ⟨th', -, -, h11, -⟩ := h10
        omega

end

end Btf

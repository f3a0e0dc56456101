import Verif.Proofs.Keep
import Verif.Proofs.Renumber
import Verif.Spec.Restring
import Verif.Spec.Contents

/-!
# Files with the same strings at other places
-/

namespace Btf

open Spec

section
variable {f f' : List UInt8} {e : Endianness} {fh fh' : FileHeader} {pos pos' : Nat}

def SlotsAt (f : List UInt8) (e : Endianness) (fh : FileHeader) (pos : Nat) (l : List Slot) : Prop :=
  ∀ i c, l[i]? = some c → SlotAt f e fh (pos + 4 * i) c

theorem slotsAt_nil : SlotsAt f e fh pos [] := fun _ _ h => by simp at h

theorem slotsAt_cons {c : Slot} {l : List Slot} :
    SlotsAt f e fh pos (c :: l) ↔ SlotAt f e fh pos c ∧ SlotsAt f e fh (pos + 4) l := by
  constructor
  · intro h
    refine ⟨by simpa using h 0 c rfl, fun i c' hi => ?_⟩
    have := h (i + 1) c' (by simpa using hi)
    rwa [show pos + 4 * (i + 1) = pos + 4 + 4 * i by omega] at this
  · rintro ⟨h, ht⟩ i c' hi
    cases i with
    | zero => cases hi; exact h
    | succ i =>
      rw [show pos + 4 * (i + 1) = pos + 4 + 4 * i by omega]
      exact ht i c' (by simpa using hi)

theorem slotsAt_append {l m : List Slot} :
    SlotsAt f e fh pos (l ++ m) ↔ SlotsAt f e fh pos l ∧ SlotsAt f e fh (pos + 4 * l.length) m := by
  induction l generalizing pos with
  | nil => simp only [List.nil_append, List.length_nil, Nat.mul_zero, Nat.add_zero]; exact ⟨fun h => ⟨slotsAt_nil, h⟩, fun h => h.2⟩
  | cons c l ih =>
    rw [List.cons_append, slotsAt_cons, slotsAt_cons, ih, List.length_cons,
      show pos + 4 + 4 * l.length = pos + 4 * (l.length + 1) by omega]
    exact and_assoc.symm

theorem slotsAt_cells {l : List Cell} : SlotsAt f e fh pos (l.map .cell) ↔ CellsAt f e fh pos l := by
  constructor
  · intro h i c hi
    exact h i (.cell c) (by rw [List.getElem?_map, hi]; rfl)
  · intro h i c hi
    rw [List.getElem?_map] at hi
    cases hc : l[i]? with
    | none => rw [hc] at hi; cases hi
    | some c' => rw [hc] at hi; cases hi; exact h i c' hc

theorem slots_items {α : Type} {item item' : Nat → α → Prop} {size : Nat} {g : α → List Slot} {k : α → α} {xs : List α}
    (h : Items item size pos xs) (hg : ∀ x, 4 * (g x).length = size) (hc : SlotsAt f' e fh' pos' (xs.flatMap g))
    (hitem : ∀ pos pos' x, item pos x → SlotsAt f' e fh' pos' (g x) → ∃ x', k x' = k x ∧ item' pos' x') :
    ∃ xs', xs'.map k = xs.map k ∧ Items item' size pos' xs' := by
  induction xs generalizing pos pos' with
  | nil => exact ⟨[], rfl, fun i hi => by cases hi⟩
  | cons x xs ih =>
    obtain ⟨h1, h2⟩ := items_cons.1 h
    rw [List.flatMap_cons, slotsAt_append, hg] at hc
    obtain ⟨x', h3, h4⟩ := hitem _ _ _ h1 hc.1
    obtain ⟨xs', h5, h6⟩ := ih h2 hc.2
    exact ⟨x' :: xs', by rw [List.map_cons, List.map_cons, h3, h5], items_cons.2 ⟨h4, h6⟩⟩

theorem items_slots {α : Type} {item : Nat → α → Prop} {size : Nat} {g : α → List Slot} {xs : List α}
    (h : Items item size pos xs) (hg : ∀ x, 4 * (g x).length = size)
    (hitem : ∀ pos x, item pos x → SlotsAt f e fh pos (g x)) : SlotsAt f e fh pos (xs.flatMap g) := by
  induction xs generalizing pos with
  | nil => exact slotsAt_nil
  | cons x xs ih =>
    obtain ⟨h1, h2⟩ := items_cons.1 h
    rw [List.flatMap_cons, slotsAt_append, hg]
    exact ⟨hitem _ _ h1, ih h2⟩

theorem header_of_cells {th : Header} {w : UInt32} (hw : Word f' e pos' w) {name : Option Str}
    (h : CellsAt f' e fh' (pos' + 4) (headCells th name).tail) : HeaderAt f' e pos' { th with nameOffset := w } :=
  (head_cells (fh := fh') (th := { th with nameOffset := w })).1 ⟨h, hw⟩

theorem slot_member {kf : Bool} {m : Member} (h : MemberAt f e fh kf pos m)
    (hc : SlotsAt f' e fh' pos' (.leads m.name :: ((memberCells kf m).tail.map .cell))) :
    ∃ m', forgetMember m' = forgetMember m ∧ MemberAt f' e fh' kf pos' m' := by
  obtain ⟨h1, h2, h3, raw, h4, h5⟩ := h
  rw [slotsAt_cons, slotsAt_cells] at hc
  obtain ⟨⟨w, h6, h7⟩, h8⟩ := hc
  simp only [memberCells, List.tail_cons, cellsAt_cons, cellAt_whole] at h8
  exact ⟨{ m with nameOffset := w }, rfl, h6, h7, h8.1, raw, (raw_cell h5).1 h8.2.1, h5⟩

theorem member_slot {kf : Bool} {m : Member} (h : MemberAt f e fh kf pos m) :
    SlotsAt f e fh pos (.leads m.name :: ((memberCells kf m).tail.map .cell)) := by
  rw [slotsAt_cons, slotsAt_cells]
  refine ⟨⟨_, h.1, h.2.1⟩, ?_⟩
  have := (member_cells h).2 h
  rw [show memberCells kf m = nameCell m.nameOffset m.name :: (memberCells kf m).tail from rfl, cellsAt_cons] at this
  exact this.2

theorem slot_param {x : Parameter} (hc : SlotsAt f' e fh' pos' [.leads x.name, .cell (whole x.tid.toNat)]) :
    ∃ x', forgetParameter x' = forgetParameter x ∧ ParameterAt f' e fh' pos' x' := by
  rw [slotsAt_cons, slotsAt_cons] at hc
  obtain ⟨⟨w, h6, h7⟩, h8, -⟩ := hc
  exact ⟨{ x with nameOffset := w }, rfl, h6, h7, cellAt_whole.1 h8⟩

theorem param_slot {x : Parameter} (h : ParameterAt f e fh pos x) :
    SlotsAt f e fh pos [.leads x.name, .cell (whole x.tid.toNat)] := by
  rw [slotsAt_cons, slotsAt_cons]
  exact ⟨⟨_, h.1, h.2.1⟩, cellAt_whole.2 h.2.2, slotsAt_nil⟩

theorem length_of_map {α : Type} {k : α → α} {xs xs' : List α} (h : xs'.map k = xs.map k) : xs'.length = xs.length := by
  have := congrArg List.length h
  simpa using this

/-- If the file `f` has a record for a type, and the words of `f'` match but for where the strings are, then `f'` has a record for
the same type but for the offsets. -/
theorem slots_body {th : Header} {v : TypeVariant} (h : Body .crate f e fh th pos v) (hc : SlotsAt f' e fh' pos' (slots e v)) :
    ∃ w v', forgetOffsets v' = forgetOffsets v ∧ HeaderAt f' e pos' { th with nameOffset := w } ∧
      Body .crate f' e fh' { th with nameOffset := w } (pos' + 12) v' := by
  have head : ∀ {name name' : Option Str} {l : List Slot},
      SlotsAt f' e fh' pos' (.leads name :: ((headCells th name').tail.map .cell) ++ l) →
      ∃ w, NameAt f' fh' w name ∧ HeaderAt f' e pos' { th with nameOffset := w } ∧ SlotsAt f' e fh' (pos' + 12) l := by
    intro name name' l h
    rw [slotsAt_append, slotsAt_cons, slotsAt_cells] at h
    obtain ⟨⟨⟨w, h1, h2⟩, h3⟩, h4⟩ := h
    exact ⟨w, h2, header_of_cells h1 h3, h4⟩
  have bare : ∀ {name' : Option Str} {l : List Slot},
      SlotsAt f' e fh' pos' (.any :: ((headCells th name').tail.map .cell) ++ l) →
      ∃ w, HeaderAt f' e pos' { th with nameOffset := w } ∧ SlotsAt f' e fh' (pos' + 12) l := by
    intro name' l h
    rw [slotsAt_append, slotsAt_cons, slotsAt_cells] at h
    obtain ⟨⟨⟨w, h1⟩, h3⟩, h4⟩ := h
    exact ⟨w, header_of_cells h1 h3, h4⟩
  have struct : ∀ {d : StructData}, StructBody f e fh th pos d →
      SlotsAt f' e fh' pos' (.leads d.name :: ((headCells th d.name).tail.map .cell) ++
        d.memberList.flatMap fun m => .leads m.name :: ((memberCells th.kindFlag m).tail.map .cell)) →
      ∃ w d', forgetStruct d' = forgetStruct d ∧ HeaderAt f' e pos' { th with nameOffset := w } ∧
        StructBody f' e fh' { th with nameOffset := w } (pos' + 12) d' := by
    rintro d ⟨h1, h2, h3, h4⟩ hc
    obtain ⟨w, h5, h6, h7⟩ := head hc
    obtain ⟨ms, h8, h9⟩ := slots_items h4 (fun _ => rfl) h7 fun _ _ _ => slot_member
    refine ⟨w, { d with memberList := ms }, by simp only [forgetStruct, h8], h6, h5, h2, ?_, h9⟩
    rw [← h3]; exact length_of_map h8
  cases v <;> simp only [Body] at h <;> simp only [slots, reportedHeader, nameSlot, bodySlots] at hc <;>
    (try obtain ⟨rfl, hk, h⟩ := h)
  case ptr => obtain ⟨w, h1, -⟩ := bare hc; exact ⟨w, .ptr _ _, by rfl, h1, rfl, hk, h⟩
  case const => obtain ⟨w, h1, -⟩ := bare hc; exact ⟨w, .const _ _, by rfl, h1, rfl, hk, h⟩
  case volatile => obtain ⟨w, h1, -⟩ := bare hc; exact ⟨w, .volatile _ _, by rfl, h1, rfl, hk, h⟩
  case restrict => obtain ⟨w, h1, -⟩ := bare hc; exact ⟨w, .restrict _ _, by rfl, h1, rfl, hk, h⟩
  case typedef => obtain ⟨w, h0, h1, -⟩ := head hc; exact ⟨w, .typedef _ _, by rfl, h1, rfl, hk, h0, h.2⟩
  case fwd => obtain ⟨w, h0, h1, -⟩ := head hc; exact ⟨w, .fwd _ _, by rfl, h1, rfl, hk, h0, h.2⟩
  case typeTag => obtain ⟨w, h0, h1, -⟩ := head hc; exact ⟨w, .typeTag _ _, by rfl, h1, rfl, hk, h0, h.2⟩
  case func => obtain ⟨w, h0, h1, -⟩ := head hc; exact ⟨w, .func _ _, by rfl, h1, rfl, hk, h0, h.2⟩
  case float => obtain ⟨w, h0, h1, -⟩ := head hc; exact ⟨w, .float _ _, by rfl, h1, rfl, hk, h0, h.2⟩
  case int hd d =>
    obtain ⟨w, h0, h1, h2⟩ := head hc
    rw [slotsAt_cells] at h2
    simp only [bodyCells, cellsAt_cons] at h2
    have hi : IntBody f e fh hd pos d := h
    obtain ⟨u, g1, g2, g3, g4, g5, g6, g7, g8⟩ := hi
    obtain ⟨u', k1, k2, -⟩ := h2.1
    refine ⟨w, .int _ d, by rfl, h1, rfl, hk, u', k1, h0, g3, ?_, ?_, ?_, ?_, ?_⟩
    · exact flag_value.1 (k2 (flag 24 d.signed) (by simp [intCell]))
    · exact flag_value.1 (k2 (flag 25 d.char) (by simp [intCell]))
    · exact flag_value.1 (k2 (flag 26 d.boolean) (by simp [intCell]))
    · exact (k2 ⟨16, 8, d.offset⟩ (by simp [intCell])).symm
    · have := k2 ⟨0, 8, d.bits⟩ (by simp [intCell])
      simp only [] at this
      omega
  case array =>
    obtain ⟨w, h1, h2⟩ := bare hc
    rw [slotsAt_cells] at h2
    simp only [bodyCells, cellsAt_cons, cellAt_whole] at h2
    exact ⟨w, .array _ _, by rfl, h1, rfl, hk, h2.1, h2.2.1, h2.2.2.1⟩
  case struct =>
    obtain ⟨w, d', h1, h2, h3⟩ := struct h hc
    exact ⟨w, .struct _ d', by rw [forgetOffsets, forgetOffsets, h1]; rfl, h2, rfl, hk, h3⟩
  case union =>
    obtain ⟨w, d', h1, h2, h3⟩ := struct h hc
    exact ⟨w, .union _ d', by rw [forgetOffsets, forgetOffsets, h1]; rfl, h2, rfl, hk, h3⟩
  case enum =>
    obtain ⟨g1, g2, g3, g4, g5⟩ := h
    obtain ⟨w, h0, h1, h2⟩ := head hc
    rw [slotsAt_cells] at h2
    exact ⟨w, .enum _ _, by rfl, h1, rfl, hk, h0, g2, g3, g4, (items_iff g5 (fun _ => rfl) (fun _ _ _ => value_cells)).1 h2⟩
  case enum64 =>
    obtain ⟨g1, g2, g3, g4, g5⟩ := h
    obtain ⟨w, h0, h1, h2⟩ := head hc
    rw [slotsAt_cells] at h2
    exact ⟨w, .enum64 _ _, by rfl, h1, rfl, hk, h0, g2, g3, g4,
      (items_iff g5 (fun _ => by cases e <;> rfl) (fun _ _ _ => wide_cells)).1 h2⟩
  case funcProto hd d =>
    obtain ⟨g1, g2, g3⟩ := h
    obtain ⟨w, h1, h2⟩ := bare hc
    obtain ⟨xs, h8, h9⟩ := slots_items (k := forgetParameter) (item' := ParameterAt f' e fh') g3 (fun _ => rfl) h2
      fun _ _ _ _ => slot_param
    refine ⟨w, .funcProto _ { d with parameterList := xs }, by simp only [forgetOffsets, h8]; rfl, h1, rfl, hk, g1, ?_, h9⟩
    rw [← g2]; exact length_of_map h8
  case var =>
    obtain ⟨g1, g2, g3, g4⟩ := h
    obtain ⟨w, h0, h1, h2⟩ := head hc
    rw [slotsAt_cells] at h2
    simp only [bodyCells, cellsAt_cons, cellAt_whole] at h2
    exact ⟨w, .var _ _, by rfl, h1, rfl, hk, h0, g2, h2.1, g4⟩
  case dataSec =>
    obtain ⟨g1, g2, g3, g4⟩ := h
    obtain ⟨w, h0, h1, h2⟩ := head hc
    rw [slotsAt_cells] at h2
    exact ⟨w, .dataSec _ _, by rfl, h1, rfl, hk, h0, g2, g3, (items_iff g4 (fun _ => rfl) (fun _ _ _ _ => variable_cells)).1 h2⟩
  case declTag =>
    obtain ⟨g1, g2, g3⟩ := h
    obtain ⟨w, h0, h1, h2⟩ := head hc
    rw [slotsAt_cells] at h2
    simp only [bodyCells, cellsAt_cons, cellAt_whole] at h2
    exact ⟨w, .declTag _ _, by rfl, h1, rfl, hk, h0, g2, h2.1⟩

/-- A record matches its own slots. -/
theorem body_slots {th : Header} {v : TypeVariant} (hh : HeaderAt f e pos th) (h : Body .crate f e fh th (pos + 12) v) :
    SlotsAt f e fh pos (slots e v) := by
  have hcells := (body_cells h).2 ⟨hh, h⟩
  have head : ∀ {name name' : Option Str} {l : List Slot}, NameAt f fh th.nameOffset name → SlotsAt f e fh (pos + 12) l →
      SlotsAt f e fh pos (.leads name :: ((headCells th name').tail.map .cell) ++ l) := by
    intro name name' l h1 h2
    rw [slotsAt_append, slotsAt_cons, slotsAt_cells]
    exact ⟨⟨⟨_, hh.1, h1⟩, (head_cells.2 hh).1⟩, h2⟩
  have bare : ∀ {name' : Option Str} {l : List Slot}, SlotsAt f e fh (pos + 12) l →
      SlotsAt f e fh pos (.any :: ((headCells th name').tail.map .cell) ++ l) := by
    intro name' l h2
    rw [slotsAt_append, slotsAt_cons, slotsAt_cells]
    exact ⟨⟨⟨_, hh.1⟩, (head_cells.2 hh).1⟩, h2⟩
  have rest : ∀ {name : Option Str} {l : List Cell}, CellsAt f e fh pos (headCells th name ++ l) →
      SlotsAt f e fh (pos + 12) (l.map .cell) := fun h => slotsAt_cells.2 (cellsAt_append.1 h).2
  have struct : ∀ {d : StructData}, StructBody f e fh th (pos + 12) d →
      SlotsAt f e fh pos (.leads d.name :: ((headCells th d.name).tail.map .cell) ++
        d.memberList.flatMap fun m => .leads m.name :: ((memberCells th.kindFlag m).tail.map .cell)) :=
    fun h => head h.1 (items_slots h.2.2.2 (fun _ => rfl) fun _ _ => member_slot)
  cases v <;> simp only [Body] at h <;> simp only [cells, reportedHeader] at hcells <;>
    simp only [slots, reportedHeader, nameSlot, bodySlots] <;> (try obtain ⟨rfl, hk, h⟩ := h)
  case ptr => exact bare (rest hcells)
  case const => exact bare (rest hcells)
  case volatile => exact bare (rest hcells)
  case restrict => exact bare (rest hcells)
  case array => exact bare (rest hcells)
  case typedef => exact head h.1 (rest hcells)
  case fwd => exact head h.1 (rest hcells)
  case typeTag => exact head h.1 (rest hcells)
  case func => exact head h.1 (rest hcells)
  case float => exact head h.1 (rest hcells)
  case int => exact head h.choose_spec.2.1 (rest hcells)
  case struct => exact struct h
  case union => exact struct h
  case enum => exact head h.1 (rest hcells)
  case enum64 => exact head h.1 (rest hcells)
  case var => exact head h.1 (rest hcells)
  case dataSec => exact head h.1 (rest hcells)
  case declTag => exact head h.1 (rest hcells)
  case funcProto => exact bare (items_slots h.2.2 (fun _ => rfl) fun _ _ => param_slot)

/-! ### The slots do not depend on the offsets -/

theorem flatMap_forget {α β : Type} {g : α → List β} {k : α → α} (h : ∀ x, g (k x) = g x) (l : List α) :
    (l.map k).flatMap g = l.flatMap g := by
  induction l with
  | nil => rfl
  | cons x l ih => rw [List.map_cons, List.flatMap_cons, List.flatMap_cons, h, ih]

theorem slots_forget (v : TypeVariant) : slots e (forgetOffsets v) = slots e v := by
  cases v <;> try rfl
  case struct h d =>
    simp only [slots, forgetOffsets, reportedHeader, nameSlot, bodySlots, forgetStruct]
    rw [flatMap_forget (k := forgetMember) (fun _ => rfl)]
    rfl
  case union h d =>
    simp only [slots, forgetOffsets, reportedHeader, nameSlot, bodySlots, forgetStruct]
    rw [flatMap_forget (k := forgetMember) (fun _ => rfl)]
    rfl
  case funcProto h d =>
    simp only [slots, forgetOffsets, reportedHeader, nameSlot, bodySlots]
    rw [flatMap_forget (k := forgetParameter) (fun _ => rfl)]
    rfl

theorem slots_congr {v v' : TypeVariant} (h : forgetOffsets v' = forgetOffsets v) : slots e v' = slots e v := by
  rw [← slots_forget v', h, slots_forget]

theorem slots_flatMap {α : Type} {g : α → List Slot} {k : Nat} (hg : ∀ x, 4 * (g x).length = k) (l : List α) :
    4 * (l.flatMap g).length = k * l.length := by
  induction l with
  | nil => rfl
  | cons x l ih =>
    rw [List.flatMap_cons, List.length_append, List.length_cons, Nat.mul_add, hg, ih, Nat.mul_add]
    omega

theorem slots_length (e : Endianness) (v : TypeVariant) : 4 * (slots e v).length = recordBytes v := by
  rw [← cells_length e]
  cases v <;> simp only [slots, cells, reportedHeader, bodySlots, List.length_append, List.length_cons, List.length_map, headCells,
    List.tail_cons, List.length_nil]
  case struct =>
    simp only [bodyCells, Nat.mul_add]
    rw [slots_flatMap (k := 12) fun _ => rfl, flatMap_size (k := 12) fun _ => rfl]
  case union =>
    simp only [bodyCells, Nat.mul_add]
    rw [slots_flatMap (k := 12) fun _ => rfl, flatMap_size (k := 12) fun _ => rfl]
  case funcProto =>
    simp only [bodyCells, Nat.mul_add]
    rw [slots_flatMap (k := 8) fun _ => rfl, flatMap_size (k := 8) fun _ => rfl]

theorem records_slots {next : Nat} {vs : List TypeVariant} (h : Records .crate f e fh pos vs next) :
    SlotsAt f e fh pos (vs.flatMap (slots e)) := by
  induction h with
  | nil => exact slotsAt_nil
  | cons h1 _ ih =>
    obtain ⟨th, h2, h3, -, rfl⟩ := h1
    rw [List.flatMap_cons, slotsAt_append, slots_length, ← body_bytes h3, ← Nat.add_assoc]
    exact ⟨body_slots h2 h3, ih⟩

theorem slots_records {next : Nat} {vs : List TypeVariant} (h : Records .crate f e fh pos vs next)
    (hc : SlotsAt f' e fh' pos' (vs.flatMap (slots e))) (hlen : typeEnd fh - pos ≤ typeEnd fh' - pos')
    (hle : pos' ≤ typeEnd fh') :
    ∃ vs', vs'.map forgetOffsets = vs.map forgetOffsets ∧
      Records .crate f' e fh' pos' vs' (pos' + (next - pos)) ∧ pos ≤ next := by
  induction h generalizing pos' with
  | nil => rw [Nat.sub_self]; exact ⟨[], rfl, .nil, Nat.le_refl _⟩
  | @cons pos v mid vs next h1 h2 ih =>
    obtain ⟨th, h3, h4, h5, rfl⟩ := h1
    rw [List.flatMap_cons, slotsAt_append, slots_length, ← body_bytes h4, ← Nat.add_assoc] at hc
    obtain ⟨w, v', hv, h6, h7⟩ := slots_body h4 hc.1
    have hb : pos' + 12 + boundedSize .crate th.kind th.vlen ≤ typeEnd fh' := by omega
    by_cases hin : pos' + 12 + bodySize th.kind th.vlen ≤ typeEnd fh'
    · obtain ⟨vs', hvs, h8, h9⟩ := ih hc.2 (by omega) hin
      refine ⟨v' :: vs', by rw [List.map_cons, List.map_cons, hv, hvs], .cons ⟨_, h6, h7, hb, rfl⟩ ?_, by omega⟩
      rw [show pos' + (next - pos) = pos' + 12 + bodySize th.kind th.vlen + (next - (pos + 12 + bodySize th.kind th.vlen)) by omega]
      exact h8
    · cases h2 with
      | nil =>
        refine ⟨[v'], by rw [List.map_cons, List.map_cons, hv], .cons ⟨_, h6, h7, hb, rfl⟩ ?_, by omega⟩
        rw [show pos' + (pos + 12 + bodySize th.kind th.vlen - pos) = pos' + 12 + bodySize th.kind th.vlen by omega]
        exact .nil
      | cons h10 _ =>
        obtain ⟨th', -, -, h11, -⟩ := h10
        omega

/-! ### What does not depend on the offsets -/

theorem typeName_forget (v : TypeVariant) : typeName (forgetOffsets v) = typeName v := by cases v <;> rfl

theorem members_forget {ms ms' : List Member} (h : ms'.map forgetMember = ms.map forgetMember) : RenamedMembers id ms ms' := by
  induction ms generalizing ms' with
  | nil =>
    cases ms' with
    | nil => exact .nil
    | cons m ms' => cases h
  | cons m ms ih =>
    cases ms' with
    | nil => cases h
    | cons m' ms' =>
      rw [List.map_cons, List.map_cons, List.cons.injEq] at h
      obtain ⟨h1, h2⟩ := h
      simp only [forgetMember, Member.mk.injEq] at h1
      exact .cons h1.2.1 h1.2.2.1 h1.2.2.2 (ih h2)

theorem forget_renamed {v v' : TypeVariant} (h : forgetOffsets v' = forgetOffsets v) : Renamed id v v' := by
  cases v <;> cases v' <;> simp only [forgetOffsets, reduceCtorEq] at h <;> try exact .void
  case struct.struct => injection h with h1 h2; simp only [forgetStruct, StructData.mk.injEq] at h2; exact .struct h2.2.1 (members_forget h2.2.2)
  case union.union => injection h with h1 h2; simp only [forgetStruct, StructData.mk.injEq] at h2; exact .union h2.2.1 (members_forget h2.2.2)
  case funcProto.funcProto => exact .funcProto
  all_goals (injection h with h1 h2; subst h2; constructor <;> rfl)

end

end Btf

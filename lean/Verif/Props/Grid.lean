import Verif.Spec.Grid
import Verif.Props.Search
import Verif.Props.Queries

/-!
# Property C104: arrays of arrays
-/

namespace Btf.Props

open Btf Spec TypeInformation

/-! ### Counting cells -/

/-- C104: the cells are counted without gaps ... -/
theorem cellsBefore_lt {dims indices : List Nat} (h : InGrid dims indices) : cellsBefore dims indices < dims.prod := by
  induction h with
  | nil => simp [cellsBefore]
  | @cons n i dims indices h _ ih =>
    simp only [cellsBefore, List.prod_cons]
    calc i * dims.prod + cellsBefore dims indices < i * dims.prod + dims.prod := by omega
      _ = (i + 1) * dims.prod := by rw [Nat.add_mul, Nat.one_mul]
      _ ≤ n * dims.prod := Nat.mul_le_mul_right _ h

/-- C104: ... every number of a cell is that of some indices ... -/
theorem cellsBefore_surj (dims : List Nat) (k : Nat) (h : k < dims.prod) :
    ∃ indices, InGrid dims indices ∧ cellsBefore dims indices = k := by
  induction dims generalizing k with
  | nil => exact ⟨[], .nil, by simp at h; simp [cellsBefore, h]⟩
  | cons n dims ih =>
    rw [List.prod_cons] at h
    have hp : 0 < dims.prod := Nat.pos_of_ne_zero fun e => by rw [e] at h; simp at h
    obtain ⟨is, h1, h2⟩ := ih (k % dims.prod) (Nat.mod_lt _ hp)
    refine ⟨k / dims.prod :: is, .cons (Nat.div_lt_of_lt_mul (by rwa [Nat.mul_comm])) h1, ?_⟩
    rw [cellsBefore, h2, Nat.mul_comm]
    exact Nat.div_add_mod k dims.prod

/-- C104: ... and of no others. -/
theorem cellsBefore_inj {dims is js : List Nat} (hi : InGrid dims is) (hj : InGrid dims js)
    (h : cellsBefore dims is = cellsBefore dims js) : is = js := by
  induction hi generalizing js with
  | nil => cases hj; rfl
  | @cons n i dims is hlt hi ih =>
    cases hj with
    | @cons _ j _ js hlt' hj =>
      simp only [cellsBefore] at h
      have h1 := cellsBefore_lt hi
      have h2 := cellsBefore_lt hj
      have e : i = j := by
        have e1 : (i * dims.prod + cellsBefore dims is) / dims.prod = i := by
          rw [Nat.mul_comm, Nat.mul_add_div (by omega), Nat.div_eq_of_lt h1, Nat.add_zero]
        have e2 : (j * dims.prod + cellsBefore dims js) / dims.prod = j := by
          rw [Nat.mul_comm, Nat.mul_add_div (by omega), Nat.div_eq_of_lt h2, Nat.add_zero]
        rw [← e1, ← e2, h]
      subst e
      rw [ih hj (by omega)]

/-! ### Sizes -/

variable {ti : TypeInformation} {limit : Option Nat}

theorem hasSize_behind {t a : UInt32} {n : Nat} (hc : Chain ti accessAlias t a) (h : HasSize limit ti t n) :
    HasSize limit ti a n := by
  induction hc with
  | refl => exact h
  | step hv ha _ ih =>
    refine ih ?_
    cases h with
    | own h1 h2 => rw [hv] at h1; cases h1; exfalso; revert ha h2; cases ‹TypeVariant› <;> simp [accessAlias, aliasOf, ownSize]
    | ptr h1 h2 => rw [hv] at h1; cases h1; exfalso; revert ha h2; cases ‹TypeVariant› <;> simp [accessAlias, aliasOf, IsPtr]
    | array h1 => rw [hv] at h1; cases h1; cases ha
    | «alias» h1 h2 h3 =>
      rw [hv] at h1; cases h1
      revert ha h2; cases ‹TypeVariant› <;> simp_all [accessAlias, aliasOf, sizeAlias]

theorem hasSize_row {t : UInt32} {hd : Header} {d : ArrayData} {n : Nat} (hr : Resolves ti t (.array hd d))
    (h : HasSize limit ti t n) : ∃ m, HasSize limit ti d.elementTid m ∧ n = m * d.elementCount.toNat := by
  obtain ⟨a, hc, ha, -⟩ := hr
  cases hasSize_behind hc h with
  | own h1 h2 => rw [ha] at h1; cases h1; cases h2
  | ptr h1 h2 => rw [ha] at h1; cases h1; cases h2
  | array h1 h2 h3 => rw [ha] at h1; cases h1; exact ⟨_, h2, rfl⟩
  | «alias» h1 h2 h3 => rw [ha] at h1; cases h1; cases h2

/-- C104: the size of an array of arrays is the number of its cells times the size of a cell. -/
theorem nested_size {t u : UInt32} {dims : List Nat} {n : Nat} (hn : Nested ti t dims u) (h : HasSize limit ti t n) :
    ∃ s, HasSize limit ti u s ∧ n = dims.prod * s := by
  induction hn generalizing n with
  | cell => exact ⟨n, h, by simp⟩
  | @rows t hd d dims u hr _ ih =>
    obtain ⟨m, hm, rfl⟩ := hasSize_row hr h
    obtain ⟨s, hs, rfl⟩ := ih hm
    exact ⟨s, hs, by rw [List.prod_cons, Nat.mul_right_comm, Nat.mul_comm dims.prod]⟩

/-! ### Lookups -/

theorem after_bytes {a b : Nat} (h : a + b < 2 ^ 32) :
    After (.byteOffset (UInt32.ofNat a)) (.byteOffset (UInt32.ofNat b)) (.byteOffset (UInt32.ofNat (a + b))) := by
  refine ⟨by simp [IsBitfield, bitWidth], rfl, ?_⟩
  simp only [bitPos, UInt32.toNat_ofNat']
  omega

theorem not_after_bytes {a b : Nat} (ha : a < 2 ^ 32) (hb : b < 2 ^ 32) (h : 2 ^ 32 ≤ a + b) :
    NotAfter (.byteOffset (UInt32.ofNat a)) (.byteOffset (UInt32.ofNat b)) .InvalidOffset := by
  refine .tooLarge (by simp [IsBitfield, bitWidth]) ?_
  rintro c ⟨-, h1, h2⟩
  cases c with
  | bitOffsetAndSize => cases h1
  | byteOffset c =>
    have := c.toNat_lt
    simp only [bitPos, UInt32.toNat_ofNat'] at h2
    omega

/-- The lookup from an offset on. -/
theorem search_grid {cfg : Cfg} {t u : UInt32} {dims indices : List Nat} {n s : Nat} (hn : Nested ti t dims u)
    (h : HasSize (some cfg.usizeMod) ti t n) (hs : HasSize (some cfg.usizeMod) ti u s) (hl : indices.length = dims.length)
    (a : Nat) (ha : a < 2 ^ 32) :
    (InGrid dims indices → a + cellsBefore dims indices * s < 2 ^ 32 →
      Search cfg ti true t (.byteOffset (UInt32.ofNat a)) (indices.map .index)
        (.ok (u, .byteOffset (UInt32.ofNat (a + cellsBefore dims indices * s))))) ∧
    (¬ InGrid dims indices ∨ 2 ^ 32 ≤ a + cellsBefore dims indices * s →
      ∃ e, Search cfg ti true t (.byteOffset (UInt32.ofNat a)) (indices.map .index) (.err e) ∧
        (e = .InvalidTypePath ∨ e = .InvalidOffset) ∧ (a + n ≤ 2 ^ 32 → e = .InvalidTypePath)) := by
  induction hn generalizing n indices a with
  | cell =>
    cases indices with
    | cons => cases hl
    | nil =>
      refine ⟨fun _ _ => by simpa [cellsBefore] using Search.done rfl, fun h => ?_⟩
      rcases h with h | h
      · exact absurd List.Forall₂.nil h
      · simp [cellsBefore] at h; omega
  | @rows t hd d dims u hr hn ih =>
    obtain ⟨m, hm, rfl⟩ := hasSize_row hr h
    obtain ⟨s', hs', e⟩ := nested_size hn hm
    have : s' = s := by
      have h1 := (size_of_exact cfg ti u s hs (.ok s')).1 ((size_of_exact cfg ti u s' hs' _).2 rfl)
      injection h1
    subst this
    have hret : Returns (fun k => TypeInformation.sizeOf cfg ti k d.elementTid) (.ok m) := (size_of_exact cfg ti _ m hm _).2 rfl
    cases indices with
    | nil => cases hl
    | cons i indices =>
      have hl : indices.length = dims.length := Nat.succ.inj hl
      have ecells : cellsBefore (d.elementCount.toNat :: dims) (i :: indices) * s' = i * m + cellsBefore dims indices * s' := by
        rw [cellsBefore, Nat.add_mul, Nat.mul_assoc, ← e]
      rw [ecells, List.map_cons]
      constructor
      · intro hg hlt
        cases hg with
        | cons hi hg =>
          have := (ih hm hs hl (a + i * m) (by omega)).1 hg (by omega)
          rw [Nat.add_assoc] at this
          exact .element hr hi hret (by omega) (after_bytes (by omega)) this
      · intro hbad
        by_cases hi : i < d.elementCount.toNat
        · by_cases h1 : i * m < 2 ^ 32
          · by_cases h2 : a + i * m < 2 ^ 32
            · obtain ⟨e, he, hk, hk'⟩ := (ih hm hs hl (a + i * m) h2).2 (by
                rcases hbad with hb | hb
                · exact .inl fun hg => hb (.cons hi hg)
                · exact .inr (by omega))
              refine ⟨e, .element hr hi hret h1 (after_bytes h2) he, hk, fun hle => hk' ?_⟩
              have : (i + 1) * m ≤ d.elementCount.toNat * m := Nat.mul_le_mul_right _ hi
              rw [Nat.add_mul, Nat.one_mul] at this
              rw [Nat.mul_comm] at hle
              omega
            · refine ⟨_, .elementNowhere hr hi hret h1 (not_after_bytes ha h1 (by omega)), .inr rfl, fun hle => ?_⟩
              have : (i + 1) * m ≤ d.elementCount.toNat * m := Nat.mul_le_mul_right _ hi
              rw [Nat.add_mul, Nat.one_mul] at this
              rw [Nat.mul_comm] at hle
              have hm0 : m = 0 := by omega
              rw [hm0, Nat.mul_zero] at h2
              omega
          · exact ⟨_, .elementFar hr hi hret (by omega), .inl rfl, fun _ => rfl⟩
        · exact ⟨_, .outOfBounds hr (by omega), .inl rfl, fun _ => rfl⟩

/-- C104: `[i]..[k]` on an array of arrays: it succeeds exactly if every index is in bounds and the offset fits in 32 bits;
the answer is a cell, at the number of the cells before it times the size of a cell. -/
theorem offset_of_cell (cfg : Cfg) (t u : UInt32) (dims indices : List Nat) (n : Nat) (hn : Nested ti t dims u)
    (h : HasSize (some cfg.usizeMod) ti t n) (hl : indices.length = dims.length) (p : String)
    (hp : AcceptedPath cfg.usizeMod (str p) (indices.map .index)) :
    ∃ s, HasSize (some cfg.usizeMod) ti u s ∧ n = dims.prod * s ∧
      ∀ v o, OffsetOf cfg ti t (str p) (.ok (v, o)) ↔
        InGrid dims indices ∧ cellsBefore dims indices * s < 2 ^ 32 ∧ v = u ∧
          o = .byteOffset (UInt32.ofNat (cellsBefore dims indices * s)) := by
  obtain ⟨s, hs, e⟩ := nested_size hn h
  refine ⟨s, hs, e, fun v o => ?_⟩
  rw [offset_of_search cfg ti t p _ hp]
  have key := search_grid hn h hs hl 0 (by decide)
  simp only [Nat.zero_add] at key
  constructor
  · intro ho
    by_cases hg : InGrid dims indices ∧ cellsBefore dims indices * s < 2 ^ 32
    · have := search_unique ho (key.1 hg.1 hg.2)
      injection this with this
      injection this with h1 h2
      exact ⟨hg.1, hg.2, h1, h2⟩
    · obtain ⟨e, he, -⟩ := key.2 (by
        by_cases h1 : InGrid dims indices
        · exact .inr (Nat.not_lt.1 fun h2 => hg ⟨h1, h2⟩)
        · exact .inl h1)
      cases search_unique ho he
  · rintro ⟨h1, h2, rfl, rfl⟩
    exact key.1 h1 h2

/-- C104: otherwise it fails, with `InvalidTypePath` or `InvalidOffset`. -/
theorem offset_of_no_cell (cfg : Cfg) (t u : UInt32) (dims indices : List Nat) (n s : Nat) (hn : Nested ti t dims u)
    (h : HasSize (some cfg.usizeMod) ti t n) (hs : HasSize (some cfg.usizeMod) ti u s) (hl : indices.length = dims.length)
    (p : String) (hp : AcceptedPath cfg.usizeMod (str p) (indices.map .index))
    (hbad : ¬ InGrid dims indices ∨ 2 ^ 32 ≤ cellsBefore dims indices * s) :
    OffsetOf cfg ti t (str p) (.err .InvalidTypePath) ∨ OffsetOf cfg ti t (str p) (.err .InvalidOffset) := by
  simp only [offset_of_search cfg ti t p _ hp]
  have key := search_grid hn h hs hl 0 (by decide)
  simp only [Nat.zero_add] at key
  obtain ⟨e, he, rfl | rfl, -⟩ := key.2 hbad
  · exact .inl he
  · exact .inr he

/-- C104: an array of arrays of at most 4 GiB: the indices that are in bounds give a cell, all others fail with
`InvalidTypePath`. -/
theorem offset_of_small_grid (cfg : Cfg) (t u : UInt32) (dims indices : List Nat) (n s : Nat) (hn : Nested ti t dims u)
    (h : HasSize (some cfg.usizeMod) ti t n) (hs : HasSize (some cfg.usizeMod) ti u s) (hsmall : n ≤ 2 ^ 32)
    (hl : indices.length = dims.length) (p : String) (hp : AcceptedPath cfg.usizeMod (str p) (indices.map .index)) :
    (InGrid dims indices →
      OffsetOf cfg ti t (str p) (.ok (u, .byteOffset (UInt32.ofNat (cellsBefore dims indices * s))))) ∧
    (¬ InGrid dims indices → OffsetOf cfg ti t (str p) (.err .InvalidTypePath)) := by
  simp only [offset_of_search cfg ti t p _ hp]
  have key := search_grid hn h hs hl 0 (by decide)
  simp only [Nat.zero_add] at key
  constructor
  · intro hg
    refine key.1 hg ?_
    obtain ⟨s', hs', rfl⟩ := nested_size hn h
    have : s' = s := by
      have h1 := (size_of_exact cfg ti u s hs (.ok s')).1 ((size_of_exact cfg ti u s' hs' _).2 rfl)
      injection h1
    subst this
    rcases Nat.eq_zero_or_pos s' with rfl | hs0
    · simp
    exact Nat.lt_of_lt_of_le (Nat.mul_lt_mul_of_pos_right (cellsBefore_lt hg) hs0) hsmall
  · intro hg
    obtain ⟨e, he, -, hk⟩ := key.2 (.inl hg)
    rw [hk hsmall] at he
    exact he

/-! ### Examples -/

/-- `typedef int row[3]; row m[2];` -/
def matrix : TypeInformation where
  idToType := ⟨[
    (1, .int ⟨.Int, 1, 0, false, 4⟩ ⟨some (str "int"), 4, true, false, false, 0, 32⟩),
    (2, .array ⟨.Array, 0, 0, false, 0⟩ ⟨1, 1, 3⟩),
    (3, .typedef ⟨.Typedef, 5, 0, false, 2⟩ ⟨some (str "row"), 2⟩),
    (4, .array ⟨.Array, 0, 0, false, 0⟩ ⟨3, 1, 2⟩)]⟩
  nameToId := ⟨[(str "int", 1), (str "row", 3)]⟩
  idToName := ⟨[(1, str "int"), (3, str "row")]⟩

theorem matrix_parsed : TypeInformation.new Samples.dbg (Samples.buffer (Samples.leFile
    [1, 0x1000000, 4, 0x1000020, 0, 0x3000000, 0, 1, 1, 3, 5, 0x8000000, 2, 0, 0x3000000, 0, 3, 1, 2]
    [0, 105, 110, 116, 0, 114, 111, 119, 0])) = .ok matrix := by decide +kernel

theorem matrix_nested : Nested matrix 4 [2, 3] 1 :=
  .rows (d := ⟨3, 1, 2⟩) ⟨4, .refl, rfl, rfl⟩ (.rows (d := ⟨1, 1, 3⟩) ⟨2, .step rfl rfl .refl, rfl, rfl⟩ .cell)

theorem matrix_cell (limit : Option Nat) : HasSize limit matrix 1 4 := .own rfl rfl

theorem matrix_size (cfg : Cfg) (h : 32 ≤ cfg.usizeMod) : HasSize (some cfg.usizeMod) matrix 4 24 :=
  .array (h := ⟨.Array, 0, 0, false, 0⟩) (d := ⟨3, 1, 2⟩) rfl (.«alias» rfl rfl (.array (d := ⟨1, 1, 3⟩) rfl (matrix_cell _)
    (by rintro l ⟨⟩; exact Nat.lt_of_lt_of_le (by decide) h))) (by rintro l ⟨⟩; exact Nat.lt_of_lt_of_le (by decide) h)

theorem matrix_path (limit i j : Nat) (di dj : String) (hi : IsIndex limit (str di) i) (hj : IsIndex limit (str dj) j) :
    AcceptedPath limit ([91] ++ str di ++ [93] ++ ([91] ++ str dj ++ [93] ++ [])) ([i, j].map .index) :=
  .strict (.index hi (.index hj .nil))

/-- `offset_of_cell`, `offset_of_small_grid`: `[1][2]` is the last of the six cells, at byte 20; `[0][3]` is out of bounds,
although there is a cell 3. -/
example : OffsetOf Samples.dbg matrix 4 (str "[1][2]") (.ok (1, .byteOffset 20)) ∧
    OffsetOf Samples.dbg matrix 4 (str "[0][3]") (.err .InvalidTypePath) := by
  have path : ∀ i j di dj, IsIndex Samples.dbg.usizeMod (str di) i → IsIndex Samples.dbg.usizeMod (str dj) j → _ :=
    fun i j di dj => matrix_path Samples.dbg.usizeMod i j di dj
  have grid := fun i j p hp => offset_of_small_grid Samples.dbg 4 1 [2, 3] [i, j] 24 4 matrix_nested
    (matrix_size Samples.dbg (by decide)) (matrix_cell _) (by decide) rfl p hp
  constructor
  · exact (grid 1 2 "[1][2]" (path 1 2 "1" "2" ⟨by decide, by unfold Digit; decide, by decide, by decide⟩ ⟨by decide, by unfold Digit; decide, by decide, by decide⟩)).1
      (.cons (by decide) (.cons (by decide) .nil))
  · exact (grid 0 3 "[0][3]" (path 0 3 "0" "3" ⟨by decide, by unfold Digit; decide, by decide, by decide⟩ ⟨by decide, by unfold Digit; decide, by decide, by decide⟩)).2
      (by rintro (_ | ⟨-, _ | ⟨h, -⟩⟩); exact absurd h (by decide))

/-- `nested_size`, `offset_of_no_cell`: 24 bytes are six cells of four; an index that is too large is refused. -/
example (cfg : Cfg) (h : 32 ≤ cfg.usizeMod) (p : String) (hp : AcceptedPath cfg.usizeMod (str p) ([2, 0].map .index)) :
    (∃ s, HasSize (some cfg.usizeMod) matrix 1 s ∧ 24 = [2, 3].prod * s) ∧
    (OffsetOf cfg matrix 4 (str p) (.err .InvalidTypePath) ∨ OffsetOf cfg matrix 4 (str p) (.err .InvalidOffset)) :=
  ⟨nested_size matrix_nested (matrix_size cfg h), offset_of_no_cell cfg 4 1 [2, 3] [2, 0] 24 4 matrix_nested (matrix_size cfg h)
    (matrix_cell _) rfl p hp (.inl (by rintro (_ | ⟨h, -⟩); exact absurd h (by decide)))⟩

/-- `cellsBefore_lt`, `cellsBefore_surj`, `cellsBefore_inj`: the six cells. -/
example : cellsBefore [2, 3] [1, 2] = 5 ∧ cellsBefore [2, 3] [1, 0] = 3 ∧ cellsBefore [2, 3] [0, 2] = 2 := by decide

end Btf.Props

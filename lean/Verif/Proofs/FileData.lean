import Verif.Proofs.FileStr
import Verif.Proofs.Bits

/-!
# The bodies of the records of a file
-/

namespace Btf

open Spec Reader

section
variable {α β : Type} {f : List UInt8} {e : Endianness} {cfg : Cfg} {fh : FileHeader} {pos : Nat}

/-! ### Sequencing -/

theorem correct_word {q : UInt32 → P β} {S : UInt32 → β → Nat → Prop} {E : UInt32 → LoadReason → Prop}
    (hfit : pos + 4 < cfg.usizeMod)
    (hq : ∀ w, Word f e pos w → Correct cfg f e (pos + 4) (q w) (S w) (E w)) :
    Correct cfg f e pos (u32 cfg >>= q) (fun b n => ∃ w, Word f e pos w ∧ S w b n)
      (fun k => Cut f (pos + 4) k ∨ ∃ w, Word f e pos w ∧ E w k) := by
  refine (correct_bind (S := fun w _ => S w) (E' := fun w _ => E w) (correct_u32 hfit) ?_).congr ?_ ?_
  · rintro w mid ⟨h, rfl⟩; exact hq w h
  · intro b n
    constructor
    · rintro ⟨w, mid, ⟨h, -⟩, h'⟩; exact ⟨w, h, h'⟩
    · rintro ⟨w, h, h'⟩; exact ⟨w, _, ⟨h, rfl⟩, h'⟩
  · rintro k (h | ⟨w, mid, ⟨h, -⟩, h'⟩)
    · exact .inl h
    · exact .inr ⟨w, h, h'⟩

theorem correct_name {q : Option Str → P β} {S : Option Str → β → Nat → Prop} {E : Option Str → LoadReason → Prop}
    (hfit : Fits cfg fh) {off : UInt32}
    (hq : ∀ s, NameAt f fh off s → Correct cfg f e pos (q s) (S s) (E s)) :
    Correct cfg f e pos (parseName cfg fh off >>= q) (fun b n => ∃ s, NameAt f fh off s ∧ S s b n)
      (fun k => (off ≠ 0 ∧ StringFlaw f fh off k) ∨ ∃ s, NameAt f fh off s ∧ E s k) := by
  refine (correct_bind (S := fun w _ => S w) (E' := fun w _ => E w) (correct_parseName hfit pos off) ?_).congr ?_ ?_
  · rintro w mid ⟨h, rfl⟩; exact hq w h
  · intro b n
    constructor
    · rintro ⟨w, mid, ⟨h, -⟩, h'⟩; exact ⟨w, h, h'⟩
    · rintro ⟨w, h, h'⟩; exact ⟨w, _, ⟨h, rfl⟩, h'⟩
  · rintro k (h | ⟨w, mid, ⟨h, -⟩, h'⟩)
    · exact .inl h
    · exact .inr ⟨w, h, h'⟩

theorem correct_string {q : Str → P β} {S : Str → β → Nat → Prop} {E : Str → LoadReason → Prop}
    (hfit : Fits cfg fh) {off : UInt32}
    (hq : ∀ s, StringAt f fh off s → Correct cfg f e pos (q s) (S s) (E s)) :
    Correct cfg f e pos (parseString cfg fh off >>= q) (fun b n => ∃ s, StringAt f fh off s ∧ S s b n)
      (fun k => StringFlaw f fh off k ∨ ∃ s, StringAt f fh off s ∧ E s k) := by
  refine (correct_bind (S := fun w _ => S w) (E' := fun w _ => E w) (correct_parseString hfit pos off) ?_).congr ?_ ?_
  · rintro w mid ⟨h, rfl⟩; exact hq w h
  · intro b n
    constructor
    · rintro ⟨w, mid, ⟨h, -⟩, h'⟩; exact ⟨w, h, h'⟩
    · rintro ⟨w, h, h'⟩; exact ⟨w, _, ⟨h, rfl⟩, h'⟩
  · rintro k (h | ⟨w, mid, ⟨h, -⟩, h'⟩)
    · exact .inl h
    · exact .inr ⟨w, h, h'⟩

/-! ### Lists of items -/

theorem items_cons {item : Nat → α → Prop} {size : Nat} {x : α} {xs : List α} :
    Items item size pos (x :: xs) ↔ item pos x ∧ Items item size (pos + size) xs := by
  constructor
  · intro h
    have h0 := h 0 (by simp)
    rw [Nat.zero_mul, Nat.add_zero] at h0
    refine ⟨h0, fun i hi => ?_⟩
    have := h (i + 1) (by simp; omega)
    simp only [List.getElem_cons_succ] at this
    rw [Nat.add_mul, Nat.one_mul] at this
    rwa [show pos + size + i * size = pos + (i * size + size) by omega]
  · rintro ⟨h0, h⟩ i hi
    cases i with
    | zero => rw [Nat.zero_mul, Nat.add_zero]; exact h0
    | succ i =>
      have := h i (by simpa using hi)
      simp only [List.getElem_cons_succ]
      rw [Nat.add_mul, Nat.one_mul]
      rwa [show pos + (i * size + size) = pos + size + i * size by omega]

theorem correct_repeat {item : P α} {I : Nat → α → Prop} {size : Nat} {E : Nat → LoadReason → Prop} (n : Nat) :
    ∀ pos, (∀ i, i < n → Correct cfg f e (pos + i * size) item
      (fun a n' => I (pos + i * size) a ∧ n' = pos + i * size + size) (E (pos + i * size))) →
    Correct cfg f e pos (repeatP item n)
      (fun xs n' => xs.length = n ∧ Items I size pos xs ∧ n' = pos + n * size)
      (fun k => ∃ i < n, E (pos + i * size) k) := by
  induction n with
  | zero =>
    intro pos _
    refine (correct_pure []).congr ?_ (fun _ h => h.elim)
    intro xs n'
    constructor
    · rintro ⟨rfl, rfl⟩; exact ⟨rfl, fun i h => by simp at h, by simp⟩
    · rintro ⟨h, -, rfl⟩; exact ⟨List.eq_nil_of_length_eq_zero h, by simp⟩
  | succ n ih =>
    intro pos hitem
    have hmul : ∀ i, pos + size + i * size = pos + (i + 1) * size := by
      intro i; rw [Nat.add_mul, Nat.one_mul]; omega
    have h0 := hitem 0 (by omega)
    simp only [Nat.zero_mul, Nat.add_zero] at h0
    have hrest := ih (pos + size) (fun i hi => by
      have := hitem (i + 1) (by omega)
      rw [← hmul] at this
      exact this)
    refine (correct_bind (S := fun a _ xs n' => ∃ ys, (ys.length = n ∧ Items I size (pos + size) ys ∧
        n' = pos + size + n * size) ∧ xs = a :: ys) (E' := fun _ _ k => ∃ i < n, E (pos + size + i * size) k)
        h0 ?_).congr ?_ ?_
    · rintro a mid ⟨-, rfl⟩
      refine (correct_bind hrest (fun ys _ _ => correct_pure (a :: ys))).congr ?_ ?_
      · intro xs n'
        constructor
        · rintro ⟨ys, mid, h, rfl, rfl⟩; exact ⟨ys, h, rfl⟩
        · rintro ⟨ys, h, rfl⟩; exact ⟨ys, _, h, rfl, rfl⟩
      · rintro k (h | ⟨_, _, _, h⟩)
        · exact h
        · exact h.elim
    · intro xs n'
      constructor
      · rintro ⟨a, mid, ⟨ha, rfl⟩, ys, ⟨h1, h2, h3⟩, rfl⟩
        exact ⟨by simp [h1], items_cons.2 ⟨ha, h2⟩, by rw [h3, hmul]⟩
      · rintro ⟨h1, h2, h3⟩
        cases xs with
        | nil => simp at h1
        | cons a ys =>
          rw [items_cons] at h2
          exact ⟨a, _, ⟨h2.1, rfl⟩, ys, ⟨by simpa using h1, h2.2, by rw [h3, hmul]⟩, rfl⟩
    · rintro k (h | ⟨_, _, _, i, hi, h⟩)
      · exact ⟨0, by omega, by simpa using h⟩
      · exact ⟨i + 1, by omega, by rw [← hmul]; exact h⟩

theorem correct_items {item : P α} {I : Nat → α → Prop} {size n : Nat} {E : Nat → LoadReason → Prop}
    {q : List α → P β} {S : List α → β → Nat → Prop} {E' : List α → LoadReason → Prop}
    (hitem : ∀ i, i < n → Correct cfg f e (pos + i * size) item
      (fun a n' => I (pos + i * size) a ∧ n' = pos + i * size + size) (E (pos + i * size)))
    (hq : ∀ xs, xs.length = n → Items I size pos xs → Correct cfg f e (pos + n * size) (q xs) (S xs) (E' xs)) :
    Correct cfg f e pos (repeatP item n >>= q)
      (fun b n' => ∃ xs, (xs.length = n ∧ Items I size pos xs) ∧ S xs b n')
      (fun k => (∃ i < n, E (pos + i * size) k) ∨ ∃ xs, E' xs k) := by
  refine (correct_bind (S := fun w _ => S w) (E' := fun w _ => E' w) (correct_repeat n pos hitem) ?_).congr ?_ ?_
  · rintro w mid ⟨h1, h2, rfl⟩; exact hq w h1 h2
  · intro b n
    constructor
    · rintro ⟨w, mid, ⟨h1, h2, -⟩, h'⟩; exact ⟨w, ⟨h1, h2⟩, h'⟩
    · rintro ⟨w, ⟨h1, h2⟩, h'⟩; exact ⟨w, _, ⟨h1, h2, rfl⟩, h'⟩
  · rintro k (h | ⟨w, mid, ⟨h, -⟩, h'⟩)
    · exact .inl h
    · exact .inr ⟨w, h'⟩

/-! ### The kinds -/

/-- Why the body at `pos` of a record with header `th` cannot be decoded. -/
def BodyFlaw (f : List UInt8) (e : Endianness) (fh : FileHeader) (th : Header) (pos : Nat) (k : LoadReason) : Prop :=
  Cut f (pos + bodySize th.kind th.vlen) k ∨
  (∃ off, StringRef f e th pos off ∧ StringFlaw f fh off k) ∨
  ((th.kind = .Struct ∨ th.kind = .Union) ∧ th.kindFlag = false ∧ k = .unaligned ∧
    ∃ i raw, i < th.vlen ∧ Word f e (pos + i * 12 + 8) raw ∧ ¬ 8 ∣ raw.toNat)

theorem bodyFlaw_name {th : Header} {k : LoadReason} (hn : named th.kind = true)
    (h : th.nameOffset ≠ 0 ∧ StringFlaw f fh th.nameOffset k) : BodyFlaw f e fh th pos k :=
  .inr (.inl ⟨_, .name hn rfl h.1, h.2⟩)

theorem correct_int_body {th : Header} (hk : th.kind = .Int) (hf : Fits cfg fh) (hfit : pos + 4 < cfg.usizeMod) :
    Correct cfg f e pos (IntData.new cfg fh th)
      (fun d n => IntBody f e fh th pos d ∧ n = pos + bodySize th.kind th.vlen) (BodyFlaw f e fh th pos) := by
  unfold IntData.new
  refine (correct_word hfit fun w _ => correct_name hf fun s _ => correct_pure _).congr ?_ ?_
  · intro d n
    rw [hk]
    unfold IntBody bodySize
    constructor
    · rintro ⟨w, hw, s, hs, rfl, rfl⟩
      exact ⟨⟨w, hw, hs, rfl, int_signed w, int_char w, int_boolean w, int_offset w, int_bits w⟩, rfl⟩
    · rintro ⟨⟨w, hw, hs, h1, h2, h3, h4, h5, h6⟩, rfl⟩
      refine ⟨w, hw, d.name, hs, ?_, rfl⟩
      cases d
      simp only [] at h1 h2 h3 h4 h5 h6
      congr 1
      · rw [Bool.eq_iff_iff, h2, int_signed]
      · rw [Bool.eq_iff_iff, h3, int_char]
      · rw [Bool.eq_iff_iff, h4, int_boolean]
      · rw [h5, int_offset]
      · rw [h6, int_bits]
  · rintro k (h | ⟨w, hw, h | ⟨_, _, h⟩⟩)
    · exact .inl (by rw [hk]; exact h)
    · exact bodyFlaw_name (by rw [hk]; rfl) h
    · exact h.elim

theorem correct_tid_body {th : Header} (hk : bodySize th.kind th.vlen = 0) :
    Correct cfg f e pos (TidData.new th)
      (fun d n => d.tid = th.sizeOrType ∧ n = pos + bodySize th.kind th.vlen) (BodyFlaw f e fh th pos) := by
  refine (correct_pure _).congr ?_ (fun _ h => h.elim)
  intro d n
  rw [hk]
  cases d
  simp

theorem correct_namedTid_body {th : Header} (hk : bodySize th.kind th.vlen = 0) (hn : named th.kind = true)
    (hf : Fits cfg fh) :
    Correct cfg f e pos (NamedTidData.new cfg fh th)
      (fun d n => NamedTidBody f fh th d ∧ n = pos + bodySize th.kind th.vlen) (BodyFlaw f e fh th pos) := by
  unfold NamedTidData.new
  refine (correct_name hf fun s _ => correct_pure _).congr ?_ ?_
  · intro d n
    rw [hk]
    unfold NamedTidBody
    constructor
    · rintro ⟨s, hs, rfl, rfl⟩; exact ⟨⟨hs, rfl⟩, rfl⟩
    · rintro ⟨⟨hs, h1⟩, rfl⟩
      refine ⟨d.name, hs, ?_, rfl⟩
      cases d; simp only [] at h1; rw [h1]
  · rintro k (h | ⟨_, _, h⟩)
    · exact bodyFlaw_name hn h
    · exact h.elim

theorem correct_func_body {th : Header} (hk : th.kind = .Func) (hf : Fits cfg fh) :
    Correct cfg f e pos (FuncData.new cfg fh th)
      (fun d n => (NameAt f fh th.nameOffset d.name ∧ d.prototypeTid = th.sizeOrType) ∧
        n = pos + bodySize th.kind th.vlen) (BodyFlaw f e fh th pos) := by
  unfold FuncData.new
  refine (correct_name hf fun s _ => correct_pure _).congr ?_ ?_
  · intro d n
    rw [hk]
    constructor
    · rintro ⟨s, hs, rfl, rfl⟩; exact ⟨⟨hs, rfl⟩, rfl⟩
    · rintro ⟨⟨hs, h1⟩, rfl⟩
      refine ⟨d.name, hs, ?_, rfl⟩
      cases d; simp only [] at h1; rw [h1]
  · rintro k (h | ⟨_, _, h⟩)
    · exact bodyFlaw_name (by rw [hk]; rfl) h
    · exact h.elim

theorem correct_float_body {th : Header} (hk : th.kind = .Float) (hf : Fits cfg fh) :
    Correct cfg f e pos (FloatData.new cfg fh th)
      (fun d n => (NameAt f fh th.nameOffset d.name ∧ d.size = th.sizeOrType.toNat) ∧
        n = pos + bodySize th.kind th.vlen) (BodyFlaw f e fh th pos) := by
  unfold FloatData.new
  refine (correct_name hf fun s _ => correct_pure _).congr ?_ ?_
  · intro d n
    rw [hk]
    constructor
    · rintro ⟨s, hs, rfl, rfl⟩; exact ⟨⟨hs, rfl⟩, rfl⟩
    · rintro ⟨⟨hs, h1⟩, rfl⟩
      refine ⟨d.name, hs, ?_, rfl⟩
      cases d; simp only [] at h1; rw [h1]
  · rintro k (h | ⟨_, _, h⟩)
    · exact bodyFlaw_name (by rw [hk]; rfl) h
    · exact h.elim

theorem correct_array_body {th : Header} (hk : th.kind = .Array) (hfit : pos + 12 < cfg.usizeMod) :
    Correct cfg f e pos (ArrayData.new cfg)
      (fun d n => ArrayBody f e pos d ∧ n = pos + bodySize th.kind th.vlen) (BodyFlaw f e fh th pos) := by
  unfold ArrayData.new
  refine (correct_word (by omega) fun w _ => correct_word (by omega) fun w' _ => correct_word (by omega) fun w'' _ =>
    correct_pure _).congr ?_ ?_
  · intro d n
    rw [hk]
    unfold ArrayBody bodySize
    constructor
    · rintro ⟨w, hw, w', hw', w'', hw'', rfl, rfl⟩; exact ⟨⟨hw, hw', hw''⟩, rfl⟩
    · rintro ⟨⟨h1, h2, h3⟩, rfl⟩; exact ⟨_, h1, _, h2, _, h3, rfl, rfl⟩
  · have hb : bodySize th.kind th.vlen = 12 := by rw [hk]; rfl
    rintro k (h | ⟨_, _, h | ⟨_, _, h | ⟨_, _, h⟩⟩⟩)
    · exact .inl (h.mono (by omega))
    · exact .inl (h.mono (by omega))
    · exact .inl (h.mono (by omega))
    · exact h.elim

theorem correct_variable (hfit : pos + 12 < cfg.usizeMod) :
    Correct cfg f e pos (Variable.parse cfg) (fun x n => VariableAt f e pos x ∧ n = pos + 12)
      (Cut f (pos + 12)) := by
  unfold Variable.parse
  refine (correct_word (by omega) fun w _ => correct_word (by omega) fun w' _ => correct_word (by omega) fun w'' _ =>
    correct_pure _).congr ?_ ?_
  · intro d n
    unfold VariableAt
    constructor
    · rintro ⟨w, hw, w', hw', w'', hw'', rfl, rfl⟩; exact ⟨⟨hw, hw', hw''⟩, rfl⟩
    · rintro ⟨⟨h1, h2, h3⟩, rfl⟩; exact ⟨_, h1, _, h2, _, h3, rfl, rfl⟩
  · rintro k (h | ⟨_, _, h | ⟨_, _, h | ⟨_, _, h⟩⟩⟩)
    · exact h.mono (by omega)
    · exact h.mono (by omega)
    · omega
    · exact h.elim

theorem mul_le_items {i n size : Nat} (hi : i < n) : i * size + size ≤ n * size := by
  have : (i + 1) * size ≤ n * size := Nat.mul_le_mul_right size hi
  rw [Nat.add_mul, Nat.one_mul] at this
  exact this

theorem correct_dataSec_body {th : Header} (hk : th.kind = .DataSec) (hf : Fits cfg fh)
    (hfit : pos + 12 * th.vlen < cfg.usizeMod) :
    Correct cfg f e pos (DataSecData.new cfg fh th)
      (fun d n => DataSecBody f e fh th pos d ∧ n = pos + bodySize th.kind th.vlen) (BodyFlaw f e fh th pos) := by
  unfold DataSecData.new
  have hb : bodySize th.kind th.vlen = 12 * th.vlen := by rw [hk]; rfl
  refine (correct_items (size := 12) (E := fun p => Cut f (p + 12))
    (fun i hi => correct_variable (by have := mul_le_items (size := 12) hi; omega))
    (fun xs _ _ => correct_name hf fun s _ => correct_pure _)).congr ?_ ?_
  · intro d n
    unfold DataSecBody
    constructor
    · rintro ⟨xs, ⟨hl, hi⟩, s, hs, rfl, rfl⟩; exact ⟨⟨hs, rfl, hl, hi⟩, by omega⟩
    · rintro ⟨⟨hs, h1, h2, h3⟩, rfl⟩
      refine ⟨_, ⟨h2, h3⟩, d.name, hs, ?_, by omega⟩
      cases d; simp only [] at h1; rw [h1]
  · rintro k (⟨i, hi, h⟩ | ⟨_, h | ⟨_, _, h⟩⟩)
    · have := mul_le_items (size := 12) hi
      exact .inl (h.mono (by omega))
    · exact bodyFlaw_name (by rw [hk]; rfl) h
    · exact h.elim

theorem correct_parameter (hf : Fits cfg fh) (hfit : pos + 8 < cfg.usizeMod) :
    Correct cfg f e pos (Parameter.parse cfg fh) (fun x n => ParameterAt f e fh pos x ∧ n = pos + 8)
      (fun k => Cut f (pos + 8) k ∨ ∃ off, Word f e pos off ∧ off ≠ 0 ∧ StringFlaw f fh off k) := by
  unfold Parameter.parse
  refine (correct_word (by omega) fun w _ => correct_word (by omega) fun w' _ => correct_name hf fun s _ =>
    correct_pure _).congr ?_ ?_
  · intro d n
    unfold ParameterAt
    constructor
    · rintro ⟨w, hw, w', hw', s, hs, rfl, rfl⟩; exact ⟨⟨hw, hs, hw'⟩, rfl⟩
    · rintro ⟨⟨h1, h2, h3⟩, rfl⟩; exact ⟨_, h1, _, h3, _, h2, rfl, rfl⟩
  · rintro k (h | ⟨w, hw, h | ⟨_, _, h | ⟨_, _, h⟩⟩⟩)
    · exact .inl (h.mono (by omega))
    · left; omega
    · exact .inr ⟨w, hw, h⟩
    · exact h.elim

theorem correct_funcProto_body {th : Header} (hk : th.kind = .FuncProto) (hf : Fits cfg fh)
    (hfit : pos + 8 * th.vlen < cfg.usizeMod) :
    Correct cfg f e pos (FuncProtoData.new cfg fh th)
      (fun d n => FuncProtoBody f e fh th pos d ∧ n = pos + bodySize th.kind th.vlen) (BodyFlaw f e fh th pos) := by
  unfold FuncProtoData.new
  have hb : bodySize th.kind th.vlen = 8 * th.vlen := by rw [hk]; rfl
  refine (correct_items (size := 8)
    (E := fun p k => Cut f (p + 8) k ∨ ∃ off, Word f e p off ∧ off ≠ 0 ∧ StringFlaw f fh off k)
    (fun i hi => correct_parameter hf (by have := mul_le_items (size := 8) hi; omega))
    (fun xs _ _ => correct_pure _)).congr ?_ ?_
  · intro d n
    unfold FuncProtoBody
    constructor
    · rintro ⟨xs, ⟨hl, hi⟩, rfl, rfl⟩; exact ⟨⟨rfl, hl, hi⟩, by omega⟩
    · rintro ⟨⟨h1, h2, h3⟩, rfl⟩
      refine ⟨_, ⟨h2, h3⟩, ?_, by omega⟩
      cases d; simp only [] at h1; rw [h1]
  · rintro k (⟨i, hi, h | ⟨off, h1, h2, h3⟩⟩ | ⟨_, h⟩)
    · have := mul_le_items (size := 8) hi
      exact .inl (h.mono (by omega))
    · refine .inr (.inl ⟨off, .item i (.inr (.inr hk)) hi ?_ h2, h3⟩)
      rw [hk]; exact h1
    · exact h.elim

theorem correct_var_body {th : Header} (hk : th.kind = .Var) (hf : Fits cfg fh) (hfit : pos + 4 < cfg.usizeMod) :
    Correct cfg f e pos (VarData.new cfg fh th)
      (fun d n => VarBody f e fh th pos d ∧ n = pos + bodySize th.kind th.vlen) (BodyFlaw f e fh th pos) := by
  unfold VarData.new
  refine (correct_word hfit fun w _ => correct_name hf fun s _ => correct_pure _).congr ?_ ?_
  · intro d n
    rw [hk]
    unfold VarBody bodySize
    constructor
    · rintro ⟨w, hw, s, hs, rfl, rfl⟩
      refine ⟨⟨hs, rfl, hw, ?_⟩, rfl⟩
      by_cases h : w = 0 <;> simp [h]
    · rintro ⟨⟨hs, h1, h2, h3⟩, rfl⟩
      refine ⟨_, h2, d.name, hs, ?_, rfl⟩
      cases d with
      | mk name tid linkage linkageType =>
        simp only [] at h1 h3
        congr 1
        by_cases h : linkage = 0
        · rw [if_pos h]; exact h3.2 h
        · rw [if_neg h]
          cases linkageType with
          | static => exact absurd (h3.1 rfl) h
          | «global» => rfl
  · rintro k (h | ⟨w, hw, h | ⟨_, _, h⟩⟩)
    · exact .inl (by rw [hk]; exact h)
    · exact bodyFlaw_name (by rw [hk]; rfl) h
    · exact h.elim

theorem correct_declTag_body {th : Header} (hk : th.kind = .DeclTag) (hf : Fits cfg fh) (hfit : pos + 4 < cfg.usizeMod) :
    Correct cfg f e pos (DeclTagData.new cfg fh th)
      (fun d n => DeclTagBody f e fh th pos d ∧ n = pos + bodySize th.kind th.vlen) (BodyFlaw f e fh th pos) := by
  unfold DeclTagData.new
  refine (correct_word hfit fun w _ => correct_name hf fun s _ => correct_pure _).congr ?_ ?_
  · intro d n
    rw [hk]
    unfold DeclTagBody bodySize
    constructor
    · rintro ⟨w, hw, s, hs, rfl, rfl⟩
      exact ⟨⟨hs, rfl, hw⟩, rfl⟩
    · rintro ⟨⟨hs, h1, h2⟩, rfl⟩
      refine ⟨_, h2, d.name, hs, ?_, rfl⟩
      cases d; simp only [] at h1; rw [h1]
  · rintro k (h | ⟨w, hw, h | ⟨_, _, h⟩⟩)
    · exact .inl (by rw [hk]; exact h)
    · exact bodyFlaw_name (by rw [hk]; rfl) h
    · exact h.elim

theorem correct_member {kf : Bool} (hf : Fits cfg fh) (hfit : pos + 12 < cfg.usizeMod) :
    Correct cfg f e pos (Member.parse cfg fh kf) (fun x n => MemberAt f e fh kf pos x ∧ n = pos + 12)
      (fun k => Cut f (pos + 12) k ∨ (∃ off, Word f e pos off ∧ off ≠ 0 ∧ StringFlaw f fh off k) ∨
        (kf = false ∧ k = .unaligned ∧ ∃ raw, Word f e (pos + 8) raw ∧ ¬ 8 ∣ raw.toNat)) := by
  unfold Member.parse
  refine (correct_word (by omega) fun w _ => correct_word (by omega) fun w' _ => correct_word (by omega) fun w'' _ =>
    correct_name hf fun s _ => correct_bind
      (correct_lift (fun _ => memberOffset_ok) (memberOffset_returns kf w'')) fun o mid _ => correct_pure _).congr ?_ ?_
  · intro d n
    unfold MemberAt
    constructor
    · rintro ⟨w, hw, w', hw', w'', hw'', s, hs, o, mid, ⟨ho, rfl⟩, rfl, rfl⟩
      exact ⟨⟨hw, hs, hw', w'', hw'', ho⟩, rfl⟩
    · rintro ⟨⟨h1, h2, h3, w, h4, h5⟩, rfl⟩
      exact ⟨_, h1, _, h3, w, h4, _, h2, _, _, ⟨h5, rfl⟩, rfl, rfl⟩
  · rintro k (h | ⟨w, hw, h | ⟨_, _, h | ⟨raw, hraw, h | ⟨_, _, h | ⟨_, _, _, h⟩⟩⟩⟩⟩)
    · exact .inl (h.mono (by omega))
    · exact .inl (h.mono (by omega))
    · left; omega
    · exact .inr (.inl ⟨w, hw, h⟩)
    · obtain ⟨h1, h2, h3⟩ := memberOffset_err.1 h
      exact .inr (.inr ⟨h1, h3, raw, hraw, h2⟩)
    · exact h.elim

theorem correct_struct_body {th : Header} (hk : th.kind = .Struct ∨ th.kind = .Union) (hf : Fits cfg fh)
    (hfit : pos + 12 * th.vlen < cfg.usizeMod) :
    Correct cfg f e pos (StructData.new cfg fh th)
      (fun d n => StructBody f e fh th pos d ∧ n = pos + bodySize th.kind th.vlen) (BodyFlaw f e fh th pos) := by
  unfold StructData.new
  have hb : bodySize th.kind th.vlen = 12 * th.vlen := by rcases hk with hk | hk <;> rw [hk] <;> rfl
  have hs : itemSize th.kind = 12 := by rcases hk with hk | hk <;> rw [hk] <;> rfl
  refine (correct_items (size := 12)
    (E := fun p k => Cut f (p + 12) k ∨ (∃ off, Word f e p off ∧ off ≠ 0 ∧ StringFlaw f fh off k) ∨
        (th.kindFlag = false ∧ k = .unaligned ∧ ∃ raw, Word f e (p + 8) raw ∧ ¬ 8 ∣ raw.toNat))
    (fun i hi => correct_member hf (by have := mul_le_items (size := 12) hi; omega))
    (fun xs _ _ => correct_name hf fun s _ => correct_pure _)).congr ?_ ?_
  · intro d n
    unfold StructBody
    constructor
    · rintro ⟨xs, ⟨hl, hi⟩, s, hs, rfl, rfl⟩; exact ⟨⟨hs, rfl, hl, hi⟩, by omega⟩
    · rintro ⟨⟨hs, h1, h2, h3⟩, rfl⟩
      refine ⟨_, ⟨h2, h3⟩, d.name, hs, ?_, by omega⟩
      cases d; simp only [] at h1; rw [h1]
  · rintro k (⟨i, hi, h | ⟨off, h1, h2, h3⟩ | ⟨h1, h2, raw, h3, h4⟩⟩ | ⟨_, h | ⟨_, _, h⟩⟩)
    · have := mul_le_items (size := 12) hi
      exact .inl (h.mono (by omega))
    · refine .inr (.inl ⟨off, .item i ?_ hi (by rw [hs]; exact h1) h2, h3⟩)
      rcases hk with hk | hk
      · exact .inl hk
      · exact .inr (.inl hk)
    · exact .inr (.inr ⟨hk, h1, h2, i, raw, hi, h3, h4⟩)
    · exact bodyFlaw_name (by rcases hk with hk | hk <;> rw [hk] <;> rfl) h
    · exact h.elim

theorem correct_i32 (hfit : pos + 4 < cfg.usizeMod) :
    Correct cfg f e pos (i32 cfg) (fun x n => (∃ v, IntAt f e 4 pos v ∧ x.toInt = twosComplement 32 v) ∧ n = pos + 4)
      (Cut f (pos + 4)) := by
  unfold i32
  refine (correct_word hfit fun w _ => correct_pure _).congr ?_ ?_
  · intro x n
    constructor
    · rintro ⟨w, hw, rfl, rfl⟩; exact ⟨⟨_, hw, toInt32_toInt w⟩, rfl⟩
    · rintro ⟨⟨v, hv, hx⟩, rfl⟩
      have hlt := intAt_lt hv
      refine ⟨UInt32.ofNat v, ?_, ?_, rfl⟩
      · unfold Word; rw [ofNat_toNat_lt (by omega)]; exact hv
      · apply Int32.toInt_inj.1
        rw [hx, toInt32_toInt, ofNat_toNat_lt (by omega)]
  · rintro k (h | ⟨_, _, h⟩)
    · exact h
    · exact h.elim

theorem correct_i64 (hfit : pos + 8 < cfg.usizeMod) :
    Correct cfg f e pos (i64 cfg) (fun x n => (∃ v, IntAt f e 8 pos v ∧ x.toInt = twosComplement 64 v) ∧ n = pos + 8)
      (Cut f (pos + 8)) := by
  unfold i64
  refine (correct_bind (correct_u64 hfit) fun w _ _ => correct_pure _).congr ?_ ?_
  · intro x n
    constructor
    · rintro ⟨w, mid, ⟨hw, rfl⟩, rfl, rfl⟩; exact ⟨⟨_, hw, toInt64_toInt w⟩, rfl⟩
    · rintro ⟨⟨v, hv, hx⟩, rfl⟩
      have hlt := intAt_lt hv
      have hto : (UInt64.ofNat v).toNat = v := by simp [UInt64.toNat_ofNat']; omega
      refine ⟨UInt64.ofNat v, _, ⟨?_, rfl⟩, ?_, rfl⟩
      · rw [hto]; exact hv
      · apply Int64.toInt_inj.1
        rw [hx, toInt64_toInt, hto]
  · rintro k (h | ⟨_, _, _, h⟩)
    · exact h
    · exact h.elim

theorem correct_enumerator {signed : Bool} (hf : Fits cfg fh) (hfit : pos + 8 < cfg.usizeMod) :
    Correct cfg f e pos (NamedValue32.parse cfg fh signed) (fun x n => EnumeratorAt f e fh signed pos x ∧ n = pos + 8)
      (fun k => Cut f (pos + 8) k ∨ ∃ off, Word f e pos off ∧ StringFlaw f fh off k) := by
  unfold NamedValue32.parse EnumeratorAt
  cases signed with
  | true =>
    refine (correct_word (by omega) fun w _ => correct_string hf fun s _ =>
      correct_bind (correct_i32 (by omega)) fun v _ _ => correct_pure _).congr ?_ ?_
    · intro d n
      constructor
      · rintro ⟨w, hw, s, hs, x, mid, ⟨⟨v, hv, hx⟩, rfl⟩, rfl, rfl⟩
        exact ⟨⟨w, v, hw, hs, hv, rfl, hx⟩, rfl⟩
      · rintro ⟨⟨w, v, hw, hs, hv, hx⟩, rfl⟩
        obtain ⟨name, value⟩ := d
        cases value with
        | signed x => exact ⟨w, hw, name, hs, x, _, ⟨⟨v, hv, hx.2⟩, rfl⟩, rfl, rfl⟩
        | unsigned x => exact absurd hx.1 (by decide)
    · rintro k (h | ⟨w, hw, h | ⟨_, _, h | ⟨_, _, _, h⟩⟩⟩)
      · exact .inl (h.mono (by omega))
      · exact .inr ⟨w, hw, h⟩
      · left; omega
      · exact h.elim
  | false =>
    refine (correct_word (by omega) fun w _ => correct_string hf fun s _ =>
      correct_word (by omega) fun v _ => correct_pure _).congr ?_ ?_
    · intro d n
      constructor
      · rintro ⟨w, hw, s, hs, x, hv, rfl, rfl⟩
        exact ⟨⟨w, _, hw, hs, hv, rfl, rfl⟩, rfl⟩
      · rintro ⟨⟨w, v, hw, hs, hv, hx⟩, rfl⟩
        obtain ⟨name, value⟩ := d
        cases value with
        | signed x => exact absurd hx.1 (by decide)
        | unsigned x => exact ⟨w, hw, name, hs, x, by unfold Word; rw [hx.2]; exact hv, rfl, rfl⟩
    · rintro k (h | ⟨w, hw, h | ⟨_, _, h | ⟨_, _, h⟩⟩⟩)
      · exact .inl (h.mono (by omega))
      · exact .inr ⟨w, hw, h⟩
      · left; omega
      · exact h.elim

theorem correct_enumerator64 {signed : Bool} (hf : Fits cfg fh) (hfit : pos + 12 < cfg.usizeMod) :
    Correct cfg f e pos (NamedValue64.parse cfg fh signed)
      (fun x n => Enumerator64At .crate f e fh signed pos x ∧ n = pos + 12)
      (fun k => Cut f (pos + 12) k ∨ ∃ off, Word f e pos off ∧ StringFlaw f fh off k) := by
  unfold NamedValue64.parse Enumerator64At WideAt
  cases signed with
  | true =>
    refine (correct_word (by omega) fun w _ => correct_string hf fun s _ =>
      correct_bind (correct_i64 (by omega)) fun v _ _ => correct_pure _).congr ?_ ?_
    · intro d n
      constructor
      · rintro ⟨w, hw, s, hs, x, mid, ⟨⟨v, hv, hx⟩, rfl⟩, rfl, rfl⟩
        exact ⟨⟨w, v, hw, hs, hv, rfl, hx⟩, rfl⟩
      · rintro ⟨⟨w, v, hw, hs, hv, hx⟩, rfl⟩
        obtain ⟨name, value⟩ := d
        cases value with
        | signed x => exact ⟨w, hw, name, hs, x, _, ⟨⟨v, hv, hx.2⟩, rfl⟩, rfl, rfl⟩
        | unsigned x => exact absurd hx.1 (by decide)
    · rintro k (h | ⟨w, hw, h | ⟨_, _, h | ⟨_, _, _, h⟩⟩⟩)
      · exact .inl (h.mono (by omega))
      · exact .inr ⟨w, hw, h⟩
      · left; omega
      · exact h.elim
  | false =>
    refine (correct_word (by omega) fun w _ => correct_string hf fun s _ =>
      correct_bind (correct_u64 (by omega)) fun v _ _ => correct_pure _).congr ?_ ?_
    · intro d n
      constructor
      · rintro ⟨w, hw, s, hs, x, mid, ⟨hv, rfl⟩, rfl, rfl⟩
        exact ⟨⟨w, _, hw, hs, hv, rfl, rfl⟩, rfl⟩
      · rintro ⟨⟨w, v, hw, hs, hv, hx⟩, rfl⟩
        obtain ⟨name, value⟩ := d
        cases value with
        | signed x => exact absurd hx.1 (by decide)
        | unsigned x => exact ⟨w, hw, name, hs, x, _, ⟨by rw [hx.2]; exact hv, rfl⟩, rfl, rfl⟩
    · rintro k (h | ⟨w, hw, h | ⟨_, _, h | ⟨_, _, _, h⟩⟩⟩)
      · exact .inl (h.mono (by omega))
      · exact .inr ⟨w, hw, h⟩
      · left; omega
      · exact h.elim

theorem correct_enum_body {th : Header} (hk : th.kind = .Enum) (hf : Fits cfg fh)
    (hfit : pos + 8 * th.vlen < cfg.usizeMod) :
    Correct cfg f e pos (EnumData.new cfg fh th)
      (fun d n => EnumBody f e fh th pos d ∧ n = pos + bodySize th.kind th.vlen) (BodyFlaw f e fh th pos) := by
  unfold EnumData.new
  have hb : bodySize th.kind th.vlen = 8 * th.vlen := by rw [hk]; rfl
  refine (correct_items (size := 8)
    (E := fun p k => Cut f (p + 8) k ∨ ∃ off, Word f e p off ∧ StringFlaw f fh off k)
    (fun i hi => correct_enumerator hf (by have := mul_le_items (size := 8) hi; omega))
    (fun xs _ _ => correct_name hf fun s _ => correct_pure _)).congr ?_ ?_
  · intro d n
    unfold EnumBody
    constructor
    · rintro ⟨xs, ⟨hl, hi⟩, s, hs, rfl, rfl⟩; exact ⟨⟨hs, rfl, rfl, hl, hi⟩, by omega⟩
    · rintro ⟨⟨hs, h1, h2, h3, h4⟩, rfl⟩
      refine ⟨_, ⟨h3, h4⟩, d.name, hs, ?_, by omega⟩
      cases d; simp only [] at h1 h2; rw [h1, h2]
  · rintro k (⟨i, hi, h | ⟨off, h1, h3⟩⟩ | ⟨_, h | ⟨_, _, h⟩⟩)
    · have := mul_le_items (size := 8) hi
      exact .inl (h.mono (by omega))
    · exact .inr (.inl ⟨off, .enumerator i (.inl hk) hi (by rw [hk]; exact h1), h3⟩)
    · exact bodyFlaw_name (by rw [hk]; rfl) h
    · exact h.elim

theorem correct_enum64_body {th : Header} (hk : th.kind = .Enum64) (hf : Fits cfg fh)
    (hfit : pos + 12 * th.vlen < cfg.usizeMod) :
    Correct cfg f e pos (Enum64Data.new cfg fh th)
      (fun d n => Enum64Body .crate f e fh th pos d ∧ n = pos + bodySize th.kind th.vlen) (BodyFlaw f e fh th pos) := by
  unfold Enum64Data.new
  have hb : bodySize th.kind th.vlen = 12 * th.vlen := by rw [hk]; rfl
  refine (correct_items (size := 12)
    (E := fun p k => Cut f (p + 12) k ∨ ∃ off, Word f e p off ∧ StringFlaw f fh off k)
    (fun i hi => correct_enumerator64 hf (by have := mul_le_items (size := 12) hi; omega))
    (fun xs _ _ => correct_name hf fun s _ => correct_pure _)).congr ?_ ?_
  · intro d n
    unfold Enum64Body
    constructor
    · rintro ⟨xs, ⟨hl, hi⟩, s, hs, rfl, rfl⟩; exact ⟨⟨hs, rfl, rfl, hl, hi⟩, by omega⟩
    · rintro ⟨⟨hs, h1, h2, h3, h4⟩, rfl⟩
      refine ⟨_, ⟨h3, h4⟩, d.name, hs, ?_, by omega⟩
      cases d; simp only [] at h1 h2; rw [h1, h2]
  · rintro k (⟨i, hi, h | ⟨off, h1, h3⟩⟩ | ⟨_, h | ⟨_, _, h⟩⟩)
    · have := mul_le_items (size := 12) hi
      exact .inl (h.mono (by omega))
    · exact .inr (.inl ⟨off, .enumerator i (.inr hk) hi (by rw [hk]; exact h1), h3⟩)
    · exact bodyFlaw_name (by rw [hk]; rfl) h
    · exact h.elim

end

end Btf

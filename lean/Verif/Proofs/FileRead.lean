import Verif.Model.TypeInfo
import Verif.Spec.Format
import Verif.Proofs.U32
import Mathlib.Tactic.Ring

/-!
# Parsers on files: correctness triples
-/

namespace Btf

open Spec Reader

/-- The reader is at `pos` of the file `f`, with byte order `e`. -/
structure At (cfg : Cfg) (f : List UInt8) (e : Endianness) (pos : Nat) (r : Reader) : Prop where
  serves : Serves cfg r.readable f
  endianness : r.endianness = e
  offset : r.offset = pos

/-- `p`, run at `pos`, returns exactly the (at most one) value in the relation `R`, which also gives the
new position; if there is none, it fails, with an error in `E`. -/
structure Correct {α : Type} (cfg : Cfg) (f : List UInt8) (e : Endianness) (pos : Nat) (p : P α) (R : α → Nat → Prop)
    (E : LoadReason → Prop) : Prop where
  run : ∀ r, At cfg f e pos r →
    (∃ a r' next, p r = (.ok a, r') ∧ R a next ∧ At cfg f e next r') ∨
    (∃ k r', p r = (.err k, r') ∧ (∀ a next, ¬ R a next) ∧ E k)
  unique : ∀ a n a' n', R a n → R a' n' → a = a' ∧ n = n'

/-- An error of the source, and the file ends before `n`. -/
def Cut (f : List UInt8) (n : Nat) (q : LoadReason) : Prop := (∃ err, q = .source err) ∧ f.length < n

theorem Cut.mono {f : List UInt8} {n m : Nat} {q : LoadReason} (h : Cut f n q) (hnm : n ≤ m) : Cut f m q :=
  ⟨h.1, Nat.lt_of_lt_of_le h.2 hnm⟩

section
variable {α β : Type} {cfg : Cfg} {f : List UInt8} {e : Endianness} {pos : Nat}

theorem Correct.congr {p : P α} {R S : α → Nat → Prop} {E E' : LoadReason → Prop} (h : Correct cfg f e pos p R E)
    (hRS : ∀ a n, R a n ↔ S a n) (hE : ∀ k, E k → E' k) : Correct cfg f e pos p S E' := by
  have : R = S := by funext a n; exact propext (hRS a n)
  rw [← this]
  refine ⟨fun r hr => ?_, h.unique⟩
  rcases h.run r hr with h | ⟨k, r', h1, h2, h3⟩
  · exact .inl h
  · exact .inr ⟨k, r', h1, h2, hE k h3⟩

theorem correct_pure (a : α) :
    Correct cfg f e pos (Pure.pure a : P α) (fun b n => b = a ∧ n = pos) (fun _ => False) :=
  ⟨fun r hr => .inl ⟨a, r, pos, rfl, ⟨rfl, rfl⟩, hr⟩,
   fun _ _ _ _ h h' => ⟨h.1.trans h'.1.symm, h.2.trans h'.2.symm⟩⟩

theorem correct_fail (k : LoadReason) {R : α → Nat → Prop} (h : ∀ a n, ¬ R a n) :
    Correct cfg f e pos (P.fail k : P α) R (fun k' => k' = k) :=
  ⟨fun r _ => .inr ⟨k, r, rfl, h, rfl⟩, fun a n _ _ h' => absurd h' (h a n)⟩

theorem correct_bind {p : P α} {q : α → P β} {R : α → Nat → Prop} {S : α → Nat → β → Nat → Prop}
    {E : LoadReason → Prop} {E' : α → Nat → LoadReason → Prop}
    (hp : Correct cfg f e pos p R E) (hq : ∀ a mid, R a mid → Correct cfg f e mid (q a) (S a mid) (E' a mid)) :
    Correct cfg f e pos (p >>= q) (fun b n => ∃ a mid, R a mid ∧ S a mid b n)
      (fun k => E k ∨ ∃ a mid, R a mid ∧ E' a mid k) := by
  constructor
  · intro r hr
    change (∃ b r' n, P.bind p q r = _ ∧ _) ∨ ∃ k r', P.bind p q r = _ ∧ _
    unfold P.bind
    rcases hp.run r hr with ⟨a, r', mid, he, hR, hat⟩ | ⟨k, r', he, hno, hE⟩
    · rw [he]
      simp only []
      rcases (hq a mid hR).run r' hat with ⟨b, r'', n, he', hS, hat'⟩ | ⟨k, r'', he', hno, hE⟩
      · exact .inl ⟨b, r'', n, he', ⟨a, mid, hR, hS⟩, hat'⟩
      · refine .inr ⟨k, r'', he', ?_, .inr ⟨a, mid, hR, hE⟩⟩
        rintro b n ⟨a', mid', hR', hS⟩
        obtain ⟨rfl, rfl⟩ := hp.unique _ _ _ _ hR hR'
        exact hno b n hS
    · rw [he]
      exact .inr ⟨k, r', rfl, fun b n ⟨a, mid, hR, _⟩ => hno a mid hR, .inl hE⟩
  · rintro b n b' n' ⟨a, mid, hR, hS⟩ ⟨a', mid', hR', hS'⟩
    obtain ⟨rfl, rfl⟩ := hp.unique _ _ _ _ hR hR'
    exact (hq a mid hR).unique _ _ _ _ hS hS'

/-- A computation that does not use the reader. -/
theorem correct_lift {o : Res LoadReason α} {R : α → Prop} (hok : ∀ a, o = .ok a ↔ R a)
    (hret : (∃ a, o = .ok a) ∨ ∃ k, o = .err k) :
    Correct cfg f e pos (P.lift o) (fun a n => R a ∧ n = pos) (fun k => o = .err k) := by
  constructor
  · intro r hr
    rcases hret with ⟨a, rfl⟩ | ⟨k, rfl⟩
    · exact .inl ⟨a, r, pos, rfl, ⟨(hok a).1 rfl, rfl⟩, hr⟩
    · refine .inr ⟨k, r, rfl, fun a n h => ?_, rfl⟩
      have := (hok a).2 h.1
      cases this
  · rintro a n a' n' ⟨h, rfl⟩ ⟨h', rfl⟩
    have h := (hok a).2 h
    have h' := (hok a').2 h'
    rw [h] at h'
    cases h'
    exact ⟨rfl, rfl⟩

theorem correct_lift_ok {o : Res LoadReason α} {a : α} (h : o = .ok a) :
    Correct cfg f e pos (P.lift o) (fun b n => b = a ∧ n = pos) (fun _ => False) :=
  (correct_lift (R := fun b => b = a) (fun b => by rw [h]; constructor <;> intro h <;> cases h <;> rfl)
    (.inl ⟨a, h⟩)).congr (fun _ _ => Iff.rfl) (fun k hk => by rw [h] at hk; cases hk)

theorem correct_getOffset : Correct cfg f e pos getOffset (fun b n => b = pos ∧ n = pos) (fun _ => False) :=
  ⟨fun r hr => .inl ⟨r.offset, r, pos, rfl, ⟨hr.offset, rfl⟩, hr⟩,
   fun _ _ _ _ h h' => ⟨h.1.trans h'.1.symm, h.2.trans h'.2.symm⟩⟩

theorem correct_setOffset (o : Nat) : Correct cfg f e pos (setOffset o) (fun _ n => n = o) (fun _ => False) :=
  ⟨fun r hr => .inl ⟨(), { r with offset := o }, o, rfl, rfl, ⟨hr.serves, hr.endianness, rfl⟩⟩,
   fun _ _ _ _ h h' => ⟨rfl, h.trans h'.symm⟩⟩

/-! ### Reading integers -/

theorem wrapOr_lt {ε : Type} {m v : Nat} (h : v < m) : cfg.wrapOr (ε := ε) m v = .ok v := by
  unfold Cfg.wrapOr; rw [if_pos h]

theorem usizeAdd_lt {ε : Type} {a b : Nat} (h : a + b < cfg.usizeMod) : cfg.usizeAdd (ε := ε) a b = .ok (a + b) := wrapOr_lt h

theorem usizeMul_lt {ε : Type} {a b : Nat} (h : a * b < cfg.usizeMod) : cfg.usizeMul (ε := ε) a b = .ok (a * b) := wrapOr_lt h

/-- The raw read: the buffer holds the bytes of the file. -/
theorem read_file {n : Nat} (hn : 0 < n) (hfit : pos + n < cfg.usizeMod) {r : Reader} (hr : At cfg f e pos r) :
    (pos + n ≤ f.length ∧ ∃ b r', read cfg n r = (.ok b, r') ∧ At cfg f e (pos + n) r' ∧
      ∀ i < n, some (b i) = f[pos + i]?) ∨
    (¬ pos + n ≤ f.length ∧ ∃ k r', read cfg n r = (.err (.source k), r')) := by
  have hs := hr.serves r.trace r.offset n hn (by rw [hr.offset]; omega)
  rw [hr.offset] at hs
  unfold Reader.read
  rw [hr.offset]
  split at hs
  · rename_i hle
    obtain ⟨b, hb, hbytes⟩ := hs
    refine .inl ⟨hle, fun i => if i < n then b i else 0, { r with offset := pos + n, trace := ⟨pos, n, none⟩ :: r.trace }, ?_,
      ⟨hr.serves, hr.endianness, rfl⟩, fun i hi => by simp only [if_pos hi]; exact hbytes i hi⟩
    rw [hb]
    simp only [usizeAdd_lt hfit]
  · rename_i hle
    obtain ⟨k, hk⟩ := hs
    exact .inr ⟨hle, k, _, by rw [hk]⟩

/-- The bytes at a place of the file. -/
theorem take_drop_eq {b : Nat → UInt8} {n : Nat} (hb : ∀ i < n, some (b i) = f[pos + i]?) :
    (f.drop pos).take n = (List.range n).map b := by
  apply List.ext_getElem?
  intro i
  by_cases hi : i < n
  · rw [List.getElem?_take_of_lt hi, List.getElem?_drop, ← hb i hi]
    simp [hi]
  · rw [List.getElem?_eq_none (by simp; omega), List.getElem?_eq_none (by simp; omega)]

theorem leNat_eq (b : Nat → UInt8) (n : Nat) : leNat b n = intOf .little ((List.range n).map b) := by
  have key : ∀ n acc, ((List.range n).map b).foldr (fun b acc => b.toNat + 256 * acc) acc = leNat b n + 256 ^ n * acc := by
    intro n
    induction n with
    | zero => intro acc; simp [leNat]
    | succ n ih =>
      intro acc
      rw [List.range_succ, List.map_append, List.foldr_append]
      simp only [List.map_cons, List.map_nil, List.foldr_cons, List.foldr_nil]
      rw [ih, leNat]
      ring
  have := key n 0
  rw [intOf, this]; simp

theorem beNat_eq (b : Nat → UInt8) (n : Nat) : beNat b n = intOf .big ((List.range n).map b) := by
  have key : ∀ n, ((List.range n).map b).foldl (fun acc b => 256 * acc + b.toNat) 0 = beNat b n := by
    intro n
    induction n with
    | zero => simp [beNat]
    | succ n ih =>
      rw [List.range_succ, List.map_append, List.foldl_append, ih, beNat]
      simp only [List.map_cons, List.map_nil, List.foldl_cons, List.foldl_nil]
      ring
  rw [intOf, key]

theorem decodeNat_eq (e : Endianness) (b : Nat → UInt8) (n : Nat) :
    decodeNat e b n = intOf e ((List.range n).map b) := by
  unfold decodeNat
  cases e
  · rw [if_pos rfl, leNat_eq]
  · rw [if_neg (by simp), beNat_eq]

theorem intOf_lt (e : Endianness) (bs : List UInt8) : intOf e bs < 256 ^ bs.length := by
  cases e with
  | little =>
    unfold intOf
    induction bs with
    | nil => simp
    | cons b bs ih =>
      simp only [List.foldr_cons, List.length_cons, Nat.pow_succ]
      simp only [] at ih
      have := b.toNat_lt
      omega
  | big =>
    unfold intOf
    have key : ∀ (bs : List UInt8) (acc : Nat),
        bs.foldl (fun acc b => 256 * acc + b.toNat) acc < (acc + 1) * 256 ^ bs.length := by
      intro bs
      induction bs with
      | nil => intro acc; simp
      | cons b bs ih =>
        intro acc
        simp only [List.foldl_cons, List.length_cons]
        refine Nat.lt_of_lt_of_le (ih _) ?_
        rw [Nat.pow_succ', ← Nat.mul_assoc]
        have := b.toNat_lt
        exact Nat.mul_le_mul_right _ (by omega)
    simpa using key bs 0

theorem intAt_unique {n v v' : Nat} (h : IntAt f e n pos v) (h' : IntAt f e n pos v') : v = v' := h.2.trans h'.2.symm

theorem intAt_lt {n v : Nat} (h : IntAt f e n pos v) : v < 256 ^ n := by
  rw [h.2]
  have := intOf_lt e ((f.drop pos).take n)
  rwa [List.length_take_of_le (by have := h.1; simp; omega)] at this

theorem word_unique {w w' : UInt32} (h : Word f e pos w) (h' : Word f e pos w') : w = w' :=
  UInt32.toNat_inj.1 (intAt_unique h h')

/-- Reading an integer of `n` bytes into a machine integer. -/
theorem correct_int {n : Nat} (hn : 0 < n) (hfit : pos + n < cfg.usizeMod) (mk : Nat → α) :
    Correct cfg f e pos (read cfg n >>= fun b => getEndianness >>= fun e => (Pure.pure (mk (decodeNat e b n)) : P α))
      (fun a next => (∃ v, IntAt f e n pos v ∧ a = mk v) ∧ next = pos + n) (Cut f (pos + n)) := by
  constructor
  · intro r hr
    change (∃ b r' n', P.bind _ _ r = _ ∧ _) ∨ ∃ k r', P.bind _ _ r = _ ∧ _
    unfold P.bind
    rcases read_file hn hfit hr with ⟨hle, b, r', he, hat, hb⟩ | ⟨hle, k, r', he⟩
    · rw [he]
      refine .inl ⟨mk (decodeNat e b n), r', pos + n, ?_, ⟨⟨_, ⟨hle, ?_⟩, rfl⟩, rfl⟩, hat⟩
      · show P.bind getEndianness _ r' = _
        unfold P.bind getEndianness
        simp only [hat.endianness]
        rfl
      · rw [take_drop_eq hb, decodeNat_eq]
    · rw [he]
      exact .inr ⟨_, r', rfl, fun a n' ⟨⟨v, hv, _⟩, _⟩ => hle hv.1, ⟨k, rfl⟩, by omega⟩
  · rintro a n1 a' n2 ⟨⟨v, hv, rfl⟩, rfl⟩ ⟨⟨v', hv', rfl⟩, rfl⟩
    rw [intAt_unique hv hv']
    exact ⟨rfl, rfl⟩

theorem correct_u32 (hfit : pos + 4 < cfg.usizeMod) :
    Correct cfg f e pos (u32 cfg) (fun w n => Word f e pos w ∧ n = pos + 4) (Cut f (pos + 4)) := by
  refine (correct_int (by decide) hfit UInt32.ofNat).congr ?_ (fun _ h => h)
  · intro a n
    constructor
    · rintro ⟨⟨v, hv, rfl⟩, rfl⟩
      refine ⟨?_, rfl⟩
      have := intAt_lt hv
      unfold Word
      rw [ofNat_toNat_lt (by omega)]
      exact hv
    · rintro ⟨h, rfl⟩
      exact ⟨⟨_, h, by simp⟩, rfl⟩

theorem correct_u64 (hfit : pos + 8 < cfg.usizeMod) :
    Correct cfg f e pos (u64 cfg) (fun w n => IntAt f e 8 pos w.toNat ∧ n = pos + 8)
      (Cut f (pos + 8)) := by
  have hto : ∀ v, v < 256 ^ 8 → (UInt64.ofNat v).toNat = v := by
    intro v hv; simp [UInt64.toNat_ofNat']; omega
  refine (correct_int (by decide) hfit UInt64.ofNat).congr ?_ (fun _ h => h)
  · intro a n
    constructor
    · rintro ⟨⟨v, hv, rfl⟩, rfl⟩
      refine ⟨?_, rfl⟩
      rw [hto v (intAt_lt hv)]
      exact hv
    · rintro ⟨h, rfl⟩
      exact ⟨⟨_, h, by simp⟩, rfl⟩

end

end Btf

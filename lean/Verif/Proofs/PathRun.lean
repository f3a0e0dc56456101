import Verif.Proofs.PathGrammar
import Verif.Spec.PathRun

/-!
# Totality of the iterator, and the connection with `AbsToks`
-/

namespace Btf

open Spec

/-! ### UTF-8 -/

theorem utf8Encode_props (c : Char) :
    (∃ b, (String.utf8EncodeChar c) = [b] ∧ b < 0x80) ∨
    (∃ b r, String.utf8EncodeChar c = b :: r ∧ 0xC0 ≤ b ∧ ∀ x ∈ r, 0x80 ≤ x) := by
  unfold String.utf8EncodeChar
  simp only []
  have hv : c.val.toNat < 0x110000 := by
    have := c.valid
    simp only [UInt32.isValidChar, Nat.isValidChar] at this
    omega
  have ht : c.toNat = c.val.toNat := rfl
  split
  · left
    exact ⟨_, rfl, by rw [UInt8.lt_iff_toNat_lt]; simp; omega⟩
  · right
    split
    · refine ⟨_, _, rfl, ?_, ?_⟩
      · rw [UInt8.le_iff_toNat_le]; simp; omega
      · intro x hx
        simp only [List.mem_cons, List.not_mem_nil, or_false] at hx
        subst hx
        rw [UInt8.le_iff_toNat_le]; simp; omega
    · split
      · refine ⟨_, _, rfl, ?_, ?_⟩
        · rw [UInt8.le_iff_toNat_le]; simp; omega
        · intro x hx
          simp only [List.mem_cons, List.not_mem_nil, or_false] at hx
          rcases hx with rfl | rfl <;> (rw [UInt8.le_iff_toNat_le]; simp; omega)
      · refine ⟨_, _, rfl, ?_, ?_⟩
        · rw [UInt8.le_iff_toNat_le]; simp; omega
        · intro x hx
          simp only [List.mem_cons, List.not_mem_nil, or_false] at hx
          rcases hx with rfl | rfl | rfl <;> (rw [UInt8.le_iff_toNat_le]; simp; omega)

theorem utf8Like_append {a b : Str} (ha : Utf8Like a) (hb : Utf8Like b) : Utf8Like (a ++ b) := by
  intro i x hx h1 h2
  rw [List.getElem?_append] at hx
  split at hx
  · obtain ⟨j, y, rfl, hy, hy'⟩ := ha i x hx h1 h2
    refine ⟨j, y, rfl, ?_, hy'⟩
    rw [List.getElem?_append_left (by omega)]; exact hy
  · obtain ⟨j, y, hj, hy, hy'⟩ := hb _ x hx h1 h2
    refine ⟨a.length + j, y, by omega, ?_, hy'⟩
    rw [List.getElem?_append_right (by omega)]
    simpa using hy

theorem utf8Like_char (c : Char) : Utf8Like (String.utf8EncodeChar c) := by
  intro i x hx h1 h2
  rcases utf8Encode_props c with ⟨b, hb, hlt⟩ | ⟨b, r, hb, hge, hr⟩
  · rw [hb] at hx
    cases i with
    | zero =>
      simp at hx; subst hx
      rw [UInt8.le_iff_toNat_le] at h1; rw [UInt8.lt_iff_toNat_lt] at hlt; omega
    | succ i => simp at hx
  · rw [hb] at hx ⊢
    cases i with
    | zero =>
      simp at hx; subst hx
      rw [UInt8.le_iff_toNat_le] at hge; rw [UInt8.lt_iff_toNat_lt] at h2; omega
    | succ i =>
      cases i with
      | zero =>
        refine ⟨0, b, rfl, rfl, ?_⟩
        rw [UInt8.le_iff_toNat_le] at hge ⊢
        simp at *; omega
      | succ i =>
        have hlt : i + 1 < r.length := by
          rw [List.getElem?_cons_succ] at hx
          exact (List.getElem?_eq_some_iff.1 hx).1
        refine ⟨i + 1, r[i], rfl, ?_, hr _ (List.getElem_mem _)⟩
        rw [List.getElem?_cons_succ]
        exact List.getElem?_eq_getElem (by omega)

theorem utf8Like_str (s : String) : Utf8Like (str s) := by
  unfold str
  induction s.toList with
  | nil => intro i b h; simp at h
  | cons c r ih =>
    rw [List.flatMap_cons]
    exact utf8Like_append (utf8Like_char c) ih

theorem pathInv_new {p : Str} (h : Utf8Like p) : PathInv (PathIter.new p) :=
  ⟨h, by simp [PathIter.new], by simp [PathIter.new, isCharBoundary]⟩

/-! ### Abstract totality -/

theorem absName_progress {c : UInt8} {r : Str} {t st r'} (hs : startByte c = true)
    (h : absName (c :: r) = .tok t st r') : r'.length < (c :: r).length ∧ st ≠ .insideName := by
  obtain ⟨n, hn, -, h3⟩ := absName_tok hs h
  have hl : 0 < n.length := by cases hn; simp
  rcases h3 with ⟨rfl, rfl, h3⟩ | ⟨rfl, h3⟩ | ⟨rfl, h3⟩ <;> rw [h3] <;> simp <;> omega

theorem absIndex_progress {cfg : Cfg} {r : Str} {t st r'}
    (h : absIndex cfg r = .tok t st r') : r'.length < r.length ∧ st ≠ .insideName := by
  obtain ⟨ds, i, -, -, rfl, rfl⟩ := absIndex_tok h
  simp; omega

theorem absExpect_progress {r : Str} {t st r'}
    (h : absExpect r = .tok t st r') : r'.length < r.length ∧ st ≠ .insideName := by
  unfold absExpect at h
  cases r with
  | nil => cases h
  | cons c r =>
    simp only [] at h
    split at h
    · rename_i hs; exact absName_progress hs h
    · cases h

theorem absNext_progress {cfg : Cfg} {st : PathState} {r : Str} {t st' r'} (hst : st ≠ .insideName)
    (h : absNext cfg st r = .tok t st' r') : r'.length < r.length ∧ st' ≠ .insideName := by
  cases st with
  | done => cases r <;> simp [absNext] at h
  | error => cases r <;> simp [absNext] at h
  | insideName => exact absurd rfl hst
  | start =>
    cases r with
    | nil => simp [absNext] at h
    | cons c r =>
      simp only [absNext] at h
      split at h
      · have := absIndex_progress h; exact ⟨by simp; omega, this.2⟩
      · split at h
        · rename_i hs; exact absName_progress hs h
        · cases h
  | insideIndex =>
    cases r with
    | nil => simp [absNext] at h
    | cons c r => simp only [absNext] at h; exact absIndex_progress h
  | expectingName =>
    cases r with
    | nil => simp [absNext] at h
    | cons c r => simp only [absNext] at h; exact absExpect_progress h
  | afterIndex =>
    cases r with
    | nil => simp [absNext] at h
    | cons c r =>
      simp only [absNext] at h
      split at h
      · have := absIndex_progress h; exact ⟨by simp; omega, this.2⟩
      · split at h
        · cases r with
          | nil => cases h
          | cons c' r =>
            have := absExpect_progress h
            exact ⟨by simp at this ⊢; omega, this.2⟩
        · cases h

theorem absToks_total (cfg : Cfg) : ∀ (n : Nat) (st : PathState) (r : Str), r.length ≤ n →
    st ≠ .insideName → ∃ cs b, AbsToks cfg st r cs b := by
  intro n
  induction n with
  | zero =>
    intro st r hr hst
    have : r = [] := List.eq_nil_of_length_eq_zero (by omega)
    subst this
    exact ⟨[], true, .stop (by cases st <;> simp [absNext])⟩
  | succ n ih =>
    intro st r hr hst
    cases h : absNext cfg st r with
    | stop => exact ⟨_, _, .stop h⟩
    | bad => exact ⟨_, _, .bad h⟩
    | tok c st' r' =>
      have hp := absNext_progress hst h
      obtain ⟨cs, b, ht⟩ := ih st' r' (by omega) hp.2
      exact ⟨_, _, .tok h ht⟩

/-! ### Concrete runs -/

theorem yields_of_absToks {cfg : Cfg} {st : PathState} {r : Str} {cs b} (h : AbsToks cfg st r cs b) :
    ∀ it : PathIter, PathInv it → it.state = st → it.path.drop it.position = r → Yields cfg it cs b := by
  induction h with
  | stop h =>
    intro it hi hs hr
    have := next_agrees cfg it hi
    rw [hs, hr, h] at this
    cases hn : it.next cfg with
    | mk o it' => rw [hn] at this; cases this; exact .stop (by rw [hn])
  | bad h =>
    intro it hi hs hr
    have := next_agrees cfg it hi
    rw [hs, hr, h] at this
    cases hn : it.next cfg with
    | mk o it' => rw [hn] at this; cases this; exact .fail (by rw [hn])
  | tok h _ ih =>
    intro it hi hs hr
    have := next_agrees cfg it hi
    rw [hs, hr, h] at this
    cases hn : it.next cfg with
    | mk o it' =>
      rw [hn] at this
      cases this with
      | tok h1 h2 h3 h4 => exact .tok hn (ih it' h4 h2 h3)

theorem yields_det {cfg : Cfg} {it : PathIter} {cs cs' b b'} (h : Yields cfg it cs b)
    (h' : Yields cfg it cs' b') : cs = cs' ∧ b = b' := by
  induction h generalizing cs' b' with
  | stop h =>
    cases h' with
    | stop => exact ⟨rfl, rfl⟩
    | fail h2 => rw [h] at h2; cases h2
    | tok h2 _ => rw [h2] at h; cases h
  | fail h =>
    cases h' with
    | stop h2 => rw [h] at h2; cases h2
    | fail => exact ⟨rfl, rfl⟩
    | tok h2 _ => rw [h2] at h; cases h
  | tok h _ ih =>
    cases h' with
    | stop h2 => rw [h] at h2; cases h2
    | fail h2 => rw [h] at h2; cases h2
    | tok h2 h3 =>
      rw [h] at h2; cases h2
      obtain ⟨rfl, rfl⟩ := ih h3
      exact ⟨rfl, rfl⟩

theorem yields_total (cfg : Cfg) {p : Str} (hp : Utf8Like p) :
    ∃ cs b, Yields cfg (PathIter.new p) cs b := by
  obtain ⟨cs, b, h⟩ := absToks_total cfg _ .start p (Nat.le_refl _) (by simp)
  exact ⟨cs, b, yields_of_absToks h _ (pathInv_new hp) rfl (by simp [PathIter.new])⟩

theorem yields_iff (cfg : Cfg) {p : Str} (hp : Utf8Like p) (cs : List PathComponent) :
    Yields cfg (PathIter.new p) cs true ↔ AcceptedPath cfg.usizeMod p cs := by
  rw [← absToks_iff]
  constructor
  · intro h
    obtain ⟨cs', b, h'⟩ := absToks_total cfg _ .start p (Nat.le_refl _) (by simp)
    have := yields_of_absToks h' _ (pathInv_new hp) rfl (by simp [PathIter.new])
    obtain ⟨rfl, rfl⟩ := yields_det h this
    exact h'
  · intro h
    exact yields_of_absToks h _ (pathInv_new hp) rfl (by simp [PathIter.new])

/-- The iterator never panics; its errors are `InvalidTypePath`; after the end or an error it stays
there. -/
theorem next_outcome (cfg : Cfg) (it : PathIter) (hi : PathInv it) :
    (∃ c it', it.next cfg = (.ok (some c), it') ∧ PathInv it') ∨
      (∃ it', it.next cfg = (.ok none, it') ∧ (it'.state = .done ∨ it'.state = .error)) ∨
      (∃ it', it.next cfg = (.err .InvalidTypePath, it') ∧ (it'.state = .done ∨ it'.state = .error)) := by
  have := next_agrees cfg it hi
  cases hn : it.next cfg with
  | mk o it' =>
    rw [hn] at this
    generalize absNext cfg it.state _ = a at this
    cases this with
    | tok h _ _ h' => exact .inl ⟨_, _, rfl, h'⟩
    | stop h => exact .inr (.inl ⟨_, rfl, h⟩)
    | bad h => exact .inr (.inr ⟨_, rfl, .inr h⟩)

theorem next_ended (cfg : Cfg) (it : PathIter) (h : it.state = .done ∨ it.state = .error) :
    it.next cfg = (.ok none, it) := by
  unfold PathIter.next; rw [if_pos h]

end Btf

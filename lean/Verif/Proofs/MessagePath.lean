import Verif.Proofs.MessageSem
import Verif.Proofs.PathRun

/-!
# What the reasons mean: paths
-/

namespace Btf

open Spec PathIter

theorem takeWhile_append_dropWhile' (l : Str) (p : UInt8 → Bool) : l.takeWhile p ++ l.dropWhile p = l :=
  List.takeWhile_append_dropWhile

theorem mem_takeWhile {l : Str} {p : UInt8 → Bool} : ∀ b ∈ l.takeWhile p, p b = true := fun b hb => by
  have := List.all_takeWhile (p := p) (l := l)
  exact List.all_eq_true.1 this b hb

theorem dropWhile_cons_not {l : Str} {p : UInt8 → Bool} {c : UInt8} {r : Str} (h : l.dropWhile p = c :: r) : p c = false := by
  have := List.head?_dropWhile_not p l
  rw [h] at this
  simpa using this

theorem parseNameT_err {it : PathIter} {r : Reason} (h : it.parseNameT.1 = .err r) :
    ∃ w c x, it.path.drop it.position = w ++ c :: x ∧ r = .invalidCharacter (it.position + w.length) ∧
      (∀ b ∈ w, nameByte b = true) ∧ nameByte c = false ∧ c ≠ chOpen ∧ c ≠ chDot := by
  rw [parseNameT, scanName_eq] at h
  cases hd : (it.path.drop it.position).dropWhile nameByte with
  | nil =>
    rw [hd] at h
    simp only [] at h
    split at h <;> cases h
  | cons c x =>
    rw [hd] at h
    simp only [] at h
    by_cases hc : (c == chOpen || c == chDot) = true
    · rw [hc] at h
      simp only [Bool.not_true] at h
      split at h <;> cases h
    · rw [Bool.eq_false_of_not_eq_true hc] at h
      injection h with h
      refine ⟨_, c, x, ?_, h.symm, mem_takeWhile, dropWhile_cons_not hd, ?_, ?_⟩
      · rw [← hd, takeWhile_append_dropWhile']
      · rintro rfl; simp at hc
      · rintro rfl; simp at hc

theorem parseIndexT_err {cfg : Cfg} {it : PathIter} {r : Reason} (h : (it.parseIndexT cfg).1 = .err r) :
    (∃ w c x, it.path.drop it.position = w ++ c :: x ∧ r = .invalidCharacter (it.position + w.length) ∧
      (∀ b ∈ w, isNumeric b = true) ∧ isNumeric c = false ∧ c ≠ chClose) ∨
    (r = .unclosedIndex ∧ ∀ b ∈ it.path.drop it.position, isNumeric b = true) ∨
    (r = .emptyIndex ∧ ∃ x, it.path.drop it.position = chClose :: x) ∨
    (∃ ds x, it.path.drop it.position = ds ++ chClose :: x ∧ ds ≠ [] ∧ (∀ b ∈ ds, isNumeric b = true) ∧
      parseUsize cfg ds = none ∧ r = .invalidIndexValue (parseUsizeError cfg ds 0)) := by
  rw [parseIndexT, scanIndex_eq] at h
  have hdrop := drop_split it.path isNumeric it.position
  have hslice := slice_takeWhile it.path isNumeric it.position
  cases hd : (it.path.drop it.position).dropWhile isNumeric with
  | nil =>
    have hall : ∀ b ∈ it.path.drop it.position, isNumeric b = true := by
      rw [← takeWhile_append_dropWhile' (it.path.drop it.position) isNumeric, hd, List.append_nil]
      exact mem_takeWhile
    rw [hd] at h hdrop
    simp only [] at h
    rw [if_pos] at h
    · injection h with h
      exact .inr (.inl ⟨h.symm, hall⟩)
    · have := List.drop_eq_nil_iff.1 hdrop
      simp [this]
  | cons c x =>
    have hsplit : it.path.drop it.position = (it.path.drop it.position).takeWhile isNumeric ++ c :: x := by
      rw [← hd, takeWhile_append_dropWhile']
    rw [hd] at h hdrop
    simp only [] at h
    by_cases hc : c = chClose
    · subst hc
      simp only [BEq.rfl, Bool.not_true] at h
      rw [if_neg (by simpa using getElem?_of_drop hdrop)] at h
      split at h
      · rename_i s hs
        have hs' : s = (it.path.drop it.position).takeWhile isNumeric := by
          unfold strSlice at hs
          split at hs
          · injection hs with hs; rw [← hs]; exact hslice
          · cases hs
        subst hs'
        right; right
        split at h
        · rename_i h0
          injection h with h
          exact .inl ⟨h.symm, x, by rw [hsplit, h0]; rfl⟩
        · rename_i h0
          split at h
          · cases h
          · rename_i h1
            injection h with h
            exact .inr ⟨_, x, hsplit, h0, mem_takeWhile, h1, h.symm⟩
      · cases h
    · rw [show (!c == chClose) = true by simpa using hc] at h
      injection h with h
      exact .inl ⟨_, c, x, hsplit, h.symm, mem_takeWhile, dropWhile_cons_not hd, hc⟩

/-- Text of a component that is not complete. -/
inductive Partial : PathState → Str → Prop where
  | start : Partial .start []
  | first {n} : IsName n → Partial .start n
  | index {st w ds} : consumed st ++ w = chOpen :: ds → (∀ b ∈ ds, isNumeric b = true) → Partial st w
  | after : Partial .afterIndex []
  | dot {st w} : st ≠ .start → consumed st ++ w = [chDot] → Partial st w
  | dotName {st w n} : st ≠ .start → consumed st ++ w = chDot :: n → IsName n → Partial st w

/-- Why the iterator fails. -/
inductive Fault (cfg : Cfg) (st : PathState) (rest : Str) (pos : Nat) : Reason → Prop where
  | char {w c x} : rest = w ++ c :: x → Partial st w → (∀ more, absNext cfg st (w ++ c :: more) = .bad) →
      Fault cfg st rest pos (.invalidCharacter (pos + w.length))
  | unclosed {ds} : consumed st ++ rest = chOpen :: ds → (∀ b ∈ ds, isNumeric b = true) → Fault cfg st rest pos .unclosedIndex
  | empty {x} : consumed st ++ rest = chOpen :: chClose :: x → Fault cfg st rest pos .emptyIndex
  | value {ds x} : consumed st ++ rest = chOpen :: (ds ++ chClose :: x) → ds ≠ [] → (∀ b ∈ ds, isNumeric b = true) →
      parseUsize cfg ds = none → Fault cfg st rest pos (.invalidIndexValue (parseUsizeError cfg ds 0))

theorem absIndex_bad {cfg : Cfg} {w : Str} {c : UInt8} (hw : ∀ b ∈ w, isNumeric b = true) (hc : isNumeric c = false)
    (hc' : c ≠ chClose) (more : Str) : absIndex cfg (w ++ c :: more) = .bad := by
  have := (takeWhile_append_sep (p := isNumeric) (a := w) (b := c :: more) hw (by
    intro c' r h; injection h with h; subst h; exact hc)).2
  rw [absIndex, this]
  simp [hc']

theorem absName_bad {w : Str} {c : UInt8} (hw : ∀ b ∈ w, nameByte b = true) (hc : nameByte c = false)
    (h1 : c ≠ chOpen) (h2 : c ≠ chDot) (more : Str) : absName (w ++ c :: more) = .bad := by
  have := (takeWhile_append_sep (p := nameByte) (a := w) (b := c :: more) hw (by
    intro c' r h; injection h with h; subst h; exact hc)).2
  rw [absName, this]
  simp [h1, h2]

theorem isName_of {c : UInt8} {w : Str} (hs : startByte c = true) (hw : ∀ b ∈ c :: w, nameByte b = true) : IsName (c :: w) :=
  .mk c w ((startByte_iff c).1 hs) fun b hb => (nameByte_iff b).1 (hw b (List.mem_cons_of_mem _ hb))

/-- The first byte of the text of a name that starts with a start byte. -/
theorem name_head {c : UInt8} {r w x : Str} {d : UInt8} (h : c :: r = w ++ d :: x) (hs : startByte c = true)
    (hd : nameByte d = false) : ∃ w', w = c :: w' := by
  cases w with
  | nil =>
    injection h with h _
    subst h
    rw [startByte_nameByte hs] at hd
    cases hd
  | cons b w' => injection h with h _; subst h; exact ⟨w', rfl⟩

theorem chOpen_not_start : startByte chOpen = false := by decide
theorem chDot_not_start : startByte chDot = false := by decide

/-- A name that fails where a name is expected. -/
theorem expect_err {it : PathIter} {r : Reason} {c : UInt8} {x : Str} (hd : it.path.drop it.position = c :: x)
    (h : it.nextExpectingNameT.1 = .err r) :
    ∃ w d y, c :: x = w ++ d :: y ∧ (w = [] ∨ IsName w) ∧ (∀ more, absExpect (w ++ d :: more) = .bad) ∧
      r = .invalidCharacter (it.position + w.length) := by
  rw [nextExpectingNameT, getElem?_of_drop hd] at h
  simp only [] at h
  by_cases hs : startByte c = true
  · rw [if_pos (show (isAlphabetic c || c == chUnderscore) = true from hs)] at h
    obtain ⟨w, d, y, h1, h2, h3, h4, h5, h6⟩ := parseNameT_err h
    rw [show ({ it with state := .insideName } : PathIter).path.drop ({ it with state := .insideName } : PathIter).position
      = c :: x from hd] at h1
    obtain ⟨w', rfl⟩ := name_head h1 hs h4
    refine ⟨_, d, y, h1, .inr (isName_of hs h3), fun more => ?_, h2⟩
    rw [List.cons_append, absExpect, if_pos hs]
    exact absName_bad h3 h4 h5 h6 more
  · rw [if_neg (show ¬ (isAlphabetic c || c == chUnderscore) = true from hs)] at h
    injection h with h
    refine ⟨[], c, x, rfl, .inl rfl, fun more => ?_, h.symm⟩
    rw [List.nil_append, absExpect, if_neg hs]

theorem nextT_err {cfg : Cfg} {it : PathIter} {r : Reason} (hst : it.state ≠ .insideName) (h : (it.nextT cfg).1 = .err r) :
    Fault cfg it.state (it.path.drop it.position) it.position r := by
  -- an index whose text starts after an opening bracket
  have index : ∀ (it' : PathIter) (w0 : Str), (it'.parseIndexT cfg).1 = .err r →
      it.path.drop it.position = w0 ++ it'.path.drop it'.position → it'.position = it.position + w0.length →
      consumed it.state ++ w0 = [chOpen] →
      (∀ x, x ≠ [] → absNext cfg it.state (w0 ++ x) = absIndex cfg x) →
      Fault cfg it.state (it.path.drop it.position) it.position r := by
    intro it' w0 h1 h2 h3 h4 h5
    have h6 : ∀ y, consumed it.state ++ (w0 ++ y) = chOpen :: y := fun y => by rw [← List.append_assoc, h4]; rfl
    rcases parseIndexT_err h1 with ⟨w, c, x, ha, rfl, hb, hc, hd⟩ | ⟨rfl, ha⟩ | ⟨rfl, x, ha⟩ | ⟨ds, x, ha, hb, hc, hd, rfl⟩
    · rw [h3, show it.position + w0.length + w.length = it.position + (w0 ++ w).length by simp; omega]
      refine .char (c := c) (x := x) (by rw [h2, ha]; simp) (.index (h6 w) hb) fun more => ?_
      rw [List.append_assoc, h5 _ (by simp)]
      exact absIndex_bad hb hc hd more
    · exact .unclosed (by rw [h2, h6]) ha
    · exact .empty (x := x) (by rw [h2, h6, ha])
    · exact .value (by rw [h2, h6, ha]) hb hc hd
  rw [nextT] at h
  split at h
  · cases h
  · cases hc : it.path[it.position]? with
    | none => rw [hc] at h; cases h
    | some c =>
      rw [hc] at h
      have hd : ∃ x, it.path.drop it.position = c :: x := by
        obtain ⟨hlt, rfl⟩ := List.getElem?_eq_some_iff.1 hc
        exact ⟨_, List.drop_eq_getElem_cons hlt⟩
      obtain ⟨x, hd⟩ := hd
      have hd' := drop_succ_of_drop hd
      simp only [] at h
      cases hs : it.state with
      | insideName => exact absurd hs hst
      | done => rw [hs] at h; cases h
      | error => rw [hs] at h; cases h
      | start =>
        rw [hs] at h
        simp only [] at h
        split at h
        · rename_i hco
          replace hco : c = chOpen := by simpa using hco
          subst hco
          rw [← hs]
          refine index _ [chOpen] h (by rw [hd]; exact congrArg (chOpen :: ·) hd'.symm) rfl (by rw [hs]; rfl) fun y hy => ?_
          rw [hs]; simp [absNext]
        · rename_i hco
          replace hco : c ≠ chOpen := by simpa using hco
          by_cases hsb : startByte c = true
          · rw [if_pos (show (isAlphabetic c || c == chUnderscore) = true from hsb)] at h
            obtain ⟨w, d, y, h1, h2, h3, h4, h5, h6⟩ := parseNameT_err h
            rw [show ({ it with state := .insideName } : PathIter).path.drop
              ({ it with state := .insideName } : PathIter).position = c :: x from hd] at h1
            obtain ⟨w', rfl⟩ := name_head h1 hsb h4
            subst h2
            rw [hd]
            refine .char (c := d) (x := y) h1 (.first (isName_of hsb h3)) fun more => ?_
            rw [List.cons_append, absNext, if_neg hco, if_pos hsb]
            exact absName_bad h3 h4 h5 h6 more
          · rw [if_neg (show ¬ (isAlphabetic c || c == chUnderscore) = true from hsb)] at h
            injection h with h
            subst h
            rw [hd]
            refine .char (w := []) rfl .start fun more => ?_
            rw [List.nil_append, absNext, if_neg hco, if_neg hsb]
      | insideIndex =>
        rw [hs] at h
        rw [← hs]
        refine index it [] h (by simp) rfl (by rw [hs]; rfl) fun y hy => ?_
        rw [hs]
        cases y with
        | nil => exact absurd rfl hy
        | cons b y => simp [absNext]
      | afterIndex =>
        rw [hs] at h
        simp only [] at h
        split at h
        · rename_i hco
          replace hco : c = chOpen := by simpa using hco
          subst hco
          rw [← hs]
          refine index _ [chOpen] h (by rw [hd]; exact congrArg (chOpen :: ·) hd'.symm) rfl (by rw [hs]; rfl) fun y hy => ?_
          rw [hs]; simp [absNext]
        · rename_i hco
          replace hco : c ≠ chOpen := by simpa using hco
          split at h
          · rename_i hcd
            replace hcd : c = chDot := by simpa using hcd
            subst hcd
            split at h
            · rename_i hlt
              have hd2 : ∃ c' y, x = c' :: y := by
                cases x with
                | nil =>
                  have := List.drop_eq_nil_iff.1 hd'
                  omega
                | cons c' y => exact ⟨c', y, rfl⟩
              obtain ⟨c', y, rfl⟩ := hd2
              obtain ⟨w, d, z, h1, h2, h3, rfl⟩ := expect_err (it := { it with position := it.position + 1, state := .expectingName })
                hd' h
              rw [hd, h1]
              have : it.position + 1 + w.length = it.position + (chDot :: w).length := by simp; omega
              show Fault _ _ _ _ (.invalidCharacter (it.position + 1 + w.length))
              rw [this]
              refine .char (w := chDot :: w) (c := d) (x := z) rfl ?_ fun more => ?_
              · rcases h2 with rfl | h2
                · exact .dot (by simp) rfl
                · exact .dotName (by simp) rfl h2
              · rw [List.cons_append]
                have h4 : absNext cfg .afterIndex (chDot :: (w ++ d :: more)) = absExpect (w ++ d :: more) := by
                  cases hw : w ++ d :: more with
                  | nil => simp at hw
                  | cons a b => simp [absNext, show ¬ chDot = chOpen by decide]
                rw [h4]
                exact h3 more
            · cases h
          · rename_i hcd
            injection h with h
            subst h
            rw [hd]
            refine .char (w := []) rfl .after fun more => ?_
            replace hcd : c ≠ chDot := by simpa using hcd
            simp [absNext, hco, hcd]
      | expectingName =>
        rw [hs] at h
        obtain ⟨w, d, y, h1, h2, h3, rfl⟩ := expect_err hd h
        rw [hd]
        refine .char h1 ?_ fun more => ?_
        · rcases h2 with rfl | h2
          · exact .dot (by simp) rfl
          · exact .dotName (by simp) rfl h2
        · have h4 : absNext cfg .expectingName (w ++ d :: more) = absExpect (w ++ d :: more) := by
            cases hw : w ++ d :: more with
            | nil => simp at hw
            | cons a b => simp [absNext]
          rw [h4]
          exact h3 more

end Btf

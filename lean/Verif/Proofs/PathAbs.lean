import Verif.Model.Path

/-!
# The iterator as a function of its state and the remaining bytes
-/

namespace Btf

open PathIter

/-- Bytes that may occur inside a name. -/
def nameByte (c : UInt8) : Bool := isAlphanumeric c || c == chUnderscore
/-- Bytes that may start a name. -/
def startByte (c : UInt8) : Bool := isAlphabetic c || c == chUnderscore

/-- One abstract step: a component and what remains, the end, or an error. -/
inductive AbsStep where
  | tok (c : PathComponent) (st : PathState) (rest : Str)
  | stop
  | bad
  deriving DecidableEq

def absName (r : Str) : AbsStep :=
  match r.dropWhile nameByte with
  | [] => .tok (.name (r.takeWhile nameByte)) .done []
  | c :: r' =>
    if c = chOpen then .tok (.name (r.takeWhile nameByte)) .insideIndex r'
    else if c = chDot then .tok (.name (r.takeWhile nameByte)) .expectingName r'
    else .bad

def absIndex (cfg : Cfg) (r : Str) : AbsStep :=
  match r.dropWhile isNumeric with
  | [] => .bad
  | c :: r' =>
    if c = chClose then
      match parseUsize cfg (r.takeWhile isNumeric) with
      | some i => .tok (.index i) .afterIndex r'
      | none => .bad
    else .bad

def absExpect (r : Str) : AbsStep :=
  match r with
  | [] => .bad
  | c :: r' => if startByte c then absName (c :: r') else .bad

def absNext (cfg : Cfg) (st : PathState) (r : Str) : AbsStep :=
  match st, r with
  | .done, _ => .stop
  | .error, _ => .stop
  | _, [] => .stop
  | .start, c :: r' =>
    if c = chOpen then absIndex cfg r'
    else if startByte c then absName (c :: r') else .bad
  | .insideName, r => absName r
  | .insideIndex, r => absIndex cfg r
  | .afterIndex, c :: r' =>
    if c = chOpen then absIndex cfg r'
    else if c = chDot then
      match r' with
      | [] => .stop
      | c' :: r'' => absExpect (c' :: r'')
    else .bad
  | .expectingName, r => absExpect r

/-- No UTF-8 continuation byte follows an ASCII byte or starts the string. -/
def Utf8Like (s : Str) : Prop :=
  ∀ (i : Nat) (b : UInt8), s[i]? = some b → 0x80 ≤ b → b < 0xC0 →
    ∃ (j : Nat) (a : UInt8), i = j + 1 ∧ s[j]? = some a ∧ 0x80 ≤ a

theorem boundary_zero (s : Str) : isCharBoundary s 0 = true := by simp [isCharBoundary]
theorem boundary_len (s : Str) : isCharBoundary s s.length = true := by simp [isCharBoundary]

theorem boundary_ascii {s : Str} {i : Nat} {b : UInt8} (h : s[i]? = some b) (hb : b < 0x80) :
    isCharBoundary s i = true := by simp [isCharBoundary, h, hb]

theorem boundary_after_ascii {s : Str} {i : Nat} {b : UInt8} (hu : Utf8Like s) (h : s[i]? = some b)
    (hb : b < 0x80) : isCharBoundary s (i + 1) = true := by
  have hlt : i < s.length := by
    rw [List.getElem?_eq_some_iff] at h; exact h.1
  unfold isCharBoundary
  cases h' : s[i + 1]? with
  | none =>
    have : s.length ≤ i + 1 := by simpa using h'
    have : i + 1 = s.length := by omega
    simp [this]
  | some c =>
    simp only [Bool.or_eq_true, decide_eq_true_eq]
    right
    rcases Decidable.em (c < 0x80) with hc | hc
    · exact .inl hc
    · right
      rcases Decidable.em (0xC0 ≤ c) with hc' | hc'
      · exact hc'
      · obtain ⟨j, a, hj, ha, ha'⟩ := hu (i + 1) c h' (by simpa using hc) (by simpa using hc')
        have : j = i := by omega
        subst this
        rw [h] at ha; cases ha
        exact absurd hb (by simpa using ha')

theorem scanName_eq (r : Str) (pos : Nat) :
    scanName r pos =
      (pos + (r.takeWhile nameByte).length,
        match r.dropWhile nameByte with
        | [] => false
        | c :: _ => !(c == chOpen || c == chDot)) := by
  induction r generalizing pos with
  | nil => rfl
  | cons c rest ih =>
    unfold scanName
    by_cases h : nameByte c = true
    · rw [if_pos (by simpa [nameByte] using h), ih]
      simp [h]; omega
    · rw [if_neg (by simpa [nameByte] using h)]
      simp only [List.takeWhile_cons, List.dropWhile_cons, h]
      by_cases h2 : (c == chOpen || c == chDot) = true
      · simp [h2]
      · simp only [h2]; simp at h2; simp [h2]

theorem scanIndex_eq (r : Str) (pos : Nat) :
    scanIndex r pos =
      (pos + (r.takeWhile isNumeric).length,
        match r.dropWhile isNumeric with
        | [] => false
        | c :: _ => !(c == chClose)) := by
  induction r generalizing pos with
  | nil => rfl
  | cons c rest ih =>
    unfold scanIndex
    by_cases h : isNumeric c = true
    · rw [if_pos h, ih]
      simp [h]; omega
    · rw [if_neg h]
      simp only [List.takeWhile_cons, List.dropWhile_cons, h]
      by_cases h2 : (c == chClose) = true
      · simp [h2]
      · simp only [h2]; simpa using h2

theorem drop_takeWhile (l : Str) (p : UInt8 → Bool) : l.drop (l.takeWhile p).length = l.dropWhile p := by
  induction l with
  | nil => rfl
  | cons c r ih => by_cases h : p c = true <;> simp [h, ih]

theorem take_takeWhile (l : Str) (p : UInt8 → Bool) : l.take (l.takeWhile p).length = l.takeWhile p := by
  induction l with
  | nil => rfl
  | cons c r ih => by_cases h : p c = true <;> simp [h, ih]

theorem drop_split (s : Str) (p : UInt8 → Bool) (i : Nat) :
    s.drop (i + ((s.drop i).takeWhile p).length) = (s.drop i).dropWhile p := by
  rw [← List.drop_drop, drop_takeWhile]

theorem slice_takeWhile (s : Str) (p : UInt8 → Bool) (i : Nat) :
    (s.drop i).take (i + ((s.drop i).takeWhile p).length - i) = (s.drop i).takeWhile p := by
  rw [Nat.add_sub_cancel_left, take_takeWhile]

theorem getElem?_of_drop {s : Str} {i : Nat} {c : UInt8} {r : Str} (h : s.drop i = c :: r) :
    s[i]? = some c := by
  have := congrArg (·[0]?) h
  simpa using this

theorem drop_succ_of_drop {s : Str} {i : Nat} {c : UInt8} {r : Str} (h : s.drop i = c :: r) :
    s.drop (i + 1) = r := by
  rw [← List.drop_drop, h]; rfl

theorem takeWhile_len_le (s : Str) (p : UInt8 → Bool) (i : Nat) (hi : i ≤ s.length) :
    i + ((s.drop i).takeWhile p).length ≤ s.length := by
  have h := (List.takeWhile_prefix (l := s.drop i) p).length_le
  simp at h; omega

/-- The invariant of the iterator: the position is a character boundary inside the path. -/
structure PathInv (it : PathIter) : Prop where
  utf8 : Utf8Like it.path
  bound : it.position ≤ it.path.length
  boundary : isCharBoundary it.path it.position = true

/-- The concrete step agrees with the abstract one. -/
inductive Agrees (path : Str) : AbsStep → Outcome (Option PathComponent) × PathIter → Prop where
  | tok {c st r it} : it.path = path → it.state = st → it.path.drop it.position = r →
      PathInv it → Agrees path (.tok c st r) (.ok (some c), it)
  | stop {it} : it.state = .done ∨ it.state = .error → Agrees path .stop (.ok none, it)
  | bad {it} : it.state = .error → Agrees path .bad (.err .InvalidTypePath, it)

theorem parseName_agrees (it : PathIter) (h : PathInv it) :
    Agrees it.path (absName (it.path.drop it.position)) (parseName it) := by
  obtain ⟨hu, hb, hbd⟩ := h
  simp only [parseName, scanName_eq, absName]
  have hdrop := drop_split it.path nameByte it.position
  have hle := takeWhile_len_le it.path nameByte it.position hb
  have hslice := slice_takeWhile it.path nameByte it.position
  cases hd : (it.path.drop it.position).dropWhile nameByte with
  | nil =>
    rw [hd] at hdrop
    simp only []
    have hend : it.position + ((it.path.drop it.position).takeWhile nameByte).length = it.path.length := by
      have := List.drop_eq_nil_iff.1 hdrop
      omega
    simp only [strSlice]
    rw [if_pos ⟨by omega, by omega, hbd, by rw [hend]; exact boundary_len _⟩]
    simp only []
    rw [show it.path[it.position + ((it.path.drop it.position).takeWhile nameByte).length]? = none from
      by rw [hend]; simp]
    rw [hslice]
    exact .tok rfl rfl hdrop ⟨hu, by simp only []; omega, by simp only []; rw [hend]; exact boundary_len _⟩
  | cons c r' =>
    rw [hd] at hdrop
    have hget := getElem?_of_drop hdrop
    have hdrop' := drop_succ_of_drop hdrop
    have hlt := (List.getElem?_eq_some_iff.1 hget).1
    simp only []
    by_cases hbad : (!(c == chOpen || c == chDot)) = true
    · rw [hbad]
      simp only [Bool.not_eq_true', Bool.or_eq_false_iff, beq_eq_false_iff_ne] at hbad
      rw [if_neg hbad.1, if_neg hbad.2]
      exact .bad rfl
    · have hbad' : (!(c == chOpen || c == chDot)) = false := by simpa using hbad
      rw [hbad']
      simp only [Bool.not_eq_false', Bool.or_eq_true, beq_iff_eq] at hbad'
      have hascii : c < 0x80 := by rcases hbad' with h | h <;> subst h <;> decide
      have hsl : strSlice it.path it.position
          (it.position + ((it.path.drop it.position).takeWhile nameByte).length) =
          .ok ((it.path.drop it.position).takeWhile nameByte) := by
        unfold strSlice
        rw [if_pos ⟨by omega, by omega, hbd, boundary_ascii hget hascii⟩, hslice]
      simp only [hget, hsl]
      have hb' := boundary_after_ascii hu hget hascii
      rcases hbad' with h | h
      · subst h
        simp only [beq_self_eq_true, if_true]
        exact .tok rfl rfl hdrop' ⟨hu, by simp only []; omega, hb'⟩
      · subst h
        simp only [show (chDot == chOpen) = false from rfl, show ¬ chDot = chOpen by decide,
          beq_self_eq_true, if_true, if_false, Bool.false_eq_true]
        exact .tok rfl rfl hdrop' ⟨hu, by simp only []; omega, hb'⟩

theorem parseIndex_agrees (cfg : Cfg) (it : PathIter) (h : PathInv it) :
    Agrees it.path (absIndex cfg (it.path.drop it.position)) (parseIndex cfg it) := by
  obtain ⟨hu, hb, hbd⟩ := h
  simp only [parseIndex, scanIndex_eq, absIndex]
  have hdrop := drop_split it.path isNumeric it.position
  have hle := takeWhile_len_le it.path isNumeric it.position hb
  have hslice := slice_takeWhile it.path isNumeric it.position
  cases hd : (it.path.drop it.position).dropWhile isNumeric with
  | nil =>
    rw [hd] at hdrop
    simp only []
    have hend : it.position + ((it.path.drop it.position).takeWhile isNumeric).length = it.path.length := by
      have := List.drop_eq_nil_iff.1 hdrop
      omega
    rw [if_pos (by rw [hend]; simp)]
    exact .bad rfl
  | cons c r' =>
    rw [hd] at hdrop
    have hget := getElem?_of_drop hdrop
    have hdrop' := drop_succ_of_drop hdrop
    have hlt := (List.getElem?_eq_some_iff.1 hget).1
    simp only []
    by_cases hc : c = chClose
    · subst hc
      simp only [beq_self_eq_true, Bool.not_true, hget, ne_eq, not_true_eq_false, if_false]
      have hascii : chClose < 0x80 := by decide
      have hsl : strSlice it.path it.position
          (it.position + ((it.path.drop it.position).takeWhile isNumeric).length) =
          .ok ((it.path.drop it.position).takeWhile isNumeric) := by
        unfold strSlice
        rw [if_pos ⟨by omega, by omega, hbd, boundary_ascii hget hascii⟩, hslice]
      simp only [hsl, if_true]
      have hb' := boundary_after_ascii hu hget hascii
      by_cases he : (it.path.drop it.position).takeWhile isNumeric = []
      · rw [if_pos he, he]
        exact .bad rfl
      · rw [if_neg he]
        cases parseUsize cfg ((it.path.drop it.position).takeWhile isNumeric) with
        | none => exact .bad rfl
        | some i => exact .tok rfl rfl hdrop' ⟨hu, by simp only []; omega, hb'⟩
    · have : (!(c == chClose)) = true := by simpa using hc
      rw [this, if_neg hc]
      exact .bad rfl

theorem nextExpectingName_agrees (it : PathIter) (h : PathInv it) :
    Agrees it.path (absExpect (it.path.drop it.position)) (nextExpectingName it) := by
  unfold nextExpectingName
  cases hd : it.path.drop it.position with
  | nil =>
    have hlen := List.drop_eq_nil_iff.1 hd
    rw [show it.path[it.position]? = none by simpa using hlen]
    exact .bad rfl
  | cons c r =>
    rw [getElem?_of_drop hd]
    simp only [absExpect]
    by_cases hs : startByte c = true
    · rw [if_pos hs, if_pos (by simpa [startByte] using hs), ← hd]
      exact parseName_agrees { it with state := .insideName } ⟨h.utf8, h.bound, h.boundary⟩
    · rw [if_neg hs, if_neg (by simpa [startByte] using hs)]
      exact .bad rfl

theorem next_agrees (cfg : Cfg) (it : PathIter) (h : PathInv it) :
    Agrees it.path (absNext cfg it.state (it.path.drop it.position)) (it.next cfg) := by
  unfold PathIter.next
  by_cases hde : it.state = .done ∨ it.state = .error
  · rw [if_pos hde]
    rcases hde with hs | hs <;> rw [hs] <;> simp only [absNext]
    · exact .stop (.inl hs)
    · exact .stop (.inr hs)
  · rw [if_neg hde]
    simp only [not_or] at hde
    cases hd : it.path.drop it.position with
    | nil =>
      have hlen := List.drop_eq_nil_iff.1 hd
      rw [show it.path[it.position]? = none by simpa using hlen]
      have : absNext cfg it.state [] = .stop := by cases it.state <;> simp [absNext]
      rw [this]
      exact .stop (.inl rfl)
    | cons c r =>
      have hget := getElem?_of_drop hd
      have hdrop' := drop_succ_of_drop hd
      have hlt := (List.getElem?_eq_some_iff.1 hget).1
      have hopen : c = chOpen →
          Agrees it.path (absIndex cfg r)
            (parseIndex cfg { it with position := it.position + 1, state := .insideIndex }) := by
        intro hc
        have := parseIndex_agrees cfg { it with position := it.position + 1, state := .insideIndex }
          ⟨h.utf8, by simp only []; omega,
            boundary_after_ascii h.utf8 hget (by subst hc; decide)⟩
        simp only [hdrop'] at this
        exact this
      rw [hget]
      simp only []
      cases hs : it.state with
      | start =>
        simp only [absNext, beq_iff_eq]
        by_cases hc : c = chOpen
        · rw [if_pos hc, if_pos hc]; exact hopen hc
        · rw [if_neg hc, if_neg hc]
          by_cases hst : startByte c = true
          · rw [if_pos hst, if_pos (by simpa [startByte] using hst), ← hd]
            exact parseName_agrees { it with state := .insideName } ⟨h.utf8, h.bound, h.boundary⟩
          · rw [if_neg hst, if_neg (by simpa [startByte] using hst)]
            exact .bad rfl
      | insideName => simp only [absNext]; rw [← hd]; exact parseName_agrees it h
      | insideIndex => simp only [absNext]; rw [← hd]; exact parseIndex_agrees cfg it h
      | afterIndex =>
        simp only [absNext, beq_iff_eq]
        by_cases hc : c = chOpen
        · rw [if_pos hc, if_pos hc]; exact hopen hc
        · rw [if_neg hc, if_neg hc]
          by_cases hdot : c = chDot
          · rw [if_pos hdot, if_pos hdot]
            cases r with
            | nil =>
              have : ¬ it.position + 1 < it.path.length := by
                have := List.drop_eq_nil_iff.1 hdrop'
                omega
              rw [if_neg this]; exact .stop (.inl rfl)
            | cons c' r' =>
              have : it.position + 1 < it.path.length := by
                have := (List.getElem?_eq_some_iff.1 (getElem?_of_drop hdrop')).1
                omega
              rw [if_pos this]
              have := nextExpectingName_agrees
                { it with position := it.position + 1, state := .expectingName }
                ⟨h.utf8, by simp only []; omega,
                  boundary_after_ascii h.utf8 hget (by subst hdot; decide)⟩
              simp only [hdrop'] at this
              exact this
          · rw [if_neg hdot, if_neg hdot]; exact .bad rfl
      | expectingName => simp only [absNext]; rw [← hd]; exact nextExpectingName_agrees it h
      | done => exact absurd hs hde.1
      | error => exact absurd hs hde.2

end Btf

import Verif.Proofs.PathRun

/-!
# Properties C24, C25, C26, C50: path syntax

Paths are arbitrary Rust `&str`s: `str s` is the UTF-8 encoding of an arbitrary string `s` of Unicode
scalar values. The corresponding statements about `offset_of` itself are in `Props/OffsetOf.lean`.
-/

namespace Btf.Props

open Btf Spec

/-- C24: the exact language of the path parser. Iterating over a path gives the components `cs` and
then ends without error iff the path is written in the documented syntax with components `cs`, up to
one dangling `.` or `[`. -/
theorem path_language (cfg : Cfg) (s : String) (cs : List PathComponent) :
    Yields cfg (PathIter.new (str s)) cs true ↔ AcceptedPath cfg.usizeMod (str s) cs :=
  yields_iff cfg (utf8Like_str s) cs

/-- C24: any other path is rejected: iteration ends with an error, after finitely many components. -/
theorem path_rejected (cfg : Cfg) (s : String) :
    (∃ cs, AcceptedPath cfg.usizeMod (str s) cs) ∨ (∃ cs, Yields cfg (PathIter.new (str s)) cs false) := by
  obtain ⟨cs, b, h⟩ := yields_total cfg (utf8Like_str s)
  cases b with
  | true => exact .inl ⟨cs, (path_language cfg s cs).1 h⟩
  | false => exact .inr ⟨cs, h⟩

/-- C24 (partial): on paths that do not end in `.` or `[` the parser accepts exactly the documented
syntax. What is missing is refuted by `path_dangling_dot_accepted` and `path_dangling_open_accepted`. -/
theorem path_language_partial (cfg : Cfg) (s : String) (cs : List PathComponent)
    (h46 : (str s).getLast? ≠ some 46) (h91 : (str s).getLast? ≠ some 91) :
    Yields cfg (PathIter.new (str s)) cs true ↔ Path cfg.usizeMod (str s) cs := by
  rw [path_language]
  constructor
  · intro h
    generalize str s = p at h h46 h91
    cases h with
    | strict h => exact h
    | danglingDot h _ => simp at h46
    | danglingOpen h _ => simp at h91
  · exact .strict

theorem parts_start {limit : Nat} {p : Str} {cs} (h : Parts limit p cs) :
    p = [] ∨ (∃ r, p = 46 :: r) ∨ (∃ r, p = 91 :: r) := by
  cases h with
  | nil => exact .inl rfl
  | name => exact .inr (.inl ⟨_, rfl⟩)
  | index => exact .inr (.inr ⟨_, rfl⟩)

theorem parts_getLast {limit : Nat} {p : Str} {cs} (h : Parts limit p cs) :
    p.getLast? ≠ some 46 ∧ p.getLast? ≠ some 91 := by
  induction h with
  | nil => simp
  | @name n rest cs hn _ ih =>
    rw [List.getLast?_append]
    cases hr : rest.getLast? with
    | some x => rw [hr] at ih; simpa using ih
    | none =>
      have h : ∀ c ∈ n, c ≠ 46 ∧ c ≠ 91 := by
        intro c hc
        have := isName_nameByte hn c hc
        constructor <;> (rintro rfl; revert this; decide)
      have hne : n ≠ [] := by cases hn; simp
      rw [List.getLast?_append]
      obtain ⟨x, hx⟩ := Option.ne_none_iff_exists'.1 (mt List.getLast?_eq_none_iff.1 hne)
      have := h x (List.mem_of_getLast? hx)
      simp [hx, this.1, this.2]
  | @index ds rest i cs _ _ ih =>
    rw [List.getLast?_append]
    cases hr : rest.getLast? with
    | some x => rw [hr] at ih; simpa using ih
    | none => rw [List.getLast?_append]; simp

theorem path_getLast {limit : Nat} {p : Str} {cs} (h : Path limit p cs) :
    p.getLast? ≠ some 46 ∧ p.getLast? ≠ some 91 := by
  cases h with
  | empty => simp
  | name hn hp =>
    have h := parts_getLast (Parts.name hn hp)
    cases hn with
    | mk b r _ _ =>
      simpa only [List.cons_append, List.nil_append, List.getLast?_cons_cons] using h
  | index hi hp => exact parts_getLast (Parts.index hi hp)

/-- C24/C50 refuted: whenever a non-empty path `p` is accepted, so is `p.` — with the same components —
although `p.` is not in the documented syntax. -/
theorem path_dangling_dot_accepted (cfg : Cfg) (s : String) (cs : List PathComponent) (hne : cs ≠ [])
    (h : Path cfg.usizeMod (str s) cs) :
    Yields cfg (PathIter.new (str (s ++ "."))) cs true ∧ ¬ ∃ cs', Path cfg.usizeMod (str (s ++ ".")) cs' := by
  have he : str (s ++ ".") = str s ++ [46] := by
    simp [str, List.flatMap_append]; decide
  constructor
  · rw [path_language, he]; exact .danglingDot h hne
  · rw [he]; rintro ⟨cs', h'⟩
    exact (path_getLast h').1 (by simp)

/-- C24/C50 refuted: whenever a path that ends in a name is accepted, so is the path followed by `[`. -/
theorem path_dangling_open_accepted (cfg : Cfg) (s : String) (cs : List PathComponent) (n : Str)
    (hn : cs.getLast? = some (.name n)) (h : Path cfg.usizeMod (str s) cs) :
    Yields cfg (PathIter.new (str (s ++ "["))) cs true ∧ ¬ ∃ cs', Path cfg.usizeMod (str (s ++ "[")) cs' := by
  have he : str (s ++ "[") = str s ++ [91] := by
    simp [str, List.flatMap_append]; decide
  constructor
  · rw [path_language, he]; exact .danglingOpen h hn
  · rw [he]; rintro ⟨cs', h'⟩
    exact (path_getLast h').2 (by simp)

/-- C50 (partial): if iteration ends without error, everything but at most one trailing separator
character was consumed as components and separators. -/
theorem path_consumed_partial (cfg : Cfg) (s : String) (cs : List PathComponent)
    (h : Yields cfg (PathIter.new (str s)) cs true) :
    ∃ p tail, str s = p ++ tail ∧ Path cfg.usizeMod p cs ∧ (tail = [] ∨ tail = [46] ∨ tail = [91]) := by
  have h := (path_language cfg s cs).1 h
  generalize str s = q at h
  cases h with
  | strict h => exact ⟨_, [], by simp, h, .inl rfl⟩
  | danglingDot h _ => exact ⟨_, [46], rfl, h, .inr (.inl rfl)⟩
  | danglingOpen h _ => exact ⟨_, [91], rfl, h, .inr (.inr rfl)⟩

/-- The iterators obtained from `it` by any number of calls of `next` (also after the end or an
error). -/
inductive Reached (cfg : Cfg) (it : PathIter) : PathIter → Prop where
  | refl : Reached cfg it it
  | step {it'} : Reached cfg it it' → Reached cfg it (it'.next cfg).2

/-- C25: however often `next` is called on a path, it never panics (no slice inside a character, no
index out of bounds), and every failure is `InvalidTypePath`. -/
theorem path_never_panics (cfg : Cfg) (s : String) (it : PathIter)
    (h : Reached cfg (PathIter.new (str s)) it) :
    (∃ r, (it.next cfg).1 = .ok r) ∨ (it.next cfg).1 = .err .InvalidTypePath := by
  have key : PathInv it ∨ (it.state = .done ∨ it.state = .error) := by
    induction h with
    | refl => exact .inl (pathInv_new (utf8Like_str s))
    | step _ ih =>
      rcases ih with ih | ih
      · rcases next_outcome cfg _ ih with ⟨c, it', h, h'⟩ | ⟨it', h, h'⟩ | ⟨it', h, h'⟩
        · rw [h]; exact .inl h'
        · rw [h]; exact .inr h'
        · rw [h]; exact .inr h'
      · rw [next_ended cfg _ ih]; exact .inr ih
  rcases key with hk | hk
  · rcases next_outcome cfg _ hk with ⟨c, it', h, -⟩ | ⟨it', h, -⟩ | ⟨it', h, -⟩
    · exact .inl ⟨_, by rw [h]⟩
    · exact .inl ⟨_, by rw [h]⟩
    · exact .inr (by rw [h])
  · exact .inl ⟨_, by rw [next_ended cfg _ hk]⟩

/-- What is reached from an iterator that has been reached. -/
theorem reached_inv {cfg : Cfg} {s : String} {it : PathIter} (h : Reached cfg (PathIter.new (str s)) it) :
    PathInv it ∨ (it.state = .done ∨ it.state = .error) := by
  induction h with
  | refl => exact .inl (pathInv_new (utf8Like_str s))
  | step _ ih =>
    rcases ih with ih | ih
    · rcases next_outcome cfg _ ih with ⟨c, it', h, h'⟩ | ⟨it', h, h'⟩ | ⟨it', h, h'⟩
      · rw [h]; exact .inl h'
      · rw [h]; exact .inr h'
      · rw [h]; exact .inr h'
    · rw [next_ended cfg _ ih]; exact .inr ih

theorem reached_ended {cfg : Cfg} {it it' : PathIter} (h : it.state = .done ∨ it.state = .error)
    (hr : Reached cfg it it') : it'.state = .done ∨ it'.state = .error := by
  induction hr with
  | refl => exact h
  | step _ ih => rw [next_ended cfg _ ih]; exact ih

/-- C97: the iterator is fused: once it has said that there is nothing more, or has reported an error,
every later call of `next` says that there is nothing more; in particular an error is reported at most
once. -/
theorem path_fused (cfg : Cfg) (s : String) (it it' : PathIter)
    (h : Reached cfg (PathIter.new (str s)) it)
    (hend : (it.next cfg).1 = .ok none ∨ ∃ e, (it.next cfg).1 = .err e)
    (h' : Reached cfg (it.next cfg).2 it') : (it'.next cfg).1 = .ok none := by
  have hs : (it.next cfg).2.state = .done ∨ (it.next cfg).2.state = .error := by
    rcases reached_inv h with hk | hk
    · rcases next_outcome cfg _ hk with ⟨c, it₂, h, -⟩ | ⟨it₂, h, h₂⟩ | ⟨it₂, h, h₂⟩
      · rw [h] at hend; rcases hend with hend | ⟨e, hend⟩ <;> cases hend
      · rw [h]; exact h₂
      · rw [h]; exact h₂
    · rw [next_ended cfg _ hk]; exact hk
  rw [next_ended cfg _ (reached_ended hs h')]

theorem absToks_length {cfg : Cfg} {st : PathState} {r : Str} {cs b} (h : AbsToks cfg st r cs b)
    (hst : st ≠ .insideName) : cs.length ≤ r.length := by
  induction h with
  | stop => simp
  | bad => simp
  | tok h _ ih =>
    have hp := absNext_progress hst h
    have := ih hp.2
    simp; omega

/-- C97: iterating over a path always comes to an end, and gives at most as many components as the path
has bytes. -/
theorem path_ends (cfg : Cfg) (s : String) :
    ∃ cs b, Yields cfg (PathIter.new (str s)) cs b ∧ cs.length ≤ (str s).length := by
  obtain ⟨cs, b, h⟩ := absToks_total cfg _ .start (str s) (Nat.le_refl _) (by decide)
  refine ⟨cs, b, yields_of_absToks h _ (pathInv_new (utf8Like_str s)) rfl (by simp [PathIter.new]),
    absToks_length h (by decide)⟩

theorem split_at_close {ds ds' : Str} {r : Str} (h : (93 : UInt8) ∉ ds) (h' : (93 : UInt8) ∉ ds')
    (he : ds ++ [93] = ds' ++ 93 :: r) : ds = ds' ∧ r = [] := by
  induction ds generalizing ds' with
  | nil =>
    cases ds' with
    | nil => simpa using he
    | cons x xs => simp at he
  | cons y ys ih =>
    cases ds' with
    | nil => simp at he h; exact absurd he.1.symm h.1
    | cons x xs =>
      simp at he h h'
      obtain ⟨rfl, hr⟩ := ih h.2 h'.2 he.2
      exact ⟨by rw [he.1], hr⟩

/-- C26: the text between `[` and `]` is accepted exactly when it is a non-empty sequence of ASCII
digits whose decimal value fits in `usize`, and then the component is that value; any other text makes
the path fail with `InvalidTypePath`. -/
theorem index_literal (cfg : Cfg) (s : String) (hs : (93 : UInt8) ∉ str s) :
    (∀ i, ((PathIter.new ([91] ++ str s ++ [93])).next cfg).1 = .ok (some (.index i)) ↔
        IsIndex cfg.usizeMod (str s) i) ∧
    ((¬ ∃ i, IsIndex cfg.usizeMod (str s) i) →
        ((PathIter.new ([91] ++ str s ++ [93])).next cfg).1 = .err .InvalidTypePath) := by
  have hu : Utf8Like ([91] ++ str s ++ [93]) := by
    have h1 : Utf8Like [91] := utf8Like_char '['
    have h2 : Utf8Like [93] := utf8Like_char ']'
    exact utf8Like_append (utf8Like_append h1 (utf8Like_str s)) h2
  have hn := next_agrees cfg (PathIter.new ([91] ++ str s ++ [93])) (pathInv_new hu)
  have he : absNext cfg (PathIter.new ([91] ++ str s ++ [93])).state
      ((PathIter.new ([91] ++ str s ++ [93])).path.drop (PathIter.new ([91] ++ str s ++ [93])).position) =
      absIndex cfg (str s ++ [93]) := by
    simp [PathIter.new, absNext, show chOpen = 91 from rfl]
  rw [he] at hn
  generalize hx : (PathIter.new ([91] ++ str s ++ [93])).next cfg = x at hn
  cases ha : absIndex cfg (str s ++ [93]) with
  | stop => exact absurd ha (absIndex_ne_stop _ _)
  | bad =>
    rw [ha] at hn; cases hn
    have hno : ¬ ∃ i, IsIndex cfg.usizeMod (str s) i := by
      rintro ⟨i, hi⟩
      have := absIndex_index (r := []) hi
      rw [show chClose = (93 : UInt8) from rfl, ha] at this; cases this
    exact ⟨fun i => ⟨fun h => (nomatch h), fun h => absurd ⟨i, h⟩ hno⟩, fun _ => rfl⟩
  | tok t st r =>
    rw [ha] at hn; cases hn
    obtain ⟨ds, i, hi, rfl, rfl, hr⟩ := absIndex_tok ha
    have hds : (93 : UInt8) ∉ ds := by
      intro h; have := hi.digits _ h; simp [Digit] at this
    obtain ⟨rfl, rfl⟩ := split_at_close hs hds hr
    refine ⟨fun j => ?_, fun h => absurd ⟨i, hi⟩ h⟩
    simp only [Res.ok.injEq, Option.some.injEq, PathComponent.index.injEq]
    constructor
    · rintro rfl; exact hi
    · intro hj; rw [← hi.value, hj.value]

/-! ### Concrete cases -/

private def dbg : Cfg := ⟨.w64, true⟩

/-- `"a.b[3]"` is in the documented syntax, so the hypotheses of the theorems above are met. -/
theorem sample_path : Path dbg.usizeMod (str "a.b[3]") [.name (str "a"), .name (str "b"), .index 3] := by
  have h3 : IsIndex dbg.usizeMod (str "3") 3 :=
    ⟨by decide, by simp [str, Digit, String.utf8EncodeChar], by decide, by decide⟩
  have hb : IsName (str "b") := .mk 98 [] (by simp [NameStart, Letter]) (by simp)
  have ha : IsName (str "a") := .mk 97 [] (by simp [NameStart, Letter]) (by simp)
  exact Path.name (rest := [46] ++ str "b" ++ ([91] ++ str "3" ++ [93] ++ [])) ha
    (.name hb (.index h3 .nil))

example : Yields dbg (PathIter.new (str "a.b[3]")) [.name (str "a"), .name (str "b"), .index 3] true :=
  (path_language dbg "a.b[3]" _).2 (.strict sample_path)
example : Yields dbg (PathIter.new (str "a.b[3].")) [.name (str "a"), .name (str "b"), .index 3] true :=
  (path_dangling_dot_accepted dbg "a.b[3]" _ (by simp) sample_path).1
example : ((PathIter.new (str "[18446744073709551616]")).next dbg).1 = .err .InvalidTypePath := by
  decide +kernel
example : ((PathIter.new (str "[18446744073709551615]")).next dbg).1 =
    .ok (some (.index 18446744073709551615)) := by decide +kernel
example : ((PathIter.new (str "é")).next dbg).1 = .err .InvalidTypePath := by decide +kernel

/-- `path_fused`: after the component of `a.` the iterator ends (the dangling `.` is lost), and whatever is
called afterwards, it stays ended; after the error of `a..b` it also stays ended, although `b` is left. -/
example (it : PathIter)
    (h : Reached dbg (((PathIter.new (str "a.")).next dbg).2.next dbg).2 it) : (it.next dbg).1 = .ok none :=
  path_fused dbg "a." _ it (.step .refl) (.inl (by decide +kernel)) h
example (it : PathIter)
    (h : Reached dbg (((PathIter.new (str "a..b")).next dbg).2.next dbg).2 it) : (it.next dbg).1 = .ok none :=
  path_fused dbg "a..b" _ it (.step .refl) (.inr ⟨.InvalidTypePath, by decide +kernel⟩) h
/-- `path_ends` on a path of 6 bytes with 3 components. -/
example : ∃ cs b, Yields dbg (PathIter.new (str "a.b[3]")) cs b ∧ cs.length ≤ 6 :=
  path_ends dbg "a.b[3]"

end Btf.Props

import Verif.Proofs.OffsetWF
import Verif.Spec.Join

/-!
# From path strings to components
-/

namespace Btf

open Spec TypeInformation Props

theorem parts_append {limit : Nat} {p q : Str} {cs ds : List PathComponent} (h : Parts limit p cs)
    (h' : Parts limit q ds) : Parts limit (p ++ q) (cs ++ ds) := by
  induction h with
  | nil => exact h'
  | name hn _ ih =>
    rw [List.append_assoc]
    exact .name hn ih
  | index hi _ ih =>
    rw [List.append_assoc]
    exact .index hi ih

theorem path_join {limit : Nat} {p q : Str} {cs ds : List PathComponent} (h : Path limit p cs)
    (h' : Path limit q ds) : Path limit (join p q) (cs ++ ds) := by
  have hq : q = [] ∧ ds = [] ∨ ∃ c r, q = c :: r ∧ Parts limit (if c = 91 then q else [46] ++ q) ds := by
    cases h' with
    | empty => exact .inl ⟨rfl, rfl⟩
    | @name n rest ds hn hp =>
      right
      cases hn with
      | mk b r hb hr =>
        refine ⟨b, r ++ rest, rfl, ?_⟩
        have : b ≠ 91 := by
          rintro rfl
          simp [NameStart, Letter] at hb
        rw [if_neg this]
        have := Parts.name (IsName.mk b r hb hr) hp
        simpa using this
    | @index d rest i ds hi hp =>
      right
      refine ⟨91, d ++ [93] ++ rest, by simp, ?_⟩
      simp only [if_true]
      exact .index hi hp
  have hjoin : ∀ c r, q = c :: r → p ≠ [] → join p q = p ++ (if c = 91 then q else [46] ++ q) := by
    rintro c r rfl hne
    simp only [join, if_neg hne]
    split <;> simp
  rcases hq with ⟨rfl, rfl⟩ | ⟨c, r, hqc, hparts⟩
  · simp only [List.append_nil]
    have : join p [] = p := by unfold join; split <;> simp_all
    rw [this]; exact h
  · cases h with
    | empty => simpa [join] using h'
    | @name n rest cs hn hp =>
      have hne : n ++ rest ≠ [] := by cases hn; simp
      rw [hjoin c r hqc hne, List.append_assoc]
      exact .name hn (parts_append hp hparts)
    | @index d rest i cs hi hp =>
      have hne : [91] ++ d ++ [93] ++ rest ≠ [] := by simp
      rw [hjoin c r hqc hne, List.append_assoc]
      exact .index hi (parts_append hp hparts)

theorem utf8Like_join {p q : Str} (hp : Utf8Like p) (hq : Utf8Like q) : Utf8Like (join p q) := by
  unfold join
  split
  · exact hq
  · split
    · exact hp
    · split
      · exact utf8Like_append hp hq
      · exact utf8Like_append (utf8Like_append hp (utf8Like_char '.')) hq

theorem accepted_empty {limit : Nat} {p : Str} (h : AcceptedPath limit p []) : p = [] := by
  cases h with
  | strict h => cases h; rfl
  | danglingDot _ h => exact absurd rfl h
  | danglingOpen _ h => cases h

theorem accepted_nil (limit : Nat) : AcceptedPath limit [] [] := .strict .empty

theorem accepted_unique {cfg : Cfg} {p : Str} (hp : Utf8Like p) {cs ds : List PathComponent}
    (h : AcceptedPath cfg.usizeMod p cs) (h' : AcceptedPath cfg.usizeMod p ds) : cs = ds :=
  (yields_det ((yields_iff cfg hp cs).2 h) ((yields_iff cfg hp ds).2 h')).1

/-- What `offset_of` does with an accepted path. -/
theorem returns_iff {cfg : Cfg} {ti : TypeInformation} {t : UInt32} {p : Str} {cs : List PathComponent}
    (hp : Utf8Like p) (h : AcceptedPath cfg.usizeMod p cs) {o : Outcome (UInt32 × Offset)} :
    Returns (fun k => offsetOf cfg ti k t p) o ↔
      o ≠ .nofuel ∧ Ev (fun n => impl cfg ti true n (byteAt 0) t cs) o := by
  have he : (fun k => offsetOf cfg ti k t p) = fun n => impl cfg ti true n (byteAt 0) t cs :=
    funext (offsetOf_eq_of_accepted cfg ti t hp h)
  rw [he]
  constructor
  · intro h; exact ⟨h.1, ev_of_returns (impl_fuelMono cfg ti true _ t cs) h⟩
  · rintro ⟨hne, h⟩; exact returns_of_ev hne h

/-- What `offset_of` does with any path: either the path is accepted, or it has a prefix of components
followed by a syntax error. -/
theorem offsetOf_cases (cfg : Cfg) (ti : TypeInformation) (t : UInt32) {p : Str} (hp : Utf8Like p) :
    ∃ cs b, (b = true → AcceptedPath cfg.usizeMod p cs) ∧ Yields cfg (PathIter.new p) cs b ∧
      (fun k => offsetOf cfg ti k t p) = fun n => impl cfg ti b n (byteAt 0) t cs := by
  obtain ⟨cs, b, hy, h⟩ := offsetOf_eq cfg ti t hp
  refine ⟨cs, b, ?_, hy, funext h⟩
  rintro rfl
  exact (yields_iff cfg hp cs).1 hy

theorem offsetOf_mono (cfg : Cfg) (ti : TypeInformation) (t : UInt32) {p : Str} (hp : Utf8Like p) :
    FuelMono (fun k => offsetOf cfg ti k t p) := by
  obtain ⟨cs, b, -, -, he⟩ := offsetOf_cases cfg ti t hp
  rw [he]; exact impl_fuelMono _ _ _ _ _ _

/-- A successful `offset_of` was given an accepted path. -/
theorem accepted_of_ok {cfg : Cfg} {ti : TypeInformation} {t : UInt32} {p : Str} (hp : Utf8Like p)
    {r : UInt32 × Offset} (h : Returns (fun k => offsetOf cfg ti k t p) (.ok r)) :
    ∃ cs, AcceptedPath cfg.usizeMod p cs ∧ Ev (fun n => impl cfg ti true n (byteAt 0) t cs) (.ok r) := by
  obtain ⟨cs, b, hb, -, he⟩ := offsetOf_cases cfg ti t hp
  cases b with
  | true => exact ⟨cs, hb rfl, ((returns_iff hp (hb rfl)).1 h).2⟩
  | false =>
    rw [he] at h
    obtain ⟨-, n, h⟩ := h
    exact absurd h impl_unclean

end Btf

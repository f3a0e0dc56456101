import Verif.Proofs.ObstacleText
import Verif.Props.Message
import Verif.Props.Search

/-!
# Property C91: which error `offset_of` reports
-/

namespace Btf.Props

open Btf Spec TypeInformation Samples

/-- **C91.** A text breaks off somewhere exactly if it has a flaw there. -/
theorem flaw_breaks (cfg : Cfg) (s : String) (cs : List PathComponent) :
    (∃ r, Flaw cfg.usizeMod (str s) cs r) ↔ Breaks cfg.usizeMod (str s) cs := by
  have hu := utf8Like_str s
  rw [← breaks_iff cfg hu]
  constructor
  · rintro ⟨r, h⟩
    exact yields_of_yieldsT ((flaw_iff hu).1 h)
  · intro h
    obtain ⟨x, h1, h2⟩ := yieldsT_of_yields h
    cases x with
    | none => have := h2.1 rfl; cases this
    | some r => exact ⟨r, (flaw_iff hu).2 h1⟩

/-- **C91.** A text that is not a path has exactly one flaw, and a path has none. -/
theorem flaw_unique (cfg : Cfg) (s : String) :
    ((∃ cs, AcceptedPath cfg.usizeMod (str s) cs) → ∀ cs r, ¬ Flaw cfg.usizeMod (str s) cs r) ∧
    ((∀ cs, ¬ AcceptedPath cfg.usizeMod (str s) cs) → ∃ cs r, ∀ cs' r', Flaw cfg.usizeMod (str s) cs' r' ↔ cs' = cs ∧ r' = r) := by
  constructor
  · rintro ⟨cs, h⟩ cs' r hf
    exact ((flaw_breaks cfg s cs').1 ⟨r, hf⟩).2.2 cs h
  · intro hn
    rcases path_or_breaks cfg s with ⟨cs, h⟩ | ⟨cs, h⟩
    · exact absurd h (hn cs)
    · obtain ⟨r, hr⟩ := (flaw_breaks cfg s cs).2 h
      refine ⟨cs, r, fun cs' r' => ⟨fun h' => ?_, ?_⟩⟩
      · obtain rfl := breaks_unique cfg s _ _ ((flaw_breaks cfg s cs').1 ⟨r', h'⟩) h
        exact ⟨rfl, flaw_same h' hr⟩
      · rintro ⟨rfl, rfl⟩; exact hr

theorem first_obstacle {cfg : Cfg} {ti : TypeInformation} {t : UInt32} {s : String} {cs : List PathComponent}
    {x : Option Reason} {r : Reason} (hy : YieldsT cfg (PathIter.new (str s)) cs x) :
    (∃ n, offsetOfT cfg ti n t (str s) = .err r) ↔
      (∃ k, OffsetOf cfg ti t (str s) (.err k)) ∧ Obstacle cfg ti x ⟨t, 0, none⟩ cs r := by
  constructor
  · rintro ⟨n, h⟩
    refine ⟨⟨r.kind, by simp, n, ?_⟩, obstacle_of_err (offset := .byteOffset 0) hy h⟩
    show offsetOf cfg ti n t (str s) = _
    rw [← (told_same cfg ti n t (str s)).1, h]
    rfl
  · rintro ⟨⟨k, -, n, h⟩, ho⟩
    change offsetOf cfg ti n t (str s) = _ at h
    rw [← (told_same cfg ti n t (str s)).1] at h
    cases hT : offsetOfT cfg ti n t (str s) with
    | err r' =>
      have := obstacle_of_err (offset := .byteOffset 0) hy hT
      exact ⟨n, by rw [obstacle_unique ho this, hT]⟩
    | _ => rw [hT] at h; cases h

/-- **C91.** With a path, the reason `offset_of` gives for an error is the first obstacle. -/
theorem offset_of_first (cfg : Cfg) (ti : TypeInformation) (t : UInt32) (s : String) (cs : List PathComponent) (r : Reason)
    (hp : AcceptedPath cfg.usizeMod (str s) cs) :
    (∃ n, offsetOfT cfg ti n t (str s) = .err r) ↔
      (∃ k, OffsetOf cfg ti t (str s) (.err k)) ∧ Obstacle cfg ti none ⟨t, 0, none⟩ cs r := by
  obtain ⟨x, h1, h2⟩ := yieldsT_of_yields ((yields_iff cfg (utf8Like_str s) cs).2 hp)
  rw [h2.2 rfl] at h1
  exact first_obstacle h1

/-- **C91.** With a text that is not a path, the reason is the first obstacle, or else the flaw of the text. -/
theorem offset_of_first_flaw (cfg : Cfg) (ti : TypeInformation) (t : UInt32) (s : String) (cs : List PathComponent) (x r : Reason)
    (hp : Flaw cfg.usizeMod (str s) cs x) :
    (∃ n, offsetOfT cfg ti n t (str s) = .err r) ↔
      (∃ k, OffsetOf cfg ti t (str s) (.err k)) ∧ Obstacle cfg ti (some x) ⟨t, 0, none⟩ cs r :=
  first_obstacle ((flaw_iff (utf8Like_str s)).1 hp)

/-- **C91.** There is only one first obstacle. -/
theorem first_obstacle_unique (cfg : Cfg) (ti : TypeInformation) (flaw : Option Reason) (p : Place) (cs : List PathComponent)
    (r r' : Reason) (h : Obstacle cfg ti flaw p cs r) (h' : Obstacle cfg ti flaw p cs r') : r = r' := obstacle_unique h h'

/-! ### Without unnamed members -/

theorem after_of_summable {a b : Offset} (h : Summable (bitPos a) (bitWidth a) (bitPos b) (bitWidth b)) :
    ∃ c, After a b c ∧ bitPos c = bitPos a + bitPos b ∧ bitWidth c = bitWidth b := by
  rcases after_or a b with ⟨c, hc⟩ | ⟨e, he⟩
  · exact ⟨c, hc, hc.2.2, hc.2.1⟩
  · rw [notAfter_iff, ← addT_outcome] at he
    cases hT : a.addT b with
    | err r => exact absurd (addT_err_iff.1 hT) (h r)
    | _ => rw [hT] at he; cases he

theorem notAfter_of_reason {a b : Offset} {r : Reason} (h : AddReason (bitPos a) (bitWidth a) (bitPos b) (bitWidth b) r) :
    NotAfter a b r.kind := by
  rw [notAfter_iff, ← addT_outcome, addT_err_iff.2 h]
  rfl

theorem bitPos_element {k : Nat} (h : k < 2 ^ 32) : bitPos (.byteOffset (UInt32.ofNat k)) = 8 * k := by
  simp only [bitPos, UInt32.toNat_ofNat']
  rw [Nat.mod_eq_of_lt h]

theorem size_returns {cfg : Cfg} {ti : TypeInformation} {t : UInt32} {r : Reason} (h : SizeReason ti t r) :
    Returns (fun k => TypeInformation.sizeOf cfg ti k t) (.err r.kind) := by
  obtain ⟨k, hk⟩ := (sizeOfT_err_iff (cfg := cfg)).2 h
  refine ⟨by simp, k, ?_⟩
  show TypeInformation.sizeOf cfg ti k t = _
  rw [← sizeOfT_outcome, hk]; rfl

theorem search_of_obstacle {cfg : Cfg} {ti : TypeInformation} (hu : NoUnnamed ti) {flaw : Option Reason}
    (hk : ∀ r, flaw = some r → r.kind = .InvalidTypePath) {p : Place} {cs : List PathComponent} {r : Reason}
    (h : Obstacle cfg ti flaw p cs r) : ∀ {o : Offset}, p.bits = bitPos o → p.width = bitWidth o →
      Search cfg ti flaw.isNone p.type o cs (.err r.kind) := by
  have named : ∀ {t v ms}, Resolves ti t v → membersOf v = some ms → ∀ m ∈ ms, m.name ≠ none := by
    rintro t v ms ⟨a, _, ha, _⟩ hm
    exact hu a v ms ha hm
  have vac1 : ∀ {t v ms o}, Resolves ti t v → membersOf v = some ms → ∀ a ∈ ms, a.name = none → After a.offset o ((fun _ => o) a) :=
    fun hv hm a ha hn => absurd hn (named hv hm a ha)
  have vac2 : ∀ {t v ms o cs}, Resolves ti t v → membersOf v = some ms → ∀ a ∈ ms, a.name = none →
      Search cfg ti flaw.isNone a.tid ((fun _ => o) a) cs (.err ((fun _ => ErrorKind.InvalidTypePath) a)) :=
    fun hv hm a ha hn => absurd hn (named hv hm a ha)
  induction h with
  | text h =>
    intro o _ _
    rw [hk _ h]
    exact .broken (by rw [h]; rfl)
  | unnamed h1 h2 h3 h4 => exact absurd h4 (named h1 h2 _ (by simp))
  | element h1 h2 h3 h4 h5 _ ih =>
    intro o e1 e2
    rw [e1, e2] at h5
    rw [← bitPos_element h4] at h5
    obtain ⟨c, hc, hc1, hc2⟩ := after_of_summable (b := .byteOffset _) h5
    refine .element h1 h2 h3 h4 hc (ih ?_ ?_)
    · show _ = bitPos c
      rw [hc1, e1, bitPos_element h4]
    · rw [hc2]; rfl
  | member h1 h2 h3 h4 h5 h6 _ ih =>
    intro o e1 e2
    rw [e1, e2] at h6
    obtain ⟨c, hc, hc1, hc2⟩ := after_of_summable h6
    exact .named _ _ h1 h2 (vac1 h1 h2) (vac2 h1 h2) h4 h5 hc (ih (by rw [hc1, e1]) hc2.symm)
  | @component p c cs r hf he =>
    intro o e1 e2
    cases he with
    | missing h1 h2 => exact .missing h1 h2
    | void h1 => exact .closed h1 (by cases c <;> simp [Closed, membersOf])
    | bounds h1 h2 => exact .outOfBounds h1 h2
    | elementSize h1 h2 h3 => exact .elementError h1 h2 (size_returns h3)
    | elementOffset h1 h2 h3 h4 => exact .elementFar h1 h2 h3 h4
    | pointer h1 => exact .closed h1 (by simp [Closed])
    | notArray h1 h2 h3 h4 => exact .closed h1 h3
    | noMembers h1 h2 h3 => exact .closed h1 h3
    | noMember h1 h2 h3 => exact .notFound _ _ h1 h2 (vac1 h1 h2) (vac2 h1 h2) h3
    | elementPlace h1 h2 h3 h4 h5 =>
      rw [e1, e2] at h5
      rw [← bitPos_element h4] at h5
      exact .elementNowhere h1 h2 h3 h4 (notAfter_of_reason (b := .byteOffset _) h5)
    | memberPlace h1 h2 h3 h4 h5 =>
      rw [e1, e2] at h5
      exact .namedNowhere _ _ h1 h2 (vac1 h1 h2) (vac2 h1 h2) h3 h4 (notAfter_of_reason h5)
    | unnamedPlace h1 h2 h3 h4 => exact absurd h4 (named h1 h2 _ h3)

theorem flaw_kind {limit : Nat} {s : Str} {cs : List PathComponent} {r : Reason} (h : Flaw limit s cs r) :
    r.kind = .InvalidTypePath := by
  obtain ⟨p, x, -, -, h⟩ := h
  cases h <;> rfl

/-- **C91.** Without unnamed members there is an error exactly if there is an obstacle. -/
theorem offset_of_first_plain (cfg : Cfg) (ti : TypeInformation) (hu : NoUnnamed ti) (t : UInt32) (s : String)
    (cs : List PathComponent) (r : Reason) :
    (AcceptedPath cfg.usizeMod (str s) cs →
      ((∃ n, offsetOfT cfg ti n t (str s) = .err r) ↔ Obstacle cfg ti none ⟨t, 0, none⟩ cs r)) ∧
    ∀ x, Flaw cfg.usizeMod (str s) cs x →
      ((∃ n, offsetOfT cfg ti n t (str s) = .err r) ↔ Obstacle cfg ti (some x) ⟨t, 0, none⟩ cs r) := by
  constructor
  · intro hp
    rw [offset_of_first cfg ti t s cs r hp, and_iff_right_iff_imp]
    intro h
    exact ⟨_, (offset_of_search cfg ti t s cs hp _).2 (search_of_obstacle hu (by simp) h (o := .byteOffset 0) rfl rfl)⟩
  · intro x hp
    rw [offset_of_first_flaw cfg ti t s cs x r hp, and_iff_right_iff_imp]
    intro h
    refine ⟨_, (offset_of_search_breaks cfg ti t s cs ((flaw_breaks cfg s cs).1 ⟨x, hp⟩) _).2
      (search_of_obstacle hu ?_ h (o := .byteOffset 0) rfl rfl)⟩
    intro r e
    injection e with e
    subst e
    exact flaw_kind hp

/-! ### Cases that meet the hypotheses -/

section Cases


theorem sample_flaw : Flaw dbg.usizeMod (str "arr[10]]") [.name (str "arr"), .index 10] (.invalidCharacter 7) :=
  (flaw_iff (utf8Like_str "arr[10]]")).2
    (.tok (it' := ⟨str "arr[10]]", 4, .insideIndex⟩) (by decide +kernel)
      (.tok (it' := ⟨str "arr[10]]", 7, .afterIndex⟩) (by decide +kernel) (.fail (by decide +kernel))))

/-- The same flaw, from the definition alone. -/
example : ∃ p, str "arr[10]]" = p ++ [93] ∧ Piece dbg.usizeMod (some (.index 10)) 7 [93] (.invalidCharacter 7) :=
  ⟨str "arr[10]", by decide +kernel, .afterIndex rfl (by decide) (by decide)⟩

/-- `offset_of_first_flaw`: the array has 10 elements, so the index is what stops the lookup, not the bracket at the end. -/
example : Obstacle dbg zoo (some (.invalidCharacter 7)) ⟨7, 0, none⟩ [.name (str "arr"), .index 10] (.indexOutOfBounds 10 10) :=
  ((offset_of_first_flaw dbg zoo 7 "arr[10]]" _ _ _ sample_flaw).1 ⟨20, by decide +kernel⟩).2

/-- `offset_of_first`. -/
example : Obstacle dbg zoo none ⟨7, 0, none⟩ [.name (str "arr"), .index 10] (.indexOutOfBounds 10 10) :=
  ((offset_of_first dbg zoo 7 "arr[10]" _ _ ((yields_iff dbg (utf8Like_str _) _).1 (.tok rfl (.tok rfl (.stop rfl))))).1
    ⟨20, by decide +kernel⟩).2

/-- `offset_of_first_plain`. -/
theorem far_plain : NoUnnamed Examples.far := by
  intro t v ms hv hm m h
  have := List.all_eq_true.1 (by decide +kernel : (entries Examples.far).all (fun e => match membersOf e.2 with
    | some ms => ms.all (fun m => m.name != none) | none => true) = true) _ (mem_entries hv)
  rw [hm] at this
  simpa using List.all_eq_true.1 this m h

example : Obstacle dbg Examples.far none ⟨2, 0, none⟩ [.name (str "a"), .name (str "q")] .bitOffsetMultiplication :=
  (((offset_of_first_plain dbg Examples.far far_plain 2 "a.q" _ _).1
    ((yields_iff dbg (utf8Like_str _) _).1 (.tok rfl (.tok rfl (.stop rfl))))).1 ⟨9, by decide +kernel⟩)

end Cases

end Btf.Props

import Verif.Spec.Search
import Verif.Proofs.Search
import Verif.Proofs.SearchPath
import Verif.Props.OffsetOf
import Verif.SamplesWF

/-!
# Properties C88, C89: what `offset_of` answers, and when it never returns, on every type graph
-/

namespace Btf.Props

open Btf Spec TypeInformation Relation

/-- Every text is a path, or breaks off somewhere; either is unambiguous. -/
theorem path_or_breaks (cfg : Cfg) (s : String) :
    (∃ cs, AcceptedPath cfg.usizeMod (str s) cs) ∨ ∃ cs, Breaks cfg.usizeMod (str s) cs := by
  obtain ⟨cs, b, h⟩ := yields_total cfg (utf8Like_str s)
  cases b with
  | true => exact .inl ⟨cs, (yields_iff cfg (utf8Like_str s) cs).1 h⟩
  | false => exact .inr ⟨cs, (breaks_iff cfg (utf8Like_str s) cs).1 h⟩

theorem breaks_unique (cfg : Cfg) (s : String) (cs ds : List PathComponent) (h : Breaks cfg.usizeMod (str s) cs)
    (h' : Breaks cfg.usizeMod (str s) ds) : cs = ds :=
  (yields_det ((breaks_iff cfg (utf8Like_str s) cs).2 h) ((breaks_iff cfg (utf8Like_str s) ds).2 h')).1

theorem offsetOf_eq_impl {cfg : Cfg} {ti : TypeInformation} {t : UInt32} {s : String} {cs : List PathComponent} {b : Bool}
    (h : Yields cfg (PathIter.new (str s)) cs b) :
    (fun k => offsetOf cfg ti k t (str s)) = fun n => impl cfg ti b n (.byteOffset 0) t cs := by
  obtain ⟨cs', b', -, hy, he⟩ := offsetOf_cases cfg ti t (utf8Like_str s)
  obtain ⟨rfl, rfl⟩ := yields_det h hy
  exact he

/-- C88: with a path, `offset_of` returns exactly what `Search` says, on every type graph. -/
theorem offset_of_search (cfg : Cfg) (ti : TypeInformation) (t : UInt32) (s : String) (cs : List PathComponent)
    (hp : AcceptedPath cfg.usizeMod (str s) cs) (r : Outcome (UInt32 × Offset)) :
    OffsetOf cfg ti t (str s) r ↔ Search cfg ti true t (.byteOffset 0) cs r := by
  rw [search_iff, OffsetOf, offsetOf_eq_impl ((yields_iff cfg (utf8Like_str s) cs).2 hp)]

/-- C88: with a text that is not a path, `offset_of` looks for what precedes the error, and reports what happens
first. -/
theorem offset_of_search_breaks (cfg : Cfg) (ti : TypeInformation) (t : UInt32) (s : String) (cs : List PathComponent)
    (hp : Breaks cfg.usizeMod (str s) cs) (r : Outcome (UInt32 × Offset)) :
    OffsetOf cfg ti t (str s) r ↔ Search cfg ti false t (.byteOffset 0) cs r := by
  rw [search_iff, OffsetOf, offsetOf_eq_impl ((breaks_iff cfg (utf8Like_str s) cs).2 hp)]

/-- C88: `Search` determines the answer. -/
theorem search_determined (cfg : Cfg) (ti : TypeInformation) (complete : Bool) (t : UInt32) (o : Offset)
    (cs : List PathComponent) (r r' : Outcome (UInt32 × Offset)) (h : Search cfg ti complete t o cs r)
    (h' : Search cfg ti complete t o cs r') : r = r' := search_unique h h'

/-- C89: with a path, `offset_of` never returns exactly if it comes to a lookup that needs to know something about a
type that depends on itself, or that leads back to itself. -/
theorem offset_of_diverges_iff (cfg : Cfg) (ti : TypeInformation) (t : UInt32) (s : String) (cs : List PathComponent)
    (hp : AcceptedPath cfg.usizeMod (str s) cs) :
    Diverges (fun k => offsetOf cfg ti k t (str s)) ↔
      ∃ y, ReflTransGen (Leads cfg ti true) ⟨t, .byteOffset 0, cs⟩ y ∧ (Stuck ti y ∨ TransGen (Leads cfg ti true) y y) := by
  rw [offsetOf_eq_impl ((yields_iff cfg (utf8Like_str s) cs).2 hp)]
  exact impl_diverges_iff ⟨t, .byteOffset 0, cs⟩

/-- C89: the same for texts that are not paths. -/
theorem offset_of_diverges_iff_breaks (cfg : Cfg) (ti : TypeInformation) (t : UInt32) (s : String) (cs : List PathComponent)
    (hp : Breaks cfg.usizeMod (str s) cs) :
    Diverges (fun k => offsetOf cfg ti k t (str s)) ↔
      ∃ y, ReflTransGen (Leads cfg ti false) ⟨t, .byteOffset 0, cs⟩ y ∧ (Stuck ti y ∨ TransGen (Leads cfg ti false) y y) := by
  rw [offsetOf_eq_impl ((breaks_iff cfg (utf8Like_str s) cs).2 hp)]
  exact impl_diverges_iff ⟨t, .byteOffset 0, cs⟩

/-! ### What circles are made of -/

theorem leads_rest {cfg : Cfg} {ti : TypeInformation} {b : Bool} {x y : Task} (h : Leads cfg ti b x y) :
    y.rest.length < x.rest.length ∨ y.rest.length = x.rest.length ∧ bitPos x.offset ≤ bitPos y.offset ∧
      (bitPos y.offset = bitPos x.offset → Begins0 ti x.type y.type) := by
  cases h with
  | element => exact .inl (Nat.lt_succ_self _)
  | named => exact .inl (Nat.lt_succ_self _)
  | @unnamed t v pre m post name o o' cs hv hm _ hn ha =>
    obtain ⟨h1, h2, h3⟩ := ha
    refine .inr ⟨rfl, by simp only [h3]; omega, fun h => ?_⟩
    simp only [] at h
    refine ⟨v, _, m, hv, hm, by simp, hn, ?_, rfl⟩
    cases ho : m.offset with
    | bitOffsetAndSize p w => rw [ho] at h1; exact absurd h1 (by simp [IsBitfield, bitWidth])
    | byteOffset n =>
      rw [ho] at h3
      have : n.toNat = 0 := by
        simp only [bitPos] at h3 h
        omega
      rw [show n = 0 from UInt32.toNat_inj.1 this]

theorem trans_rest {cfg : Cfg} {ti : TypeInformation} {b : Bool} {x y : Task} (h : TransGen (Leads cfg ti b) x y) :
    y.rest.length < x.rest.length ∨ y.rest.length = x.rest.length ∧ bitPos x.offset ≤ bitPos y.offset ∧
      (bitPos y.offset = bitPos x.offset → TransGen (Begins0 ti) x.type y.type) := by
  induction h with
  | single h =>
    rcases leads_rest h with h | ⟨h1, h2, h3⟩
    · exact .inl h
    · exact .inr ⟨h1, h2, fun h => .single (h3 h)⟩
  | tail _ h ih =>
    rcases leads_rest h with h | ⟨h1, h2, h3⟩ <;> rcases ih with ih | ⟨i1, i2, i3⟩
    · exact .inl (by omega)
    · exact .inl (by omega)
    · exact .inl (by omega)
    · exact .inr ⟨by omega, by omega, fun h => (i3 (by omega)).tail (h3 (by omega))⟩

/-- C89: a lookup that leads back to itself is in a struct or union that begins with itself: it has an unnamed member at
its very beginning, which has one at its very beginning, ..., which is of the first type. -/
theorem leads_circle (cfg : Cfg) (ti : TypeInformation) (complete : Bool) (x : Task)
    (h : TransGen (Leads cfg ti complete) x x) : TransGen (Begins0 ti) x.type x.type := by
  rcases trans_rest h with h | ⟨-, -, h⟩
  · exact absurd h (Nat.lt_irrefl _)
  · exact h rfl

/-- C89: so `offset_of` returns, for every id and every text, if no type is an alias of itself, no array has elements
whose size depends on itself, and no struct or union begins with itself. A type may contain itself elsewhere. -/
theorem offset_of_returns (cfg : Cfg) (ti : TypeInformation) (ha : ∀ t, ¬ TransGen (Refers ti accessAlias) t t)
    (hs : ∀ t, ¬ TransGen (Refers ti sizeRef) t t) (hb : ∀ t, ¬ TransGen (Begins0 ti) t t) (t : UInt32) (s : String) :
    ∃ r, OffsetOf cfg ti t (str s) r := by
  obtain ⟨cs, b, h⟩ := yields_total cfg (utf8Like_str s)
  obtain ⟨r, hr⟩ := search_ends (cfg := cfg) (ti := ti) (complete := b) ⟨t, .byteOffset 0, cs⟩
    (fun y _ hst => by
      cases hst with
      | circle _ h => exact ha _ h
      | size _ _ _ h => exact hs _ h)
    (fun y _ hc => hb _ (leads_circle cfg ti b y hc))
  refine ⟨r, ?_⟩
  rw [OffsetOf, offsetOf_eq_impl h]
  exact search_iff.1 hr

/-- C89: conversely, a lookup that never returns has found one of the three circles. -/
theorem offset_of_diverges (cfg : Cfg) (ti : TypeInformation) (t : UInt32) (s : String)
    (h : Diverges (fun k => offsetOf cfg ti k t (str s))) :
    ∃ u, TransGen (Refers ti accessAlias) u u ∨ TransGen (Refers ti sizeRef) u u ∨ TransGen (Begins0 ti) u u := by
  by_cases hc : ∃ u, TransGen (Refers ti accessAlias) u u ∨ TransGen (Refers ti sizeRef) u u ∨ TransGen (Begins0 ti) u u
  · exact hc
  · obtain ⟨r, hne, n, hr⟩ := offset_of_returns cfg ti (fun u hu => hc ⟨u, .inl hu⟩) (fun u hu => hc ⟨u, .inr (.inl hu)⟩)
      (fun u hu => hc ⟨u, .inr (.inr hu)⟩) t s
    exact absurd ((h n).symm.trans hr).symm hne

/-! ### Cases that meet the hypotheses -/

section Cases

open Samples

theorem sample_b_prev : AcceptedPath dbg.usizeMod (str "b.prev") [.name (str "b"), .name (str "prev")] :=
  (yields_iff dbg (utf8Like_str "b.prev") _).1
    (.tok (it' := ⟨str "b.prev", 2, .expectingName⟩) (by decide +kernel)
      (.tok (it' := ⟨str "b.prev", 6, .done⟩) (by decide +kernel) (.stop (by decide +kernel))))

/-- `offset_of_search`: a member of an unnamed union in a struct. -/
example : Search dbg zoo true 7 (.byteOffset 0) [.name (str "b"), .name (str "prev")] (.ok (4, .byteOffset 16)) :=
  (offset_of_search dbg zoo 7 "b.prev" _ sample_b_prev _).1 ⟨by simp, 20, by decide +kernel⟩

theorem sample_broken : Breaks dbg.usizeMod (str "arr[10]]") [.name (str "arr"), .index 10] :=
  (breaks_iff dbg (utf8Like_str "arr[10]]") _).1
    (.tok (it' := ⟨str "arr[10]]", 4, .insideIndex⟩) (by decide +kernel)
      (.tok (it' := ⟨str "arr[10]]", 7, .afterIndex⟩) (by decide +kernel) (.fail (e := .InvalidTypePath) (by decide +kernel))))

/-- `offset_of_search_breaks`. -/
example : Search dbg zoo false 7 (.byteOffset 0) [.name (str "arr"), .index 10] (.err .InvalidTypePath) :=
  (offset_of_search_breaks dbg zoo 7 "arr[10]]" _ sample_broken _).1 ⟨by simp, 20, by decide +kernel⟩

theorem bad_begins : Begins0 bad 5 5 :=
  ⟨_, _, ⟨0, none, 5, .byteOffset 0⟩, ⟨5, .refl, bad_5, rfl⟩, rfl, by simp, rfl, rfl, rfl⟩

/-- `offset_of_diverges_iff`: the struct that begins with itself. -/
example : Diverges (fun k => offsetOf dbg bad k 5 (str "x")) :=
  (offset_of_diverges_iff dbg bad 5 "x" _ (sample_x' dbg)).2 ⟨_, .refl, .inr (.single
    (.unnamed (pre := []) ⟨5, .refl, bad_5, rfl⟩ rfl (by simp [FailsIn]) rfl ⟨by simp [IsBitfield, bitWidth], rfl, rfl⟩))⟩

/-- `offset_of_diverges_iff`: the typedef of itself. -/
example : Diverges (fun k => offsetOf dbg bad k 1 (str "x")) :=
  (offset_of_diverges_iff dbg bad 1 "x" _ (sample_x' dbg)).2 ⟨_, .refl, .inl (.circle .refl (.single ⟨_, bad_1, rfl⟩))⟩

/-- A struct with an unnamed member of its own type that is not at its beginning, as no compiler writes it. -/
def inner : TypeInformation where
  idToType := ⟨[(1, .struct ⟨.Struct, 1, 2, false, 8⟩ ⟨some (str "s"), 8, [⟨0, none, 1, .byteOffset 0x10000000⟩,
    ⟨3, some (str "x"), 0, .byteOffset 4⟩]⟩)]⟩
  nameToId := ⟨[(str "s", 1)]⟩
  idToName := ⟨[(1, str "s")]⟩

theorem inner_parsed : TypeInformation.new dbg
    (buffer (leFile [1, 0x4000002, 8, 0, 1, 0x80000000, 3, 0, 32] [0, 115, 0, 120, 0])) = .ok inner := by decide +kernel

theorem inner_only {t : UInt32} {v : TypeVariant} (h : inner.fromId t = some v) : v = .void ∨
    v = .struct ⟨.Struct, 1, 2, false, 8⟩ ⟨some (str "s"), 8, [⟨0, none, 1, .byteOffset 0x10000000⟩,
    ⟨3, some (str "x"), 0, .byteOffset 4⟩]⟩ := by
  unfold TypeInformation.fromId at h
  split at h
  · exact .inl (Option.some.inj h).symm
  · simp only [inner, Map.get, Map.getList] at h
    split at h
    · exact .inr (Option.some.inj h).symm
    · cases h

/-- `offset_of_returns`: all lookups in it return. -/
example (s : String) : ∃ r, OffsetOf dbg inner 1 (str s) r := by
  have hno : ∀ {t v}, inner.fromId t = some v → accessAlias v = none ∧ sizeRef v = none := by
    intro t v h
    rcases inner_only h with rfl | rfl <;> exact ⟨rfl, rfl⟩
  refine offset_of_returns dbg inner (fun t h => ?_) (fun t h => ?_) (fun t h => ?_) 1 s
  · obtain ⟨u, ⟨v, hv, hr⟩, -⟩ := TransGen.head'_iff.1 h
    rw [(hno hv).1] at hr; cases hr
  · obtain ⟨u, ⟨v, hv, hr⟩, -⟩ := TransGen.head'_iff.1 h
    rw [(hno hv).2] at hr; cases hr
  · obtain ⟨u, ⟨v, ms, m, ⟨a, -, hv, -⟩, hm, hmem, hn, ho, -⟩, -⟩ := TransGen.head'_iff.1 h
    rcases inner_only hv with rfl | rfl
    · cases hm
    · cases hm
      simp only [List.mem_cons, List.not_mem_nil, or_false] at hmem
      rcases hmem with rfl | rfl
      · exact absurd ho (by decide)
      · exact absurd ho (by decide)

/-- The member that is found is the innermost one that has a place in 32 bits. -/
example : OffsetOf dbg inner 1 (str "x") (.ok (0, .byteOffset 0xe0000004)) := ⟨by simp, 40, by decide +kernel⟩

end Cases

end Btf.Props

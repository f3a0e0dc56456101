import Verif.Spec.Search
import Verif.Proofs.Ev
import Verif.Proofs.OffsetApi
import Verif.Proofs.OffsetWF
import Verif.Proofs.Depth
import Mathlib.Data.Finite.Prod
import Mathlib.Data.Fintype.Option

/-!
# `offset_of` follows `Search`, and ends exactly where `Leads` does
-/

namespace Btf

open Spec TypeInformation Props

/-! ### Offsets -/

theorem after_iff {a b c : Offset} : After a b c ↔ a.add b = .ok c := (offset_add_ok a b c).symm

theorem notAfter_iff {a b : Offset} {e : ErrorKind} : NotAfter a b e ↔ a.add b = .err e := by
  constructor
  · intro h
    rcases add_returns a b with ⟨c, hc⟩ | ⟨e', he'⟩
    · cases h with
      | bitfield h => exact absurd h (after_iff.2 hc).1
      | tooLarge _ h => exact absurd (after_iff.2 hc) (h c)
    · have := (offset_add_err a b e').1 he'
      cases h with
      | bitfield h =>
        rcases this with ⟨rfl, -⟩ | ⟨-, h', -⟩
        · exact he'
        · exact absurd h h'
      | tooLarge h _ =>
        rcases this with ⟨-, h'⟩ | ⟨rfl, -⟩
        · exact absurd h' h
        · exact he'
  · intro h
    rcases (offset_add_err a b e).1 h with ⟨rfl, h'⟩ | ⟨rfl, h', -⟩
    · exact .bitfield h'
    · exact .tooLarge h' fun c hc => by rw [after_iff.1 hc] at h; cases h

theorem addU32_eq (o : Offset) (n : UInt32) : o.addU32 n = o.add (.byteOffset n) := by cases o <;> rfl

theorem after_or (a b : Offset) : (∃ c, After a b c) ∨ ∃ e, NotAfter a b e := by
  rcases add_returns a b with ⟨c, h⟩ | ⟨e, h⟩
  · exact .inl ⟨c, after_iff.2 h⟩
  · exact .inr ⟨e, notAfter_iff.2 h⟩

/-! ### Elements -/

section

variable {cfg : Cfg} {ti : TypeInformation} {complete : Bool} {hd : Header} {d : ArrayData} {i n : Nat} {o o' : Offset}

theorem step_far (hi : i < d.elementCount.toNat)
    (hs : Returns (fun k => TypeInformation.sizeOf cfg ti k d.elementTid) (.ok n)) (h : 2 ^ 32 ≤ i * n) :
    Ev (fun k => stepIndex cfg ti k o (.array hd d) i) (.err .InvalidTypePath) := by
  obtain ⟨N, hN⟩ := ev_of_returns (sizeOf_mono cfg ti d.elementTid) hs
  have hnot : ¬ i ≥ d.elementCount.toNat := by omega
  refine ⟨N, fun k hk => ?_⟩
  beta_reduce at *
  have h64 : (u64CheckedMul i n).bind u32TryFrom = none := by
    by_cases h' : i * n < 2 ^ 64
    · simp only [u64CheckedMul, if_pos h', Option.bind, u32TryFrom, if_neg (Nat.not_lt.2 h)]
    · simp only [u64CheckedMul, if_neg h', Option.bind]
  simp only [stepIndex, if_neg hnot, hN k hk, h64, okOr, Bind.bind, Res.bind, OffsetError.kind]

theorem step_near (hi : i < d.elementCount.toNat)
    (hs : Returns (fun k => TypeInformation.sizeOf cfg ti k d.elementTid) (.ok n)) (h : i * n < 2 ^ 32) :
    Ev (fun k => stepIndex cfg ti k o (.array hd d) i)
      ((o.add (.byteOffset (UInt32.ofNat (i * n)))).bind fun o' => .ok (d.elementTid, o')) := by
  obtain ⟨N, hN⟩ := ev_of_returns (sizeOf_mono cfg ti d.elementTid) hs
  have hnot : ¬ i ≥ d.elementCount.toNat := by omega
  refine ⟨N, fun k hk => ?_⟩
  beta_reduce at *
  have h64 : (u64CheckedMul i n).bind u32TryFrom = some (UInt32.ofNat (i * n)) := by
    simp only [u64CheckedMul, u32TryFrom, if_pos (show i * n < 2 ^ 64 by omega), if_pos h, Option.bind]
  simp only [stepIndex, if_neg hnot, hN k hk, h64, okOr, addU32_eq, Bind.bind, Res.bind, Pure.pure]

theorem step_err {e : ErrorKind} (hi : i < d.elementCount.toNat)
    (hs : Returns (fun k => TypeInformation.sizeOf cfg ti k d.elementTid) (.err e)) :
    Ev (fun k => stepIndex cfg ti k o (.array hd d) i) (.err e) := by
  obtain ⟨N, hN⟩ := ev_of_returns (sizeOf_mono cfg ti d.elementTid) hs
  have hnot : ¬ i ≥ d.elementCount.toNat := by omega
  refine ⟨N, fun k hk => ?_⟩
  beta_reduce at *
  simp only [stepIndex, if_neg hnot, hN k hk, Bind.bind, Res.bind]

theorem step_panic (hi : i < d.elementCount.toNat)
    (hs : Returns (fun k => TypeInformation.sizeOf cfg ti k d.elementTid) .panic) :
    Ev (fun k => stepIndex cfg ti k o (.array hd d) i) .panic := by
  obtain ⟨N, hN⟩ := ev_of_returns (sizeOf_mono cfg ti d.elementTid) hs
  have hnot : ¬ i ≥ d.elementCount.toNat := by omega
  refine ⟨N, fun k hk => ?_⟩
  beta_reduce at *
  simp only [stepIndex, if_neg hnot, hN k hk, Bind.bind, Res.bind]

end

/-! ### Members -/

theorem filter_split {pre post : List Member} {m : Member} (hm : m.name = none) :
    (pre ++ m :: post).filter (fun a => a.name.isNone) =
      pre.filter (fun a => a.name.isNone) ++ m :: post.filter (fun a => a.name.isNone) := by
  rw [List.filter_append, List.filter_cons, if_pos (by rw [hm]; rfl)]

theorem find_split {pre post : List Member} {m : Member} {name : Str} (hm : m.name = some name)
    (hpre : ∀ a ∈ pre, a.name ≠ some name) :
    (pre ++ m :: post).find? (fun a => a.name = some name) = some m := by
  rw [List.find?_append, List.find?_eq_none.2 (by simpa using hpre), Option.none_or, List.find?_cons_of_pos (by simpa using hm)]

theorem find_absent {ms : List Member} {name : Str} (h : ∀ a ∈ ms, a.name ≠ some name) :
    ms.find? (fun a => a.name = some name) = none := List.find?_eq_none.2 (by simpa using h)

theorem find_cases (ms : List Member) (name : Str) :
    (∃ pre m post, ms = pre ++ m :: post ∧ m.name = some name ∧ ∀ a ∈ pre, a.name ≠ some name) ∨
      ∀ a ∈ ms, a.name ≠ some name := by
  induction ms with
  | nil => exact .inr (by simp)
  | cons m ms ih =>
    by_cases hm : m.name = some name
    · exact .inl ⟨[], m, ms, rfl, hm, by simp⟩
    · rcases ih with ⟨pre, x, post, rfl, h1, h2⟩ | h
      · refine .inl ⟨m :: pre, x, post, rfl, h1, ?_⟩
        intro a ha
        rcases List.mem_cons.1 ha with rfl | ha
        · exact hm
        · exact h2 a ha
      · refine .inr fun a ha => ?_
        rcases List.mem_cons.1 ha with rfl | ha
        · exact hm
        · exact h a ha

section

variable {cfg : Cfg} {ti : TypeInformation} {complete : Bool} {o : Offset} {cs : List PathComponent}

/-- The lookup fails in the unnamed members. -/
def Passed (cfg : Cfg) (ti : TypeInformation) (complete : Bool) (o : Offset) (cs : List PathComponent) (ms : List Member) : Prop :=
  ∀ m ∈ ms.filter (fun a => a.name.isNone), ∃ start e, m.offset.add o = .ok start ∧
    Ev (fun n => impl cfg ti complete n start m.tid cs) (.err e)

theorem passed_of {ms : List Member} (q : Member → Offset) (e : Member → ErrorKind)
    (hq : ∀ a ∈ ms, a.name = none → After a.offset o (q a))
    (he : ∀ a ∈ ms, a.name = none → Ev (fun n => impl cfg ti complete n (q a) a.tid cs) (.err (e a))) :
    Passed cfg ti complete o cs ms := by
  intro m hm
  obtain ⟨h1, h2⟩ := List.mem_filter.1 hm
  have h3 : m.name = none := by simpa using h2
  exact ⟨q m, e m, after_iff.1 (hq m h1 h3), he m h1 h3⟩

theorem ev_panic_probe {p : Nat → Offset → UInt32 → Outcome (UInt32 × Offset)} {pre post : List Member} {m : Member} {start : Offset}
    (h : ∀ m ∈ pre, ∃ start e, m.offset.add o = .ok start ∧ Ev (fun n => p n start m.tid) (.err e))
    (ha : m.offset.add o = .ok start) (hm : Ev (fun n => p n start m.tid) .panic) :
    Ev (fun n => probeAnonymous (p n) o (pre ++ m :: post)) .panic := by
  induction pre with
  | nil =>
    obtain ⟨N, hN⟩ := hm
    refine ⟨N, fun n hn => ?_⟩
    have := hN n hn
    beta_reduce at this ⊢
    simp only [List.nil_append, probeAnonymous, ha, this]
  | cons a pre ih =>
    obtain ⟨s, e, h1, N, hN⟩ := h a (by simp)
    obtain ⟨M, hM⟩ := ih fun x hx => h x (by simp [hx])
    refine ⟨max N M, fun n hn => ?_⟩
    have h2 := hN n (by omega)
    have h3 := hM n (by omega)
    beta_reduce at h2 h3 ⊢
    simp only [List.cons_append, probeAnonymous, h1, h2]
    exact h3

/-- From `Search` to the code. -/
theorem ev_of_search {t : UInt32} {r : Outcome (UInt32 × Offset)} (h : Search cfg ti complete t o cs r) :
    r ≠ .nofuel ∧ Ev (fun n => impl cfg ti complete n o t cs) r := by
  induction h with
  | done hc => subst hc; exact ⟨by simp, ev_impl_nil⟩
  | broken hc => subst hc; exact ⟨by simp, ev_impl_nil⟩
  | missing hc ha =>
    refine ⟨by simp, ev_impl_resolve_err ?_⟩
    obtain ⟨k, hk⟩ := resolve_err_iff.2 ⟨rfl, _, hc, ha⟩
    exact ev_of_eq (resolve_mono ti _) hk (by simp)
  | @closed t v o c cs hv hc =>
    refine ⟨by simp, ?_⟩
    by_cases hvoid : v = .void
    · subst hvoid; exact ev_impl_void hv
    · cases c with
      | name s => exact ev_impl_name_scalar hv hc
      | index i =>
        refine ev_impl_index_err hv hvoid ⟨0, fun n _ => ?_⟩
        cases v <;> first | rfl | exact absurd rfl (hc _ _)
  | outOfBounds hv hi =>
    refine ⟨by simp, ev_impl_index_err hv (by simp) ⟨0, fun n _ => ?_⟩⟩
    simp only [stepIndex, if_pos hi, offsetErr, OffsetError.kind]
  | elementError hv hi hs => exact ⟨by simp, ev_impl_index_err hv (by simp) (step_err hi hs)⟩
  | @elementPanic t hd d i o cs hv hi hs =>
    refine ⟨by simp, ev_congr ?_ fun n => impl_succ ..⟩
    refine ev_bind (g := fun n v => _) (ev_resolve hv) ?_
    refine ev_bind_panic (g := fun n r => _) ?_
    exact step_panic hi hs
  | elementFar hv hi hs h => exact ⟨by simp, ev_impl_index_err hv (by simp) (step_far hi hs h)⟩
  | @elementNowhere t hd d i n o cs e hv hi hs h hn =>
    refine ⟨by simp, ev_impl_index_err hv (by simp) ?_⟩
    have := step_near (o := o) (hd := hd) hi hs h
    rwa [notAfter_iff.1 hn] at this
  | @element t hd d i n o o' cs r hv hi hs h ha _ ih =>
    refine ⟨ih.1, ev_impl_index (x := (d.elementTid, o')) hv ?_ ih.2⟩
    have := step_near (o := o) (hd := hd) hi hs h
    rwa [after_iff.1 ha] at this
  | @unnamed t v pre m post name o cs r q e hv hm hq hs hn ha _ hr ihs ih =>
    have hp := passed_of q e hq fun a h1 h2 => (ihs a h1 h2).2
    refine ⟨ih.1, ?_⟩
    cases r with
    | ok r =>
      refine ev_impl_anon hv hm ?_
      rw [filter_split hn]
      exact ev_probe_some (p := fun n o u => impl cfg ti complete n o u (.name name :: cs)) hp (after_iff.1 ha) ih.2
    | err k => exact absurd rfl (hr k)
    | nofuel => exact absurd rfl ih.1
    | panic =>
      have hp := ev_panic_probe (p := fun n o u => impl cfg ti complete n o u (.name name :: cs))
        (post := post.filter (fun a => a.name.isNone)) hp (after_iff.1 ha) ih.2
      rw [← filter_split hn] at hp
      refine ev_congr ?_ fun n => impl_succ ..
      refine ev_bind (g := fun n v => _) (ev_resolve hv) ?_
      simp only [if_neg (members_ne_void hm), memberListOf_eq, hm]
      exact ev_bind_panic (g := fun n r => _) hp
  | @unnamedNowhere t v pre m post name o cs k q e hv hm hq hs hn ha ihs =>
    have hp := passed_of q e hq fun a h1 h2 => (ihs a h1 h2).2
    refine ⟨by simp, ev_impl_anon_err hv hm ?_⟩
    rw [filter_split hn]
    exact ev_probe_err (p := fun n o u => impl cfg ti complete n o u (.name name :: cs)) hp (notAfter_iff.1 ha)
  | @named t v pre m post name o o' cs r q e hv hm hq hs hn hpre ha _ ihs ih =>
    have hp := passed_of q e hq fun a h1 h2 => (ihs a h1 h2).2
    exact ⟨ih.1, ev_impl_named hv hm (ev_probe_none (p := fun n o u => impl cfg ti complete n o u (.name name :: cs)) hp)
      (find_split hn hpre) (after_iff.1 ha) ih.2⟩
  | @namedNowhere t v pre m post name o cs k q e hv hm hq hs hn hpre ha ihs =>
    have hp := passed_of q e hq fun a h1 h2 => (ihs a h1 h2).2
    have hp := ev_probe_none (p := fun n o u => impl cfg ti complete n o u (.name name :: cs)) hp
    refine ⟨by simp, ev_congr ?_ fun n => impl_succ ..⟩
    refine ev_bind (g := fun n v => _) (ev_resolve hv) ?_
    simp only [if_neg (members_ne_void hm), memberListOf_eq, hm]
    refine ev_bind (g := fun n r => _) hp ?_
    simp only [find_split hn hpre, notAfter_iff.1 ha]
    exact ev_const _
  | @notFound t v ms name o cs q e hv hm hq hs hno ihs =>
    have hp := passed_of q e hq fun a h1 h2 => (ihs a h1 h2).2
    exact ⟨by simp, ev_impl_not_found hv hm (ev_probe_none (p := fun n o u => impl cfg ti complete n o u (.name name :: cs)) hp)
      (find_absent hno)⟩

theorem search_unique {t : UInt32} {r r' : Outcome (UInt32 × Offset)} (h : Search cfg ti complete t o cs r)
    (h' : Search cfg ti complete t o cs r') : r = r' := ev_unique (ev_of_search h).2 (ev_of_search h').2

/-! ### Progress -/

theorem ids_all (t : UInt32) : t ∈ (Finset.range (2 ^ 32)).image UInt32.ofNat :=
  Finset.mem_image.2 ⟨t.toNat, Finset.mem_range.2 t.toNat_lt, UInt32.ofNat_toNat⟩

theorem resolve_diverges_iff (ti : TypeInformation) (t : UInt32) : Diverges (fun n => resolve ti n t) ↔
    ∃ u, Chain ti accessAlias t u ∧ Relation.TransGen (Refers ti accessAlias) u u :=
  (resolve_follows ti).diverges_iff_cycle resolveLeaf_ne_nofuel (by simp) _ (fun t _ _ => ids_all t) t

theorem sizeOf_diverges_iff (cfg : Cfg) (ti : TypeInformation) (t : UInt32) :
    Diverges (fun n => TypeInformation.sizeOf cfg ti n t) ↔
      ∃ u, Chain ti sizeRef t u ∧ Relation.TransGen (Refers ti sizeRef) u u :=
  (sizeOf_follows cfg ti).diverges_iff_cycle (sizeLeaf_ne_nofuel ti) (sizePost_ne_nofuel cfg) _ (fun t _ _ => ids_all t) t

/-- Aliases lead nowhere, to a type, or round in circles. -/
theorem resolve_cases (ti : TypeInformation) (t : UInt32) :
    (∃ v, Resolves ti t v) ∨ (∃ a, Chain ti accessAlias t a ∧ ti.fromId a = none) ∨
      ∃ u, Chain ti accessAlias t u ∧ Relation.TransGen (Refers ti accessAlias) u u := by
  rcases returns_or_diverges (fun n => resolve ti n t) with ⟨r, hr, n, hn⟩ | h
  · beta_reduce at hn
    cases r with
    | ok v => exact .inl ⟨v, resolve_ok_iff.1 ⟨n, hn⟩⟩
    | err e => exact .inr (.inl (resolve_err_iff.1 ⟨n, hn⟩).2)
    | panic => exact absurd hn resolve_not_panic
    | nofuel => exact absurd rfl hr
  · exact .inr (.inr ((resolve_diverges_iff ti t).1 h))

theorem size_cases (cfg : Cfg) (ti : TypeInformation) (t : UInt32) :
    (∃ r, Returns (fun k => TypeInformation.sizeOf cfg ti k t) r) ∨
      ∃ u, Chain ti sizeRef t u ∧ Relation.TransGen (Refers ti sizeRef) u u := by
  rcases returns_or_diverges (fun n => TypeInformation.sizeOf cfg ti n t) with h | h
  · exact .inl h
  · exact .inr ((sizeOf_diverges_iff cfg ti t).1 h)

theorem failsIn_choose {ms : List Member} (h : FailsIn cfg ti complete o cs ms) :
    ∃ (q : Member → Offset) (e : Member → ErrorKind), (∀ a ∈ ms, a.name = none → After a.offset o (q a)) ∧
      ∀ a ∈ ms, a.name = none → Search cfg ti complete a.tid (q a) cs (.err (e a)) := by
  classical
  refine ⟨fun a => if h' : a ∈ ms ∧ a.name = none then (h a h'.1 h'.2).choose else .byteOffset 0,
    fun a => if h' : a ∈ ms ∧ a.name = none then (h a h'.1 h'.2).choose_spec.choose else .InvalidTypePath, ?_, ?_⟩
  · intro a h1 h2
    simp only [dif_pos (And.intro h1 h2)]
    exact (h a h1 h2).choose_spec.choose_spec.1
  · intro a h1 h2
    simp only [dif_pos (And.intro h1 h2)]
    exact (h a h1 h2).choose_spec.choose_spec.2

/-- The unnamed members: the lookup fails in all of them, or it ends in one. -/
theorem probe_cases {t : UInt32} {v : TypeVariant} {name : Str} (hv : Resolves ti t v)
    (hl : ∀ y, Leads cfg ti complete ⟨t, o, .name name :: cs⟩ y → ∃ r, Search cfg ti complete y.type y.offset y.rest r) :
    ∀ (post pre : List Member), membersOf v = some (pre ++ post) → FailsIn cfg ti complete o (.name name :: cs) pre →
      FailsIn cfg ti complete o (.name name :: cs) (pre ++ post) ∨ ∃ r, Search cfg ti complete t o (.name name :: cs) r := by
  intro post
  induction post with
  | nil => intro pre _ hp; rw [List.append_nil]; exact .inl hp
  | cons m post ih =>
    intro pre hm hp
    have next : FailsIn cfg ti complete o (.name name :: cs) (pre ++ [m]) →
        FailsIn cfg ti complete o (.name name :: cs) (pre ++ m :: post) ∨ ∃ r, Search cfg ti complete t o (.name name :: cs) r := by
      intro h
      have := ih (pre ++ [m]) (by simpa using hm) h
      simpa using this
    by_cases hn : m.name = none
    · rcases after_or m.offset o with ⟨q, hq⟩ | ⟨k, hk⟩
      · obtain ⟨r, hr⟩ := hl _ (.unnamed hv hm hp hn hq)
        by_cases he : ∃ k, r = .err k
        · obtain ⟨k, rfl⟩ := he
          refine next fun a ha h => ?_
          rcases List.mem_append.1 ha with ha | ha
          · exact hp a ha h
          · obtain rfl : a = m := by simpa using ha
            exact ⟨q, k, hq, hr⟩
        · obtain ⟨q', e, h1, h2⟩ := failsIn_choose hp
          classical
          refine .inr ⟨r, .unnamed (m := m) (fun a => if a ∈ pre ∧ a.name = none then q' a else q) e hv hm ?_ ?_ hn ?_ ?_ ?_⟩
          · intro a ha hn; simpa [ha, hn] using h1 a ha hn
          · intro a ha hn; simpa [ha, hn] using h2 a ha hn
          · by_cases h : m ∈ pre ∧ m.name = none
            · simpa [h] using h1 m h.1 hn
            · simpa [h] using hq
          · by_cases h : m ∈ pre ∧ m.name = none
            · have h3 := h1 m h.1 hn
              have : q' m = q := by
                have := (after_iff.1 h3).symm.trans (after_iff.1 hq)
                simpa using this
              simpa [h, this] using hr
            · simpa [h] using hr
          · exact fun k hk => he ⟨k, hk⟩
      · obtain ⟨q', e, h1, h2⟩ := failsIn_choose hp
        exact .inr ⟨_, .unnamedNowhere q' e hv hm h1 h2 hn hk⟩
    · refine next fun a ha h => ?_
      rcases List.mem_append.1 ha with ha | ha
      · exact hp a ha h
      · obtain rfl : a = m := by simpa using ha
        exact absurd h hn

/-- A lookup that is not stuck ends if all lookups end to which it leads. -/
theorem search_step (x : Task) (hs : ¬ Stuck ti x)
    (hl : ∀ y, Leads cfg ti complete x y → ∃ r, Search cfg ti complete y.type y.offset y.rest r) :
    ∃ r, Search cfg ti complete x.type x.offset x.rest r := by
  obtain ⟨t, o, cs⟩ := x
  cases cs with
  | nil =>
    cases complete with
    | true => exact ⟨_, .done rfl⟩
    | false => exact ⟨_, .broken rfl⟩
  | cons c cs =>
    rcases resolve_cases ti t with ⟨v, hv⟩ | ⟨a, h1, h2⟩ | ⟨u, h1, h2⟩
    · by_cases hc : Closed v c
      · exact ⟨_, .closed hv hc⟩
      · cases c with
        | index i =>
          obtain ⟨hd, d, rfl⟩ : ∃ hd d, v = .array hd d := by simpa [Closed] using hc
          rcases Nat.lt_or_ge i d.elementCount.toNat with hi | hi
          · rcases size_cases cfg ti d.elementTid with ⟨r, hr⟩ | ⟨a, h1, h2⟩
            · cases r with
              | ok n =>
                rcases Nat.lt_or_ge (i * n) (2 ^ 32) with hn | hn
                · rcases after_or o (.byteOffset (UInt32.ofNat (i * n))) with ⟨q, hq⟩ | ⟨k, hk⟩
                  · obtain ⟨r, h⟩ := hl _ (.element hv hi hr hn hq)
                    exact ⟨r, .element hv hi hr hn hq h⟩
                  · exact ⟨_, .elementNowhere hv hi hr hn hk⟩
                · exact ⟨_, .elementFar hv hi hr hn⟩
              | err e => exact ⟨_, .elementError hv hi hr⟩
              | panic => exact ⟨_, .elementPanic hv hi hr⟩
              | nofuel => exact absurd rfl hr.1
            · exact absurd (.size hv hi h1 h2) hs
          · exact ⟨_, .outOfBounds hv hi⟩
        | name name =>
          obtain ⟨ms, hm⟩ : ∃ ms, membersOf v = some ms := Option.ne_none_iff_exists'.1 hc
          rcases probe_cases hv hl ms [] hm (by intro a ha; simp at ha) with hf | h
          · rw [List.nil_append] at hf
            obtain ⟨q, e, h1, h2⟩ := failsIn_choose hf
            rcases find_cases ms name with ⟨pre, m, post, rfl, hn, hpre⟩ | hno
            · rcases after_or o m.offset with ⟨o', ho⟩ | ⟨k, hk⟩
              · obtain ⟨r, h⟩ := hl _ (.named hv hm hf hn hpre ho)
                exact ⟨r, .named q e hv hm h1 h2 hn hpre ho h⟩
              · exact ⟨_, .namedNowhere q e hv hm h1 h2 hn hpre hk⟩
            · exact ⟨_, .notFound q e hv hm h1 h2 hno⟩
          · exact h
    · exact ⟨_, .missing h1 h2⟩
    · exact absurd (.circle h1 h2) hs

/-! ### From the code to `Search` -/

theorem ev_value {α : Type} {f : Nat → Outcome α} (hm : FuelMono f) {r : Outcome α} (h : Ev f r) {n : Nat} (hn : f n ≠ .nofuel) :
    f n = r := ev_unique (ev_of_eq hm rfl hn) h

theorem probe_fuel {n : Nat} {pre post : List Member} {m : Member} {o' : Offset} (hp : Passed cfg ti complete o cs pre)
    (hn : m.name = none) (ha : m.offset.add o = .ok o')
    (h : probeAnonymous (fun o u => impl cfg ti complete n o u cs) o
      ((pre ++ m :: post).filter (fun a => a.name.isNone)) ≠ .nofuel) : impl cfg ti complete n o' m.tid cs ≠ .nofuel := by
  rw [filter_split hn] at h
  unfold Passed at hp
  generalize pre.filter (fun a => a.name.isNone) = l at h hp
  induction l with
  | nil =>
    intro h0
    exact h (by simp only [List.nil_append, probeAnonymous, ha, h0])
  | cons a l ih =>
    obtain ⟨s, e, h1, h2⟩ := hp a (by simp)
    refine ih (fun h0 => h ?_) (fun x hx => hp x (by simp [hx]))
    rw [List.cons_append, probeAnonymous, h1]
    show (match impl cfg ti complete n s a.tid cs with | _ => _) = _
    by_cases hi : impl cfg ti complete n s a.tid cs = .nofuel
    · simp only [hi]
    · rw [show impl cfg ti complete n s a.tid cs = _ from ev_value (impl_fuelMono cfg ti complete s a.tid cs) h2 hi]
      exact h0

theorem failsIn_passed {ms : List Member} (h : FailsIn cfg ti complete o cs ms) : Passed cfg ti complete o cs ms := by
  obtain ⟨q, e, h1, h2⟩ := failsIn_choose h
  exact passed_of q e h1 fun a ha hn => (ev_of_search (h2 a ha hn)).2

/-- One unit of the bound is enough for a step. -/
theorem leads_fuel {x y : Task} (h : Leads cfg ti complete x y) {n : Nat}
    (hn : impl cfg ti complete n x.offset x.type x.rest ≠ .nofuel) :
    ∃ m, m < n ∧ impl cfg ti complete m y.offset y.type y.rest ≠ .nofuel := by
  cases n with
  | zero => exact absurd rfl hn
  | succ n =>
  refine ⟨n, by omega, ?_⟩
  have res : ∀ {t v}, Resolves ti t v → resolve ti n t ≠ .nofuel → resolve ti n t = .ok v :=
    fun hv h => ev_value (resolve_mono ti _) (ev_resolve hv) h
  cases h with
  | @element t hd d i k o o' cs hv hi hs hlt ha =>
    simp only [impl_succ] at hn
    have h1 : resolve ti n t ≠ .nofuel := fun h0 => hn (by rw [h0]; rfl)
    rw [res hv h1] at hn
    simp only [Res.bind, if_neg (show TypeVariant.array hd d ≠ .void by simp)] at hn
    have h2 : stepIndex cfg ti n o (.array hd d) i ≠ .nofuel := fun h0 => hn (by rw [h0])
    have h3 := step_near (o := o) (hd := hd) hi hs hlt
    rw [after_iff.1 ha] at h3
    rw [ev_value (stepIndex_mono cfg ti o (.array hd d) i) h3 h2] at hn
    exact hn
  | @unnamed t v pre m post name o o' cs hv hm hf hnm ha =>
    simp only [impl_succ] at hn
    have h1 : resolve ti n t ≠ .nofuel := fun h0 => hn (by rw [h0]; rfl)
    rw [res hv h1] at hn
    simp only [Res.bind, if_neg (members_ne_void hm), memberListOf_eq, hm] at hn
    refine probe_fuel (failsIn_passed hf) hnm (after_iff.1 ha) (post := post) fun h0 => hn ?_
    rw [h0]
  | @named t v pre m post name o o' cs hv hm hf hnm hpre ha =>
    simp only [impl_succ] at hn
    have h1 : resolve ti n t ≠ .nofuel := fun h0 => hn (by rw [h0]; rfl)
    rw [res hv h1] at hn
    simp only [Res.bind, if_neg (members_ne_void hm), memberListOf_eq, hm] at hn
    have h2 : probeAnonymous (fun o u => impl cfg ti complete n o u (.name name :: cs)) o
        ((pre ++ m :: post).filter (fun a => a.name.isNone)) = .ok none := by
      refine ev_value (f := fun n => probeAnonymous (fun o u => impl cfg ti complete n o u (.name name :: cs)) o
        ((pre ++ m :: post).filter (fun a => a.name.isNone))) ?_
        (ev_probe_none (p := fun n o u => impl cfg ti complete n o u (.name name :: cs)) (failsIn_passed hf)) ?_
      · intro n hne
        exact probeAnonymous_mono (fun o u h => impl_mono cfg ti complete n o u _ h) hne
      · exact fun h0 => hn (by rw [h0])
    simp only [h2, find_split hnm hpre, after_iff.1 ha] at hn
    exact hn

theorem stuck_fuel {x : Task} (h : Stuck ti x) (n : Nat) : impl cfg ti complete n x.offset x.type x.rest = .nofuel := by
  cases n with
  | zero => rfl
  | succ n =>
  cases h with
  | circle h1 h2 =>
    rw [impl_succ, show resolve ti n _ = _ from (resolve_diverges_iff ti _).2 ⟨_, h1, h2⟩ n]
    rfl
  | @size t hd d i a o cs hv hi h1 h2 =>
    rw [impl_succ]
    by_cases h0 : resolve ti n t = .nofuel
    · rw [h0]; rfl
    · rw [ev_value (resolve_mono ti _) (ev_resolve hv) h0]
      have hnot : ¬ i ≥ d.elementCount.toNat := by omega
      simp only [Res.bind, if_neg (show TypeVariant.array hd d ≠ .void by simp), stepIndex, if_neg hnot,
        show TypeInformation.sizeOf cfg ti n _ = _ from (sizeOf_diverges_iff cfg ti _).2 ⟨_, h1, h2⟩ n, Bind.bind]

theorem search_of_fuel : ∀ (n : Nat) (x : Task), impl cfg ti complete n x.offset x.type x.rest ≠ .nofuel →
    ∃ r, Search cfg ti complete x.type x.offset x.rest r := by
  intro n
  induction n using Nat.strongRecOn with
  | _ n ih =>
    intro x hx
    refine search_step x (fun hs => hx (stuck_fuel hs n)) fun y hy => ?_
    obtain ⟨m, hm, h⟩ := leads_fuel hy hx
    exact ih m hm y h

/-- `Search` is exactly what the code does. -/
theorem search_iff {t : UInt32} {r : Outcome (UInt32 × Offset)} :
    Search cfg ti complete t o cs r ↔ Returns (fun n => impl cfg ti complete n o t cs) r := by
  constructor
  · intro h
    exact returns_of_ev (ev_of_search h).1 (ev_of_search h).2
  · rintro ⟨hr, n, rfl⟩
    obtain ⟨r, h⟩ := search_of_fuel n ⟨t, o, cs⟩ hr
    have : impl cfg ti complete n o t cs = r := ev_value (impl_fuelMono cfg ti complete o t cs) (ev_of_search h).2 hr
    beta_reduce
    rw [this]
    exact h

/-! ### When there is no end -/

theorem leads_trans_fuel {x y : Task} (h : Relation.TransGen (Leads cfg ti complete) x y) :
    ∀ {n : Nat}, impl cfg ti complete n x.offset x.type x.rest ≠ .nofuel →
      ∃ m, m < n ∧ impl cfg ti complete m y.offset y.type y.rest ≠ .nofuel := by
  induction h with
  | single h => exact fun hn => leads_fuel h hn
  | tail _ h ih =>
    intro n hn
    obtain ⟨m, hm, h1⟩ := ih hn
    obtain ⟨k, hk, h2⟩ := leads_fuel h h1
    exact ⟨k, by omega, h2⟩

theorem cycle_fuel {x : Task} (h : Relation.TransGen (Leads cfg ti complete) x x) (n : Nat) :
    impl cfg ti complete n x.offset x.type x.rest = .nofuel := by
  induction n using Nat.strongRecOn with
  | _ n ih =>
    by_contra h0
    obtain ⟨m, hm, h1⟩ := leads_trans_fuel h h0
    exact h1 (ih m hm)

theorem leads_suffix {x y : Task} (h : Leads cfg ti complete x y) : y.rest <:+ x.rest := by
  cases h with
  | element => exact List.suffix_cons _ _
  | unnamed => exact List.suffix_refl _
  | named => exact List.suffix_cons _ _

theorem reached_suffix {x y : Task} (h : Relation.ReflTransGen (Leads cfg ti complete) x y) : y.rest <:+ x.rest := by
  induction h with
  | refl => exact List.suffix_refl _
  | tail _ h ih => exact (leads_suffix h).trans ih

/-- There are finitely many lookups with the end of a given path. -/
theorem tasks_finite (cs : List PathComponent) : Finite {x : Task // x.rest <:+ cs} := by
  have h1 : Finite UInt32 := Finite.of_injective UInt32.toFin (fun a b h => UInt32.toFin_inj.1 h)
  let code : {x : Task // x.rest <:+ cs} → UInt32 × UInt32 × Option UInt32 × Fin (cs.length + 1) := fun x =>
    match x with
    | ⟨⟨t, .byteOffset b, r⟩, h⟩ => (t, b, none, ⟨r.length, Nat.lt_succ_of_le h.length_le⟩)
    | ⟨⟨t, .bitOffsetAndSize b w, r⟩, h⟩ => (t, b, some w, ⟨r.length, Nat.lt_succ_of_le h.length_le⟩)
  refine Finite.of_injective code ?_
  have key : ∀ {r r' : List PathComponent}, r <:+ cs → r' <:+ cs → r.length = r'.length → r = r' := by
    intro r r' h h' hl
    exact (List.suffix_of_suffix_length_le h h' (by omega)).eq_of_length hl
  rintro ⟨⟨t, o, r⟩, h⟩ ⟨⟨t', o', r'⟩, h'⟩ hc
  cases o <;> cases o' <;> simp only [code, Prod.mk.injEq, Fin.mk.injEq, Option.some.injEq, reduceCtorEq, false_and, and_false] at hc
  · obtain ⟨rfl, rfl, -, hl⟩ := hc
    obtain rfl := key h h' hl
    rfl
  · obtain ⟨rfl, rfl, rfl, hl⟩ := hc
    obtain rfl := key h h' hl
    rfl

/-- A lookup ends if none of the lookups it leads to is stuck or leads back to itself. -/
theorem search_ends (x : Task) (hs : ∀ y, Relation.ReflTransGen (Leads cfg ti complete) x y → ¬ Stuck ti y)
    (hc : ∀ y, Relation.ReflTransGen (Leads cfg ti complete) x y → ¬ Relation.TransGen (Leads cfg ti complete) y y) :
    ∃ r, Search cfg ti complete x.type x.offset x.rest r := by
  let S := {y : Task // y.rest <:+ x.rest}
  have hfin : Finite S := tasks_finite x.rest
  let R : S → S → Prop := fun b a => Relation.ReflTransGen (Leads cfg ti complete) x a.1 ∧ Relation.TransGen (Leads cfg ti complete) a.1 b.1
  have ht : IsTrans S R := ⟨fun a b c h1 h2 => ⟨h2.1, h2.2.trans h1.2⟩⟩
  have hi : Std.Irrefl R := ⟨fun a h => hc a.1 h.1 h.2⟩
  have wf : WellFounded R := Finite.wellFounded_of_trans_of_irrefl R
  have key : ∀ y : S, Relation.ReflTransGen (Leads cfg ti complete) x y.1 → ∃ r, Search cfg ti complete y.1.type y.1.offset y.1.rest r := by
    intro y
    induction y using wf.induction with
    | _ y ih =>
      intro hy
      refine search_step y.1 (hs y.1 hy) fun z hz => ?_
      exact ih ⟨z, reached_suffix (hy.tail hz)⟩ ⟨hy, .single hz⟩ (hy.tail hz)
  exact key ⟨x, List.suffix_refl _⟩ .refl

theorem impl_diverges_iff (x : Task) : Diverges (fun n => impl cfg ti complete n x.offset x.type x.rest) ↔
    ∃ y, Relation.ReflTransGen (Leads cfg ti complete) x y ∧ (Stuck ti y ∨ Relation.TransGen (Leads cfg ti complete) y y) := by
  constructor
  · intro hd
    by_contra h
    push Not at h
    obtain ⟨r, hr⟩ := search_ends x (fun y hy => (h y hy).1) (fun y hy => (h y hy).2)
    exact not_returns_of_diverges hd (search_iff.1 hr)
  · rintro ⟨y, hy, h⟩ n
    by_contra h0
    have : ∃ m, impl cfg ti complete m y.offset y.type y.rest ≠ .nofuel := by
      rcases Relation.reflTransGen_iff_eq_or_transGen.1 hy with rfl | hy
      · exact ⟨n, h0⟩
      · obtain ⟨m, -, hm⟩ := leads_trans_fuel hy h0
        exact ⟨m, hm⟩
    obtain ⟨m, hm⟩ := this
    rcases h with h | h
    · exact hm (stuck_fuel h m)
    · exact hm (cycle_fuel h m)

end

end Btf

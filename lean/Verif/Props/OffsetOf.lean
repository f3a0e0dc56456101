import Verif.Proofs.OffsetApi
import Verif.Samples

/-!
# Properties C32–C48, C50: `offset_of`

`ti` is an arbitrary `TypeInformation` unless stated otherwise; `str s` is an arbitrary Rust string. In
`Returns (fun k => …)` the bound variable is the recursion bound of the model, never a bound on inputs.
-/

namespace Btf.Props

open Btf Spec TypeInformation

/-- `offset_of(t, p)` returns `o`. -/
abbrev OffsetOf (cfg : Cfg) (ti : TypeInformation) (t : UInt32) (p : Str) (o : Outcome (UInt32 × Offset)) : Prop :=
  Returns (fun k => offsetOf cfg ti k t p) o

/-- `size_of(t)` returns `o`. -/
abbrev SizeOf (cfg : Cfg) (ti : TypeInformation) (t : UInt32) (o : Outcome Nat) : Prop :=
  Returns (fun k => TypeInformation.sizeOf cfg ti k t) o

/-- `offset_of` is a function: it has at most one outcome. -/
theorem offset_of_deterministic (cfg : Cfg) (ti : TypeInformation) (t : UInt32) (s : String)
    (o o' : Outcome (UInt32 × Offset)) (h : OffsetOf cfg ti t (str s) o) (h' : OffsetOf cfg ti t (str s) o') :
    o = o' := (offsetOf_mono cfg ti t (utf8Like_str s)).returns_unique h h'

/-! ### C32: termination -/

/-- C32 (partial): on every type graph in which no type depends on itself, `offset_of` returns for every
id and every path. Missing: cyclic graphs, refuted by `offset_of_terminates_refuted`. -/
theorem offset_of_terminates_partial (cfg : Cfg) (ti : TypeInformation) (h : Acyclic ti) (t : UInt32) (s : String) :
    ∃ o, OffsetOf cfg ti t (str s) o := by
  obtain ⟨cs, b, -, -, he⟩ := offsetOf_cases cfg ti t (utf8Like_str s)
  obtain ⟨o, hne, ho⟩ := impl_settles cfg h b cs t (byteAt 0)
  refine ⟨o, ?_⟩
  rw [OffsetOf, he]
  exact returns_of_ev hne ho

theorem sample_x : Path (2 ^ 64) (str "x") [.name (str "x")] :=
  Path.name (rest := []) (.mk 120 [] (by simp [NameStart, Letter]) (by simp)) .nil

theorem sample_x' (cfg : Cfg) : AcceptedPath cfg.usizeMod (str "x") [.name (str "x")] :=
  .strict (Path.name (rest := []) (.mk 120 [] (by simp [NameStart, Letter]) (by simp)) .nil)

theorem bad_1 : Samples.bad.fromId 1 = some (.typedef ⟨.Typedef, 1, 0, false, 1⟩ ⟨some (str "loop"), 1⟩) := by
  decide +kernel

theorem bad_5 : Samples.bad.fromId 5 = some (.struct ⟨.Struct, 10, 2, false, 8⟩ ⟨some (str "self"), 8,
    [⟨0, none, 5, .byteOffset 0⟩, ⟨15, some (str "x"), 2, .byteOffset 0⟩]⟩) := by decide +kernel

/-- C32 is false: `Samples.bad` is accepted by the parser; in it type 1 is a typedef of itself and type 5
is a struct with an anonymous member of its own type. `offset_of` never returns on either. -/
theorem offset_of_terminates_refuted :
    TypeInformation.new Samples.dbg (Samples.buffer (Samples.leFile Samples.badTypes Samples.badStrings)) =
      .ok Samples.bad ∧
    (∀ cfg, Diverges (fun k => offsetOf cfg Samples.bad k 1 (str "x"))) ∧
    (∀ cfg, Diverges (fun k => offsetOf cfg Samples.bad k 5 (str "x"))) := by
  refine ⟨Samples.bad_parsed, fun cfg n => ?_, fun cfg n => ?_⟩
  · simp only [offsetOf_eq_of_accepted cfg _ 1 (utf8Like_str "x") (sample_x' cfg)]
    have hres : ∀ n, resolve Samples.bad n 1 = .nofuel := by
      intro n
      induction n with
      | zero => rfl
      | succ n ih => rw [(resolve_follows Samples.bad).next n 1 _ 1 bad_1 rfl, ih]; rfl
    cases n with
    | zero => rfl
    | succ n => rw [impl_succ, hres]; rfl
  · simp only [offsetOf_eq_of_accepted cfg _ 5 (utf8Like_str "x") (sample_x' cfg)]
    induction n with
    | zero => rfl
    | succ n ih =>
      rw [impl_succ]
      cases n with
      | zero => rfl
      | succ n =>
        have hres : resolve Samples.bad (n + 1) 5 = .ok (.struct ⟨.Struct, 10, 2, false, 8⟩ ⟨some (str "self"), 8,
            [⟨0, none, 5, .byteOffset 0⟩, ⟨15, some (str "x"), 2, .byteOffset 0⟩]⟩) := by
          rw [(resolve_follows Samples.bad).last n 5 (fun v hv => by rw [bad_5] at hv; cases hv; rfl), bad_5]
          rfl
        rw [hres]
        have hp : probeAnonymous (fun o u => impl cfg Samples.bad true (n + 1) o u [.name (str "x")]) (.byteOffset 0)
            [⟨0, none, 5, .byteOffset 0⟩] = .nofuel := by
          rw [probeAnonymous]
          show (match impl cfg Samples.bad true (n + 1) (.byteOffset 0) 5 [.name (str "x")] with
            | .ok r => _ | .err _ => _ | .panic => _ | .nofuel => _) = _
          rw [ih]
        simp only [Res.bind, memberListOf]
        have hfil : List.filter (fun m : Member => m.name.isNone)
            [⟨0, none, 5, .byteOffset 0⟩, ⟨15, some (str "x"), 2, .byteOffset 0⟩] = [⟨0, none, 5, .byteOffset 0⟩] := rfl
        rw [hfil, hp]
        rfl

/-! ### C33: the empty path -/

/-- C33: `offset_of(t, "")` is `(t, 0)` for every `t` — even one that does not exist. -/
theorem offset_of_empty (cfg : Cfg) (ti : TypeInformation) (t : UInt32) (o : Outcome (UInt32 × Offset)) :
    OffsetOf cfg ti t (str "") o ↔ o = .ok (t, .byteOffset 0) := by
  have h := returns_iff (cfg := cfg) (ti := ti) (t := t) (utf8Like_str "") (accepted_nil _) (o := .ok (t, .byteOffset 0))
  have hr : OffsetOf cfg ti t (str "") (.ok (t, .byteOffset 0)) := h.2 ⟨by simp, ev_impl_nil⟩
  constructor
  · intro h'; exact offset_of_deterministic cfg ti t "" _ _ h' hr
  · rintro rfl; exact hr

/-! ### C34: missing ids -/

/-- C34: a well-formed, non-empty path on an id whose chain of aliases reaches an id that is not in the
file fails with `InvalidTypeID`. -/
theorem offset_of_missing (cfg : Cfg) (ti : TypeInformation) (t a : UInt32) (s : String) (cs : List PathComponent)
    (hp : AcceptedPath cfg.usizeMod (str s) cs) (hne : cs ≠ []) (hc : Chain ti accessAlias t a)
    (ha : ti.fromId a = none) : OffsetOf cfg ti t (str s) (.err .InvalidTypeID) := by
  refine (returns_iff (utf8Like_str s) hp).2 ⟨by simp, ?_⟩
  cases cs with
  | nil => exact absurd rfl hne
  | cons c cs =>
    apply ev_impl_resolve_err
    obtain ⟨k, hk⟩ := resolve_err_iff.2 ⟨rfl, a, hc, ha⟩
    exact ev_of_eq (resolve_mono ti t) hk (by simp)

/-- `v` refers to `u` as its element type or as the type of one of its members. -/
def Mentions (v : TypeVariant) (u : UInt32) : Prop :=
  (∃ hd d, v = .array hd d ∧ d.elementTid = u) ∨ (∃ ms m, membersOf v = some ms ∧ m ∈ ms ∧ m.tid = u)

theorem impl_mentions {cfg : Cfg} {ti : TypeInformation} {n : Nat} :
    ∀ {offset : Offset} {t : UInt32} {cs : List PathComponent} {u : UInt32} {o : Offset},
      impl cfg ti true n offset t cs = .ok (u, o) → u = t ∨ ∃ x v, ti.fromId x = some v ∧ Mentions v u := by
  induction n with
  | zero => intro offset t cs u o h; cases h
  | succ n ih =>
    intro offset t cs u o h
    cases cs with
    | nil => cases h; exact .inl rfl
    | cons c cs =>
      obtain ⟨v, hv, h⟩ := impl_cons_ok h
      obtain ⟨a, -, ha, -⟩ := resolve_ok_iff.1 ⟨n, hv⟩
      right
      rcases h with ⟨i, x, rfl, hs, h⟩ | ⟨name, ms, rfl, hm, h⟩
      · obtain ⟨hd, d, s, rfl, -, -, hx1, -⟩ := stepIndex_ok hs
        rcases ih h with h' | h'
        · exact ⟨a, _, ha, .inl ⟨hd, d, rfl, by rw [h', hx1]⟩⟩
        · exact h'
      · rcases h with ⟨m, hmem, -, start, -, h⟩ | ⟨m, hmem, -, o', -, h⟩ <;>
        · rcases ih h with h' | h'
          · exact ⟨a, v, ha, .inr ⟨ms, m, hm, hmem, h'.symm⟩⟩
          · exact h'

/-- C34: no type is invented: the answer of `offset_of` is the type asked about, or an id mentioned as
element or member type by a type of the file. -/
theorem offset_of_no_invention (cfg : Cfg) (ti : TypeInformation) (t u : UInt32) (s : String) (o : Offset)
    (h : OffsetOf cfg ti t (str s) (.ok (u, o))) :
    u = t ∨ ∃ x v, ti.fromId x = some v ∧ Mentions v u := by
  obtain ⟨cs, -, N, hN⟩ := accepted_of_ok (utf8Like_str s) h
  exact impl_mentions (hN N (Nat.le_refl _))

/-! ### C35: array elements -/

theorem index_accepted {limit : Nat} {ds : Str} {i : Nat} (h : IsIndex limit ds i) :
    AcceptedPath limit ([91] ++ ds ++ [93]) [.index i] := by
  have := AcceptedPath.strict (Path.index h .nil)
  simpa using this

theorem utf8Like_index (s : String) : Utf8Like ([91] ++ str s ++ [93]) :=
  utf8Like_append (utf8Like_append (utf8Like_char '[') (utf8Like_str s)) (utf8Like_char ']')

/-- What `[i]` does on an array: the outcome of each part of the computation, in order. -/
theorem ev_index_array {cfg : Cfg} {ti : TypeInformation} {hd : Header} {d : ArrayData} {i : Nat} {s : Nat}
    (hi : i < d.elementCount.toNat) (hs : SizeOf cfg ti d.elementTid (.ok s)) :
    (i * s < 2 ^ 32 → Ev (fun n => stepIndex cfg ti n (byteAt 0) (.array hd d) i) (.ok (d.elementTid, byteAt (i * s)))) ∧
    (2 ^ 32 ≤ i * s → Ev (fun n => stepIndex cfg ti n (byteAt 0) (.array hd d) i) (.err .InvalidTypePath)) := by
  obtain ⟨N, hN⟩ := ev_of_returns (sizeOf_mono cfg ti d.elementTid) hs
  have hnot : ¬ i ≥ d.elementCount.toNat := by omega
  constructor
  · intro h
    refine ⟨N, fun n hn => ?_⟩
    beta_reduce at *
    have hadd : (byteAt 0).addU32 (UInt32.ofNat (i * s)) = .ok (byteAt (i * s)) := by
      rw [offset_add_u32_ok]
      refine ⟨by simp [IsBitfield, bitWidth_byteAt], rfl, ?_⟩
      rw [bitPos_byteAt h, bitPos_byteAt (by decide), ofNat_toNat_lt h]; omega
    have h64 : (u64CheckedMul i s).bind u32TryFrom = some (UInt32.ofNat (i * s)) := by
      simp only [u64CheckedMul, u32TryFrom, if_pos (show i * s < 2 ^ 64 by omega), if_pos h, Option.bind]
    simp only [stepIndex, if_neg hnot, hN n hn, h64, okOr, hadd, Bind.bind, Res.bind, Pure.pure]
  · intro h
    refine ⟨N, fun n hn => ?_⟩
    beta_reduce at *
    have h64 : (u64CheckedMul i s).bind u32TryFrom = none := by
      by_cases h' : i * s < 2 ^ 64
      · simp only [u64CheckedMul, if_pos h', Option.bind, u32TryFrom, if_neg (Nat.not_lt.2 h)]
      · simp only [u64CheckedMul, if_neg h', Option.bind]
    simp only [stepIndex, if_neg hnot, hN n hn, h64, okOr, Bind.bind, Res.bind, OffsetError.kind]

/-- C35: on an array, `[i]` succeeds exactly when `i` is in bounds, the element has a size `s` and `i·s`
fits in 32 bits; the answer is then the element type at byte `i·s`. (`ds` is any decimal literal for
`i`, with leading zeros or not.) -/
theorem offset_of_index_ok (cfg : Cfg) (ti : TypeInformation) (t : UInt32) (hd : Header) (d : ArrayData)
    (ds : String) (i : Nat) (hr : Resolves ti t (.array hd d)) (hds : IsIndex cfg.usizeMod (str ds) i)
    (u : UInt32) (o : Offset) :
    OffsetOf cfg ti t ([91] ++ str ds ++ [93]) (.ok (u, o)) ↔
      i < d.elementCount.toNat ∧ u = d.elementTid ∧
        ∃ s, SizeOf cfg ti d.elementTid (.ok s) ∧ i * s < 2 ^ 32 ∧ o = .byteOffset (UInt32.ofNat (i * s)) := by
  rw [OffsetOf, returns_iff (utf8Like_index ds) (index_accepted hds)]
  constructor
  · rintro ⟨-, hev⟩
    obtain ⟨N, hN⟩ := hev
    have h1 := hN (N + 1) (by omega)
    obtain ⟨v, hv, h⟩ := impl_cons_ok h1
    have := resolves_unique hr (resolve_ok_iff.1 ⟨N, hv⟩)
    subst this
    rcases h with ⟨j, x, hj, hs, h⟩ | ⟨name, ms, h, -⟩
    · cases hj
      obtain ⟨hd', d', s, hv', hi, hsz, -⟩ := stepIndex_ok hs
      cases hv'
      have hso : SizeOf cfg ti d.elementTid (.ok s) := ⟨by simp, N, hsz⟩
      obtain ⟨e1, e2⟩ := ev_index_array (hd := hd) hi hso
      have hmono := stepIndex_mono cfg ti (byteAt 0) (.array hd d) i
      rcases Nat.lt_or_ge (i * s) (2 ^ 32) with hlt | hge
      · have := ev_unique (e1 hlt) (ev_of_eq hmono hs (by simp))
        cases this
        cases N with
        | zero => cases h
        | succ N => cases h; exact ⟨hi, rfl, s, hso, hlt, rfl⟩
      · have := ev_unique (e2 hge) (ev_of_eq hmono hs (by simp))
        cases this
    · cases h
  · rintro ⟨hi, rfl, s, hs, hlt, rfl⟩
    exact ⟨by simp, ev_impl_index hr ((ev_index_array hi hs).1 hlt) ev_impl_nil⟩

/-- C35: an index out of bounds fails with `InvalidTypePath`. -/
theorem offset_of_index_bounds (cfg : Cfg) (ti : TypeInformation) (t : UInt32) (hd : Header) (d : ArrayData)
    (ds : String) (i : Nat) (hr : Resolves ti t (.array hd d)) (hds : IsIndex cfg.usizeMod (str ds) i)
    (hi : d.elementCount.toNat ≤ i) :
    OffsetOf cfg ti t ([91] ++ str ds ++ [93]) (.err .InvalidTypePath) := by
  refine (returns_iff (utf8Like_index ds) (index_accepted hds)).2 ⟨by simp, ?_⟩
  refine ev_impl_index_err hr (by simp) ⟨0, fun n _ => ?_⟩
  simp only [stepIndex, if_pos hi, offsetErr, OffsetError.kind]

/-- C35: an element whose offset does not fit in 32 bits fails with `InvalidTypePath`; an element without
size fails with the error of `size_of`. -/
theorem offset_of_index_err (cfg : Cfg) (ti : TypeInformation) (t : UInt32) (hd : Header) (d : ArrayData)
    (ds : String) (i : Nat) (hr : Resolves ti t (.array hd d)) (hds : IsIndex cfg.usizeMod (str ds) i)
    (hi : i < d.elementCount.toNat) :
    (∀ s, SizeOf cfg ti d.elementTid (.ok s) → 2 ^ 32 ≤ i * s →
      OffsetOf cfg ti t ([91] ++ str ds ++ [93]) (.err .InvalidTypePath)) ∧
    (∀ e, SizeOf cfg ti d.elementTid (.err e) → OffsetOf cfg ti t ([91] ++ str ds ++ [93]) (.err e)) := by
  constructor
  · intro s hs hge
    exact (returns_iff (utf8Like_index ds) (index_accepted hds)).2
      ⟨by simp, ev_impl_index_err hr (by simp) ((ev_index_array hi hs).2 hge)⟩
  · intro e hs
    refine (returns_iff (utf8Like_index ds) (index_accepted hds)).2 ⟨by simp, ev_impl_index_err hr (by simp) ?_⟩
    obtain ⟨N, hN⟩ := ev_of_returns (sizeOf_mono cfg ti d.elementTid) hs
    refine ⟨N, fun n hn => ?_⟩
    have hnot : ¬ i ≥ d.elementCount.toNat := by omega
    beta_reduce at *
    simp only [stepIndex, if_neg hnot, hN n hn, Bind.bind, Res.bind]

/-- C44: elements `i < j` of an array are `(j-i)·s` bytes apart, where `s` is the size of an element; so
they do not overlap and are in order. -/
theorem offset_of_elements_disjoint (cfg : Cfg) (ti : TypeInformation) (t : UInt32) (hd : Header) (d : ArrayData)
    (di dj : String) (i j : Nat) (hr : Resolves ti t (.array hd d))
    (hdi : IsIndex cfg.usizeMod (str di) i) (hdj : IsIndex cfg.usizeMod (str dj) j) (hij : i < j)
    (u v : UInt32) (o p : Offset)
    (hi : OffsetOf cfg ti t ([91] ++ str di ++ [93]) (.ok (u, o)))
    (hj : OffsetOf cfg ti t ([91] ++ str dj ++ [93]) (.ok (v, p))) :
    u = v ∧ ∃ s, SizeOf cfg ti u (.ok s) ∧ bitPos p = bitPos o + 8 * ((j - i) * s) ∧
      bitPos o + 8 * s ≤ bitPos p := by
  obtain ⟨-, rfl, s, hs, hlt, rfl⟩ := (offset_of_index_ok cfg ti t hd d di i hr hdi u o).1 hi
  obtain ⟨-, rfl, s', hs', hlt', rfl⟩ := (offset_of_index_ok cfg ti t hd d dj j hr hdj v p).1 hj
  have := (sizeOf_mono cfg ti d.elementTid).returns_unique hs hs'
  cases this
  refine ⟨rfl, s, hs, ?_⟩
  simp only [bitPos, ofNat_toNat_lt hlt, ofNat_toNat_lt hlt']
  have h1 : j * s = i * s + (j - i) * s := by rw [← Nat.add_mul]; congr 1; omega
  have h2 : s ≤ (j - i) * s := Nat.le_mul_of_pos_left s (by omega)
  omega

theorem str_eq_nil {s : String} (h : str s = []) : s = "" := by
  have hz : s.toList = [] := by
    by_contra hne
    obtain ⟨c, r, hcr⟩ := List.exists_cons_of_ne_nil hne
    rw [str, hcr, List.flatMap_cons] at h
    have := (List.append_eq_nil_iff.1 h).1
    simp at this
  exact String.toList_injective (by simpa using hz)

/-! ### C36, C46: aliases and pointers -/

/-- C36: for a non-empty path (well-formed or not), `offset_of` on a typedef, a qualified type or a forward
declaration gives exactly the answer it gives on the type behind it; one diverges iff the other does. -/
theorem offset_of_alias (cfg : Cfg) (ti : TypeInformation) (t u : UInt32) (v : TypeVariant) (s : String)
    (hs : s ≠ "") (hv : ti.fromId t = some v) (hu : accessAlias v = some u) (o : Outcome (UInt32 × Offset)) :
    OffsetOf cfg ti t (str s) o ↔ OffsetOf cfg ti u (str s) o := by
  have hp := utf8Like_str s
  obtain ⟨cs, b, hb, hy, he⟩ := offsetOf_cases cfg ti t hp
  obtain ⟨cs', b', hb', hy', he'⟩ := offsetOf_cases cfg ti u hp
  obtain ⟨rfl, rfl⟩ := yields_det hy hy'
  rw [OffsetOf, OffsetOf, he, he']
  have hrn : ∀ n, resolve ti (n + 1) t = resolve ti n u := by
    intro n
    rw [(resolve_follows ti).next n t v u hv hu]
    cases resolve ti n u <;> rfl
  have key : ∀ f g : Nat → Outcome (UInt32 × Offset), FuelMono f → FuelMono g →
      (∀ o, Ev f o ↔ Ev g o) → (Returns f o ↔ Returns g o) := by
    intro f g hf hg h
    constructor
    · intro h'; exact returns_of_ev h'.1 ((h o).1 (ev_of_returns hf h'))
    · intro h'; exact returns_of_ev h'.1 ((h o).2 (ev_of_returns hg h'))
  apply key _ _ (impl_fuelMono _ _ _ _ _ _) (impl_fuelMono _ _ _ _ _ _)
  intro o
  cases cs with
  | nil =>
    cases b with
    | true =>
      exfalso
      exact hs (str_eq_nil (accepted_empty (hb rfl)))
    | false =>
      have e1 : Ev (fun n => impl cfg ti false n (byteAt 0) t []) (.err .InvalidTypePath) := ev_impl_nil
      have e2 : Ev (fun n => impl cfg ti false n (byteAt 0) u []) (.err .InvalidTypePath) := ev_impl_nil
      constructor
      · intro h; rw [ev_unique h e1]; exact e2
      · intro h; rw [ev_unique h e2]; exact e1
  | cons c cs =>
    -- both are the same function of the resolved type, up to one unit of fuel
    rcases returns_or_diverges (fun n => resolve ti n u) with ⟨x, hx⟩ | hd
    · have ex := ev_of_returns (resolve_mono ti u) hx
      have ex' : Ev (fun n => resolve ti n t) x := ev_congr ex hrn
      obtain ⟨N, hN⟩ := ex
      obtain ⟨M, hM⟩ := ex'
      have heq : ∀ n, max N M ≤ n → impl cfg ti b (n + 1) (byteAt 0) t (c :: cs) =
          impl cfg ti b (n + 1) (byteAt 0) u (c :: cs) := by
        intro n hn
        have h1 := hN n (by omega)
        have h2 := hM n (by omega)
        simp only [] at h1 h2
        rw [impl_succ, impl_succ, h1, h2]
      constructor
      · rintro ⟨K, hK⟩
        refine ⟨max K (max N M) + 1, fun n hn => ?_⟩
        obtain ⟨m, rfl⟩ : ∃ m, n = m + 1 := ⟨n - 1, by omega⟩
        beta_reduce
        rw [← heq m (by omega)]; exact hK _ (by omega)
      · rintro ⟨K, hK⟩
        refine ⟨max K (max N M) + 1, fun n hn => ?_⟩
        obtain ⟨m, rfl⟩ : ∃ m, n = m + 1 := ⟨n - 1, by omega⟩
        beta_reduce
        rw [heq m (by omega)]; exact hK _ (by omega)
    · have hd' : ∀ n, resolve ti n t = .nofuel := by
        intro n
        cases n with
        | zero => rfl
        | succ n => rw [hrn]; exact hd n
      have z1 : ∀ n, impl cfg ti b n (byteAt 0) t (c :: cs) = .nofuel := by
        intro n
        cases n with
        | zero => rfl
        | succ n => rw [impl_succ, hd']; rfl
      have z2 : ∀ n, impl cfg ti b n (byteAt 0) u (c :: cs) = .nofuel := by
        intro n
        cases n with
        | zero => rfl
        | succ n =>
          have := hd n
          simp only [] at this
          rw [impl_succ, this]; rfl
      simp only [z1, z2]

/-- C36: the same through any number of aliases. -/
theorem offset_of_alias_chain (cfg : Cfg) (ti : TypeInformation) (t u : UInt32) (s : String)
    (hs : s ≠ "") (hc : Chain ti accessAlias t u) (o : Outcome (UInt32 × Offset)) :
    OffsetOf cfg ti t (str s) o ↔ OffsetOf cfg ti u (str s) o := by
  induction hc with
  | refl => exact Iff.rfl
  | step hv hu _ ih => rw [offset_of_alias cfg ti _ _ _ s hs hv hu, ih]

/-- C46: every non-empty path (well-formed or not) applied to a pointer, directly or behind aliases, fails
with `InvalidTypePath`. -/
theorem offset_of_pointer (cfg : Cfg) (ti : TypeInformation) (t : UInt32) (v : TypeVariant) (s : String)
    (hs : s ≠ "") (hr : Resolves ti t v) (hp : IsPtr v) (o : Outcome (UInt32 × Offset)) :
    OffsetOf cfg ti t (str s) o ↔ o = .err .InvalidTypePath := by
  have hu := utf8Like_str s
  have h : OffsetOf cfg ti t (str s) (.err .InvalidTypePath) := by
    obtain ⟨cs, b, hb, -, he⟩ := offsetOf_cases cfg ti t hu
    rw [OffsetOf, he]
    refine returns_of_ev (by simp) ?_
    cases cs with
    | nil =>
      cases b with
      | true => exact absurd (str_eq_nil (accepted_empty (hb rfl))) hs
      | false => exact ev_impl_nil
    | cons c cs =>
      cases v <;> try exact absurd hp id
      cases c with
      | index i => exact ev_impl_index_err hr (by simp) (ev_const _)
      | name name => exact ev_impl_name_scalar hr rfl
  constructor
  · intro h'; exact offset_of_deterministic cfg ti t s _ _ h' h
  · rintro rfl; exact h

/-- The same for every type that is neither an array nor a struct nor a union: nothing is inside. -/
theorem offset_of_scalar (cfg : Cfg) (ti : TypeInformation) (t : UInt32) (v : TypeVariant) (s : String)
    (hs : s ≠ "") (hr : Resolves ti t v) (hp : ¬ IsAggregate v) :
    OffsetOf cfg ti t (str s) (.err .InvalidTypePath) := by
  have hu := utf8Like_str s
  obtain ⟨cs, b, hb, -, he⟩ := offsetOf_cases cfg ti t hu
  rw [OffsetOf, he]
  refine returns_of_ev (by simp) ?_
  cases cs with
  | nil =>
    cases b with
    | true => exact absurd (str_eq_nil (accepted_empty (hb rfl))) hs
    | false => exact ev_impl_nil
  | cons c cs =>
    by_cases hvoid : v = .void
    · subst hvoid; exact ev_impl_void hr
    · cases c with
      | index i =>
        refine ev_impl_index_err hr hvoid ?_
        cases v <;> first | exact absurd trivial hp | exact ev_const _
      | name name =>
        refine ev_impl_name_scalar hr ?_
        cases v <;> first | exact absurd trivial hp | rfl

/-! ### C37: soundness -/

/-- C37 (build with overflow checks): whatever `offset_of` answers is a C access denoted by the path, at
its exact offset. -/
theorem offset_of_sound (cfg : Cfg) (hc : cfg.overflowChecks = true) (ti : TypeInformation) (t u : UInt32)
    (s : String) (o : Offset) (h : OffsetOf cfg ti t (str s) (.ok (u, o))) :
    ∃ cs bits w, AcceptedPath cfg.usizeMod (str s) cs ∧ Access ti t cs u bits w ∧ Denotes o bits w := by
  obtain ⟨cs, ha, N, hN⟩ := accepted_of_ok (utf8Like_str s) h
  obtain ⟨bits, w, hA, h1, h2⟩ := impl_sound (sizesExact_checked hc ti) (bitWidth_byteAt 0) (hN N (Nat.le_refl _))
  exact ⟨cs, bits, w, ha, hA, by rw [h2]; simp [bitPos, byteAt], h1⟩

/-- C37 (partial, any build): the same without overflow checks, if no type of the file is larger than
`usize` can express. Missing: larger types, refuted by `offset_of_sound_refuted`. -/
theorem offset_of_sound_partial (cfg : Cfg) (ti : TypeInformation)
    (hfit : ∀ t n, HasSize none ti t n → n < cfg.usizeMod)
    (hrec : ∀ t v n, ti.fromId t = some v → ownSize v = some n → n < 2 ^ 32) (t u : UInt32)
    (s : String) (o : Offset) (h : OffsetOf cfg ti t (str s) (.ok (u, o))) :
    ∃ cs bits w, AcceptedPath cfg.usizeMod (str s) cs ∧ Access ti t cs u bits w ∧ Denotes o bits w := by
  obtain ⟨cs, ha, N, hN⟩ := accepted_of_ok (utf8Like_str s) h
  have hx : SizesExact cfg ti := by
    intro k t n hk
    obtain ⟨m, hm, rfl⟩ := (hasSize_of_sizeOf hk).2 hrec
    rw [Nat.mod_eq_of_lt (hfit t m hm)]; exact hm
  obtain ⟨bits, w, hA, h1, h2⟩ := impl_sound hx (bitWidth_byteAt 0) (hN N (Nat.le_refl _))
  exact ⟨cs, bits, w, ha, hA, by rw [h2]; simp [bitPos, byteAt], h1⟩

theorem isIndex_1 (cfg : Cfg) : IsIndex cfg.usizeMod (str "1") 1 := by
  refine ⟨by decide, ?_, by decide, ?_⟩
  · have : str "1" = [49] := by decide
    rw [this]; simp [Digit]
  · unfold Cfg.usizeMod; cases cfg.width <;> decide

/-- C37 is false in builds without overflow checks: in the parsed file `Samples.bad` type 10 is an array of
two elements of `2^64` bytes each; `offset_of(10, "[1]")` answers offset 0, while the only C access
denoted by `[1]` is `2^64` bytes into the object. -/
theorem offset_of_sound_refuted :
    TypeInformation.new Samples.rel (Samples.buffer (Samples.leFile Samples.badTypes Samples.badStrings)) =
      .ok Samples.bad ∧
    OffsetOf Samples.rel Samples.bad 10 (str "[1]") (.ok (9, .byteOffset 0)) ∧
    ∀ u bits w, Access Samples.bad 10 [.index 1] u bits w → bits = 8 * 2 ^ 64 := by
  refine ⟨by decide +kernel, ⟨by simp, 6, by decide +kernel⟩, ?_⟩
  intro u bits w h
  have h2 : Samples.bad.fromId 2 = some (.int ⟨.Int, 6, 0, false, 4⟩
      ⟨some (str "int"), 4, false, false, false, 0, 32⟩) := by decide +kernel
  have h8 : Samples.bad.fromId 8 = some (.array ⟨.Array, 0, 0, false, 0⟩ ⟨2, 2, 0x80000000⟩) := by
    decide +kernel
  have h9 : Samples.bad.fromId 9 = some (.array ⟨.Array, 0, 0, false, 0⟩ ⟨8, 2, 0x80000000⟩) := by
    decide +kernel
  have h10 : Samples.bad.fromId 10 = some (.array ⟨.Array, 0, 0, false, 0⟩ ⟨9, 2, 2⟩) := by
    decide +kernel
  have e2 : HasSize none Samples.bad 2 4 := .own h2 rfl
  have e8 : HasSize none Samples.bad 8 (4 * (0x80000000 : UInt32).toNat) := .array h8 e2 (by simp)
  have e9 : HasSize none Samples.bad 9 (4 * (0x80000000 : UInt32).toNat * (0x80000000 : UInt32).toNat) :=
    .array h9 e8 (by simp)
  cases h with
  | element hr hi hs hA =>
    have := resolves_unique hr ⟨10, .refl, h10, rfl⟩
    cases this
    have hsz := hasSize_unique hs e9
    cases hA
    rw [hsz]
    decide

/-! ### C38, C39: completeness -/

/-- C38: on a well-formed type graph, every C access written as a path is found: `offset_of` returns `Ok`,
in every build. -/
theorem offset_of_complete (cfg : Cfg) (ti : TypeInformation) (hw : WellFormed ti) (t u : UInt32) (s : String)
    (cs : List PathComponent) (bits : Nat) (w : Option UInt32)
    (hp : AcceptedPath cfg.usizeMod (str s) cs) (hA : Access ti t cs u bits w) :
    ∃ r, OffsetOf cfg ti t (str s) (.ok r) := by
  obtain ⟨r, hr⟩ := impl_complete hw cfg hA 0 (room_zero hw.toLayout t)
  exact ⟨r, (returns_iff (utf8Like_str s) hp).2 ⟨by simp, hr⟩⟩

/-- Soundness on well-formed graphs, in every build. -/
theorem offset_of_sound_wf (cfg : Cfg) (ti : TypeInformation) (hw : WellFormed ti) (t u : UInt32)
    (s : String) (o : Offset) (h : OffsetOf cfg ti t (str s) (.ok (u, o))) :
    ∃ cs bits w, AcceptedPath cfg.usizeMod (str s) cs ∧ Access ti t cs u bits w ∧ Denotes o bits w := by
  obtain ⟨cs, ha, N, hN⟩ := accepted_of_ok (utf8Like_str s) h
  obtain ⟨bits, w, hA, h1, h2⟩ := impl_sound (sizesExact_wf hw.toLayout cfg) (bitWidth_byteAt 0) (hN N (Nat.le_refl _))
  exact ⟨cs, bits, w, ha, hA, by rw [h2]; simp [bitPos, byteAt], h1⟩

/-- C39: if the path denotes exactly one C access, `offset_of` returns exactly that one. -/
theorem offset_of_unique (cfg : Cfg) (ti : TypeInformation) (hw : WellFormed ti) (t u : UInt32) (s : String)
    (cs : List PathComponent) (bits : Nat) (w : Option UInt32)
    (hp : AcceptedPath cfg.usizeMod (str s) cs) (hA : Access ti t cs u bits w)
    (huniq : ∀ u' bits' w', Access ti t cs u' bits' w' → u' = u ∧ bits' = bits ∧ w' = w) :
    ∃ o, Denotes o bits w ∧ ∀ r, OffsetOf cfg ti t (str s) r ↔ r = .ok (u, o) := by
  obtain ⟨⟨u', o⟩, hr⟩ := offset_of_complete cfg ti hw t u s cs bits w hp hA
  obtain ⟨cs', bits', w', hp', hA', hD⟩ := offset_of_sound_wf cfg ti hw t u' s o hr
  have := accepted_unique (utf8Like_str s) hp' hp
  subst this
  obtain ⟨rfl, rfl, rfl⟩ := huniq _ _ _ hA'
  refine ⟨o, hD, fun r => ⟨fun h => offset_of_deterministic cfg ti t s _ _ h hr, ?_⟩⟩
  rintro rfl; exact hr

/-- C39: this is the case wherever C's rule of distinct member names (anonymous members included) holds:
`offset_of(t, path) = Ok((u, o))` iff the path denotes an access from `t` to a `u` at `o`. -/
theorem offset_of_iff (cfg : Cfg) (ti : TypeInformation) (hw : WellFormed ti) (hu : Unambiguous ti)
    (t u : UInt32) (s : String) (o : Offset) :
    OffsetOf cfg ti t (str s) (.ok (u, o)) ↔
      ∃ cs bits w, AcceptedPath cfg.usizeMod (str s) cs ∧ Access ti t cs u bits w ∧ Denotes o bits w := by
  constructor
  · exact offset_of_sound_wf cfg ti hw t u s o
  · rintro ⟨cs, bits, w, hp, hA, hD⟩
    obtain ⟨o', hD', h⟩ := offset_of_unique cfg ti hw t u s cs bits w hp hA
      (fun u' bits' w' hA' => let ⟨h1, h2, h3⟩ := access_unique hu hA hA'; ⟨h1.symm, h2.symm, h3.symm⟩)
    have : o = o' := by
      obtain ⟨h1, h2⟩ := hD
      obtain ⟨h1', h2'⟩ := hD'
      cases o <;> cases o' <;> simp [bitPos, bitWidth] at * <;> subst h2 <;> simp_all
      · exact UInt32.toNat_inj.1 (by omega)
      · exact UInt32.toNat_inj.1 (by omega)
    rw [this]
    exact (h _).2 rfl

end Btf.Props

import Verif.Proofs.Size
import Verif.Samples

/-!
# Properties C27–C31: `size_of` and `pointee_tid`

`ti` is an arbitrary `TypeInformation`, so the theorems cover every parsed file. In `Returns (fun n => …)`
the bound variable is the recursion bound of the model, never a bound on the inputs.
-/

namespace Btf.Props

open Btf Spec

/-- C27 (build with overflow checks): `size_of(t) = Ok(n)` exactly when `n` is the size of `t` and every
array on the way fits in `usize`. -/
theorem size_of_ok_iff (cfg : Cfg) (hc : cfg.overflowChecks = true) (ti : TypeInformation) (t : UInt32)
    (n : Nat) :
    Returns (fun k => TypeInformation.sizeOf cfg ti k t) (.ok n) ↔ HasSize (some cfg.usizeMod) ti t n := by
  constructor
  · rintro ⟨-, k, h⟩; exact (hasSize_of_sizeOf h).1 hc
  · intro h; exact ⟨by simp, sizeOf_of_hasSize h⟩

/-- C27 (any build): if `n` is the size of `t` and every array on the way fits in `usize`, `size_of`
returns it, and nothing else. -/
theorem size_of_exact (cfg : Cfg) (ti : TypeInformation) (t : UInt32) (n : Nat)
    (h : HasSize (some cfg.usizeMod) ti t n) (o : Outcome Nat) :
    Returns (fun k => TypeInformation.sizeOf cfg ti k t) o ↔ o = .ok n := by
  have hr : Returns (fun k => TypeInformation.sizeOf cfg ti k t) (.ok n) := ⟨by simp, sizeOf_of_hasSize h⟩
  constructor
  · intro h'; exact (sizeOf_mono cfg ti t).returns_unique h' hr
  · rintro rfl; exact hr

/-- C58: what `size_of` does with the exact size `m` of a type in a build without overflow
checks: it answers `m` modulo the number of `usize` values, hence `m` itself exactly when it fits. -/
theorem size_of_unchecked (cfg : Cfg) (hc : cfg.overflowChecks = false) (ti : TypeInformation)
    (hf : SizesFit ti) (t : UInt32) (n : Nat) :
    Returns (fun k => TypeInformation.sizeOf cfg ti k t) (.ok n) ↔
      ∃ m, HasSize none ti t m ∧ n = m % cfg.usizeMod := by
  constructor
  · rintro ⟨-, k, h⟩; exact (hasSize_of_sizeOf h).2 hf
  · rintro ⟨m, h, rfl⟩; exact ⟨by simp, sizeOf_release hc hf h⟩

/-- C58: with overflow checks an array that does not fit makes `size_of` panic; it never
returns a wrong number. -/
theorem size_of_checked (cfg : Cfg) (hc : cfg.overflowChecks = true) (ti : TypeInformation)
    (t : UInt32) (m : Nat) (h : HasSize none ti t m) (hno : ¬ HasSize (some cfg.usizeMod) ti t m) :
    Returns (fun k => TypeInformation.sizeOf cfg ti k t) .panic := by
  rcases sizeOf_panic hc h with h' | ⟨k, hk⟩
  · exact absurd h' hno
  · exact ⟨by simp, k, hk⟩

/-- C28 (partial): with overflow checks `size_of` never answers a wrong number; and in every build it answers
the exact size if every array on the way fits in `usize`. Missing: an error for the other arrays
(`size_of_overflow_refuted`). -/
theorem size_of_no_wrong_number_partial (cfg : Cfg) (ti : TypeInformation) (t : UInt32) (n m : Nat)
    (h : Returns (fun k => TypeInformation.sizeOf cfg ti k t) (.ok n)) :
    (cfg.overflowChecks = true → HasSize none ti t n) ∧ (HasSize (some cfg.usizeMod) ti t m → n = m) := by
  constructor
  · intro hc
    have := (size_of_ok_iff cfg hc ti t n).1 h
    clear h
    induction this with
    | own h1 h2 => exact .own h1 h2
    | ptr h1 h2 h3 => exact .ptr h1 h2 h3
    | array h1 _ _ ih => exact .array h1 ih (by simp)
    | «alias» h1 h2 _ ih => exact .alias h1 h2 ih
  · intro hm
    have := (size_of_exact cfg ti t m hm (.ok n)).1 h
    cases this; rfl

/-- C28 is false: in the parsed file `Samples.bad` type 4 is an array of `4·(2^32-1)²` bytes. The release
build answers a smaller number, the debug build panics. -/
theorem size_of_overflow_refuted :
    TypeInformation.new Samples.dbg (Samples.buffer (Samples.leFile Samples.badTypes Samples.badStrings)) =
      .ok Samples.bad ∧
    HasSize none Samples.bad 4 (4 * (2 ^ 32 - 1) * (2 ^ 32 - 1)) ∧
    Returns (fun k => TypeInformation.sizeOf Samples.rel Samples.bad k 4) (.ok 18446744039349813252) ∧
    Returns (fun k => TypeInformation.sizeOf Samples.dbg Samples.bad k 4) .panic := by
  refine ⟨Samples.bad_parsed, ?_, ⟨by simp, 3, by decide +kernel⟩, ⟨by simp, 3, by decide +kernel⟩⟩
  have h2 : Samples.bad.fromId 2 = some (.int ⟨.Int, 6, 0, false, 4⟩
      ⟨some (str "int"), 4, false, false, false, 0, 32⟩) := by decide +kernel
  have h3 : Samples.bad.fromId 3 = some (.array ⟨.Array, 0, 0, false, 0⟩ ⟨2, 2, 0xFFFFFFFF⟩) := by
    decide +kernel
  have h4 : Samples.bad.fromId 4 = some (.array ⟨.Array, 0, 0, false, 0⟩ ⟨3, 2, 0xFFFFFFFF⟩) := by
    decide +kernel
  have e2 : HasSize none Samples.bad 2 4 := .own h2 rfl
  have e3 : HasSize none Samples.bad 3 (4 * (0xFFFFFFFF : UInt32).toNat) := .array h3 e2 (by simp)
  exact .array h4 e3 (by simp)

/-- C29: `size_of` fails with `InvalidTypeID` exactly when the chain of references reaches an id that is
not in the file, or a pointer while the pointer size cannot be determined. -/
theorem size_of_invalid_type_id_iff (cfg : Cfg) (ti : TypeInformation) (t : UInt32) :
    Returns (fun k => TypeInformation.sizeOf cfg ti k t) (.err .InvalidTypeID) ↔
      ∃ u, Chain ti sizeRef t u ∧
        (ti.fromId u = none ∨ ∃ v, ti.fromId u = some v ∧ IsPtr v ∧ ¬ ∃ n, PointerSize ti n) := by
  constructor
  · rintro ⟨-, h⟩
    obtain ⟨u, hc, hend, hl⟩ := sizeOf_err_iff.1 h
    rcases (sizeLeaf_err hend).1 hl with ⟨-, h⟩ | ⟨h, -⟩
    · exact ⟨u, hc, h⟩
    · cases h
  · rintro ⟨u, hc, h⟩
    have hend : ∀ v, ti.fromId u = some v → sizeRef v = none := by
      intro v hv
      rcases h with h | ⟨w, hw, hp, -⟩
      · rw [h] at hv; cases hv
      · rw [hw] at hv; cases hv; exact isPtr_sizeRef hp
    exact ⟨by simp, sizeOf_err_iff.2 ⟨u, hc, hend, (sizeLeaf_err hend).2 (.inl ⟨rfl, h⟩)⟩⟩

/-- C29: `size_of` fails with `NotSized` exactly when the chain reaches a kind without size. -/
theorem size_of_not_sized_iff (cfg : Cfg) (ti : TypeInformation) (t : UInt32) :
    Returns (fun k => TypeInformation.sizeOf cfg ti k t) (.err .NotSized) ↔
      ∃ u v, Chain ti sizeRef t u ∧ ti.fromId u = some v ∧ Unsized v := by
  constructor
  · rintro ⟨-, h⟩
    obtain ⟨u, hc, hend, hl⟩ := sizeOf_err_iff.1 h
    rcases (sizeLeaf_err hend).1 hl with ⟨h, -⟩ | ⟨-, v, h⟩
    · cases h
    · exact ⟨u, v, hc, h⟩
  · rintro ⟨u, v, hc, hv, h⟩
    have hend : ∀ w, ti.fromId u = some w → sizeRef w = none := by
      intro w hw
      rw [hv] at hw; cases hw
      cases v <;> simp_all [Unsized, sizeRef, sizeAlias]
    exact ⟨by simp, sizeOf_err_iff.2 ⟨u, hc, hend, (sizeLeaf_err hend).2 (.inr ⟨rfl, v, hv, h⟩)⟩⟩

/-- C29: there is no other failure. -/
theorem size_of_err_kinds (cfg : Cfg) (ti : TypeInformation) (t : UInt32) (e : ErrorKind)
    (h : Returns (fun k => TypeInformation.sizeOf cfg ti k t) (.err e)) :
    e = .InvalidTypeID ∨ e = .NotSized := by
  obtain ⟨u, hc, hend, hl⟩ := sizeOf_err_iff.1 h.2
  rcases (sizeLeaf_err hend).1 hl with ⟨h, -⟩ | ⟨h, -⟩
  · exact .inl h
  · exact .inr h

/-- C30: `pointee_tid(t) = Ok(p)` exactly when typedefs and qualifiers lead from `t` to a pointer
to `p`. -/
theorem pointee_tid_ok_iff (ti : TypeInformation) (t p : UInt32) :
    Returns (fun k => TypeInformation.pointeeTid ti k t) (.ok p) ↔
      ∃ u h d, Chain ti aliasOf t u ∧ ti.fromId u = some (.ptr h d) ∧ d.tid = p := by
  constructor
  · rintro ⟨-, k, h⟩
    simp only [] at h
    induction k generalizing t with
    | zero => simp [TypeInformation.pointeeTid] at h
    | succ k ih =>
      rcases goes_on_or_ends ti aliasOf t with ⟨v, u, hv, hu⟩ | hend
      · rw [(pointeeTid_follows ti).next k t v u hv hu] at h
        have : TypeInformation.pointeeTid ti k u = .ok p := by
          revert h; cases TypeInformation.pointeeTid ti k u <;> simp [Res.bind]
        obtain ⟨w, hd, d, hc, h'⟩ := ih u this
        exact ⟨w, hd, d, .step hv hu hc, h'⟩
      · rw [(pointeeTid_follows ti).last k t hend] at h
        cases hv : ti.fromId t with
        | none => rw [hv] at h; cases h
        | some v =>
          rw [hv] at h
          cases v <;> simp [pointeeLeaf] at h
          exact ⟨t, _, _, .refl, hv, h⟩
  · rintro ⟨u, hd, d, hc, hv, rfl⟩
    obtain ⟨k, hk⟩ := (pointeeTid_follows ti).pass hc
      (fun w hw => by rw [hv] at hw; cases hw; rfl)
    exact ⟨by simp, k, by rw [hv] at hk; exact hk⟩

/-- C30: it fails exactly when the chain ends in anything else, or in an id that is not in the file; the
error is `InvalidTypeID`. -/
theorem pointee_tid_err_iff (ti : TypeInformation) (t : UInt32) (e : ErrorKind) :
    Returns (fun k => TypeInformation.pointeeTid ti k t) (.err e) ↔
      e = .InvalidTypeID ∧ ∃ u, Chain ti aliasOf t u ∧
        (∀ v, ti.fromId u = some v → aliasOf v = none ∧ ¬ IsPtr v) := by
  constructor
  · rintro ⟨-, k, h⟩
    simp only [] at h
    induction k generalizing t with
    | zero => simp [TypeInformation.pointeeTid] at h
    | succ k ih =>
      rcases goes_on_or_ends ti aliasOf t with ⟨v, u, hv, hu⟩ | hend
      · rw [(pointeeTid_follows ti).next k t v u hv hu] at h
        have : TypeInformation.pointeeTid ti k u = .err e := by
          revert h; cases TypeInformation.pointeeTid ti k u <;> simp [Res.bind]
        obtain ⟨he, w, hc, h'⟩ := ih u this
        exact ⟨he, w, .step hv hu hc, h'⟩
      · rw [(pointeeTid_follows ti).last k t hend] at h
        refine ⟨?_, t, .refl, ?_⟩
        · revert h; cases ti.fromId t with
          | none => simp [pointeeLeaf]; exact eq_comm.1
          | some v => cases v <;> simp [pointeeLeaf] <;> exact eq_comm.1
        · intro v hv
          refine ⟨hend v hv, ?_⟩
          rw [hv] at h
          cases v <;> simp_all [pointeeLeaf, IsPtr]
  · rintro ⟨rfl, u, hc, hend⟩
    obtain ⟨k, hk⟩ := (pointeeTid_follows ti).pass hc (fun w hw => (hend w hw).1)
    refine ⟨by simp, k, ?_⟩
    simp only [hk]
    cases hv : ti.fromId u with
    | none => rfl
    | some v =>
      have := (hend v hv).2
      cases v <;> simp_all [pointeeLeaf, IsPtr]

/-- C57: `size_of` runs for ever exactly when the chain of references never ends. -/
theorem size_of_diverges_iff (cfg : Cfg) (ti : TypeInformation) (t : UInt32) :
    Diverges (fun k => TypeInformation.sizeOf cfg ti k t) ↔ Endless ti sizeRef t :=
  (sizeOf_follows cfg ti).diverges_iff (sizeLeaf_ne_nofuel ti) (sizePost_ne_nofuel cfg) t

/-- C57: `pointee_tid` runs for ever exactly when the chain of aliases never ends. -/
theorem pointee_tid_diverges_iff (ti : TypeInformation) (t : UInt32) :
    Diverges (fun k => TypeInformation.pointeeTid ti k t) ↔ Endless ti aliasOf t :=
  (pointeeTid_follows ti).diverges_iff pointeeLeaf_ne_nofuel (by simp) t

/-- C31 (partial): in particular both queries return when references only go to types of smaller rank
(the case for every file written by a compiler, where chains of aliases and element types end). -/
theorem queries_return_of_ranked_partial (cfg : Cfg) (ti : TypeInformation) (rank : UInt32 → Nat)
    (hr : ∀ t v u, ti.fromId t = some v → sizeRef v = some u → rank u < rank t) (t : UInt32) :
    (∃ o, Returns (fun k => TypeInformation.sizeOf cfg ti k t) o) ∧
    (∃ o, Returns (fun k => TypeInformation.pointeeTid ti k t) o) := by
  have hne : ∀ ref : TypeVariant → Option UInt32, (∀ v u, ref v = some u → sizeRef v = some u) →
      ¬ Endless ti ref t := by
    intro ref href hE
    have : ∀ n t, rank t ≤ n → ¬ Endless ti ref t := by
      intro n
      induction n with
      | zero =>
        intro t ht hE
        obtain ⟨v, w, hv, hw⟩ := hE t .refl
        have := hr t v w hv (href v w hw); omega
      | succ n ih =>
        intro t ht hE
        obtain ⟨v, w, hv, hw⟩ := hE t .refl
        have := hr t v w hv (href v w hw)
        exact ih w (by omega) (fun u hu => hE u (.step hv hw hu))
    exact this _ t (Nat.le_refl _) hE
  constructor
  · rcases returns_or_diverges (fun k => TypeInformation.sizeOf cfg ti k t) with h | h
    · exact h
    · exact absurd ((size_of_diverges_iff cfg ti t).1 h) (hne sizeRef (fun _ _ h => h))
  · rcases returns_or_diverges (fun k => TypeInformation.pointeeTid ti k t) with h | h
    · exact h
    · refine absurd ((pointee_tid_diverges_iff ti t).1 h) (hne aliasOf ?_)
      intro v u h; cases v <;> simp_all [aliasOf, sizeRef, sizeAlias]

/-- C31 is false: `Samples.bad` is accepted by the parser, and its type 1 is a typedef of itself; neither
query ever returns on it. -/
theorem queries_terminate_refuted :
    TypeInformation.new Samples.dbg (Samples.buffer (Samples.leFile Samples.badTypes Samples.badStrings)) =
      .ok Samples.bad ∧
    (∀ cfg, Diverges (fun k => TypeInformation.sizeOf cfg Samples.bad k 1)) ∧
    Diverges (fun k => TypeInformation.pointeeTid Samples.bad k 1) := by
  have h1 : Samples.bad.fromId 1 = some (.typedef ⟨.Typedef, 1, 0, false, 1⟩ ⟨some (str "loop"), 1⟩) := by
    decide +kernel
  have hE : ∀ ref : TypeVariant → Option UInt32, (∀ h d, ref (.typedef h d) = some d.tid) →
      Endless Samples.bad ref 1 := by
    intro ref href u hc
    have : ∀ t u, Chain Samples.bad ref t u → t = 1 → u = 1 := by
      intro t u hc
      induction hc with
      | refl => exact id
      | step hv hu _ ih =>
        rintro rfl
        rw [h1] at hv; cases hv
        rw [href] at hu; cases hu
        exact ih rfl
    have := this 1 u hc rfl
    subst this
    exact ⟨_, 1, h1, href _ _⟩
  exact ⟨Samples.bad_parsed, fun cfg => (size_of_diverges_iff cfg _ _).2 (hE _ (fun _ _ => rfl)),
    (pointee_tid_diverges_iff _ _).2 (hE _ (fun _ _ => rfl))⟩

/-! ### Concrete cases -/

example : Returns (fun k => TypeInformation.sizeOf Samples.dbg Samples.zoo k 5) (.ok 40) :=
  ⟨by simp, 5, by decide +kernel⟩
example : HasSize (some Samples.dbg.usizeMod) Samples.zoo 5 40 :=
  (size_of_ok_iff Samples.dbg rfl Samples.zoo 5 40).1 ⟨by simp, 5, by decide +kernel⟩
example : Returns (fun k => TypeInformation.sizeOf Samples.dbg Samples.zoo k 11) (.ok 8) :=
  ⟨by simp, 5, by decide +kernel⟩
example : Returns (fun k => TypeInformation.sizeOf Samples.dbg Samples.zoo k 13) (.err .NotSized) :=
  ⟨by simp, 5, by decide +kernel⟩
example : Returns (fun k => TypeInformation.sizeOf Samples.dbg Samples.bad k 6) (.err .InvalidTypeID) :=
  ⟨by simp, 5, by decide +kernel⟩
example : Returns (fun k => TypeInformation.pointeeTid Samples.zoo k 11) (.ok 8) :=
  ⟨by simp, 5, by decide +kernel⟩
example : Returns (fun k => TypeInformation.pointeeTid Samples.zoo k 8) (.err .InvalidTypeID) :=
  ⟨by simp, 5, by decide +kernel⟩

end Btf.Props

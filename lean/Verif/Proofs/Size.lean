import Verif.Proofs.Queries

/-!
# `size_of` against `HasSize`
-/

namespace Btf

open Spec

theorem wrapOr_fits {ε : Type} {cfg : Cfg} {m v : Nat} (h : v < m) : (cfg.wrapOr m v : Res ε Nat) = .ok v := by
  simp [Cfg.wrapOr, h]

theorem ownSize_sizeRef {v : TypeVariant} {n : Nat} (h : ownSize v = some n) : sizeRef v = none := by
  cases v <;> simp_all [ownSize, sizeRef, sizeAlias]

theorem isPtr_sizeRef {v : TypeVariant} (h : IsPtr v) : sizeRef v = none := by
  cases v <;> simp_all [IsPtr, sizeRef, sizeAlias]

theorem sizeAlias_sizeRef {v : TypeVariant} {u : UInt32} (h : sizeAlias v = some u) :
    sizeRef v = some u ∧ ∀ cfg n, sizePost cfg v n = .ok n := by
  cases v <;> simp_all [sizeRef, sizeAlias, sizePost]

theorem sizeRef_cases {v : TypeVariant} {u : UInt32} (h : sizeRef v = some u) :
    sizeAlias v = some u ∨ ∃ hd d, v = .array hd d ∧ u = d.elementTid := by
  cases v
  case array hd d => exact .inr ⟨hd, d, rfl, by simpa [sizeRef] using h.symm⟩
  all_goals exact .inl h

/-- Completeness in every build: sizes that fit are computed. -/
theorem sizeOf_of_hasSize {cfg : Cfg} {ti : TypeInformation} {t : UInt32} {n : Nat}
    (h : HasSize (some cfg.usizeMod) ti t n) : ∃ k, TypeInformation.sizeOf cfg ti k t = .ok n := by
  induction h with
  | @own t v n hv ho =>
    refine ⟨1, ?_⟩
    rw [(sizeOf_follows cfg ti).last 0 t (fun w hw => by rw [hv] at hw; cases hw; exact ownSize_sizeRef ho)]
    exact sizeLeaf_ok.2 ⟨v, hv, .inl ho⟩
  | @ptr t v n hv hp hs =>
    refine ⟨1, ?_⟩
    rw [(sizeOf_follows cfg ti).last 0 t (fun w hw => by rw [hv] at hw; cases hw; exact isPtr_sizeRef hp)]
    exact sizeLeaf_ok.2 ⟨v, hv, .inr ⟨hp, hs⟩⟩
  | @array t hd d n hv _ hl ih =>
    obtain ⟨k, hk⟩ := ih
    refine ⟨k + 1, ?_⟩
    rw [(sizeOf_follows cfg ti).next k t _ d.elementTid hv rfl, hk]
    exact wrapOr_fits (hl _ rfl)
  | @alias t v u n hv ha _ ih =>
    obtain ⟨k, hk⟩ := ih
    refine ⟨k + 1, ?_⟩
    have := sizeAlias_sizeRef ha
    rw [(sizeOf_follows cfg ti).next k t v u hv this.1, hk]
    exact this.2 cfg n

/-- Soundness: a computed size is the exact one (with overflow checks), or the exact one modulo the
size of `usize` (without). -/
theorem hasSize_of_sizeOf {cfg : Cfg} {ti : TypeInformation} {k : Nat} {t : UInt32} {n : Nat}
    (h : TypeInformation.sizeOf cfg ti k t = .ok n) :
    (cfg.overflowChecks = true → HasSize (some cfg.usizeMod) ti t n) ∧
    (SizesFit ti → ∃ m, HasSize none ti t m ∧ n = m % cfg.usizeMod) := by
  have hmod : 2 ^ 32 ≤ cfg.usizeMod := by unfold Cfg.usizeMod; cases cfg.width <;> decide
  induction k generalizing t n with
  | zero => simp [TypeInformation.sizeOf] at h
  | succ k ih =>
    rcases goes_on_or_ends ti sizeRef t with ⟨v, u, hv, hu⟩ | hend
    · rw [(sizeOf_follows cfg ti).next k t v u hv hu] at h
      cases hs : TypeInformation.sizeOf cfg ti k u with
      | err e => rw [hs] at h; cases h
      | panic => rw [hs] at h; cases h
      | nofuel => rw [hs] at h; cases h
      | ok m =>
        rw [hs] at h
        simp only [Res.bind] at h
        have ih := ih hs
        rcases sizeRef_cases hu with ha | ⟨hd, d, rfl, rfl⟩
        · rw [(sizeAlias_sizeRef ha).2] at h
          cases h
          exact ⟨fun hc => .alias hv ha (ih.1 hc), fun hf =>
            let ⟨m', h1, h2⟩ := ih.2 hf; ⟨m', .alias hv ha h1, h2⟩⟩
        · simp only [sizePost, Cfg.usizeMul, Cfg.wrapOr] at h
          constructor
          · intro hc
            by_cases hlt : m * d.elementCount.toNat < cfg.usizeMod
            · rw [if_pos hlt] at h; cases h
              exact .array hv (ih.1 hc) (by rintro l hl; cases hl; exact hlt)
            · rw [if_neg hlt, if_pos hc] at h; cases h
          · intro hf
            obtain ⟨m', h1, h2⟩ := ih.2 hf
            refine ⟨m' * d.elementCount.toNat, .array hv h1 (by simp), ?_⟩
            have hn : n = m * d.elementCount.toNat % cfg.usizeMod := by
              by_cases hlt : m * d.elementCount.toNat < cfg.usizeMod
              · rw [if_pos hlt] at h; cases h
                exact (Nat.mod_eq_of_lt hlt).symm
              · rw [if_neg hlt] at h
                split at h
                · cases h
                · cases h; rfl
            rw [hn, h2, Nat.mod_mul_mod]
    · rw [(sizeOf_follows cfg ti).last k t hend] at h
      obtain ⟨v, hv, h⟩ := sizeLeaf_ok.1 h
      rcases h with ho | ⟨hp, hs⟩
      · exact ⟨fun _ => .own hv ho, fun hf => ⟨n, .own hv ho, by
          have := hf t v n hv ho
          exact (Nat.mod_eq_of_lt (by omega)).symm⟩⟩
      · refine ⟨fun _ => .ptr hv hp hs, fun hf => ⟨n, .ptr hv hp hs, ?_⟩⟩
        obtain ⟨l, hd, d, -, hl, rfl⟩ := hs
        have := hf l _ d.size hl rfl
        exact (Nat.mod_eq_of_lt (by omega)).symm

/-- Without overflow checks every type that has a size gets it, modulo the size of `usize`. -/
theorem sizeOf_release {cfg : Cfg} (hc : cfg.overflowChecks = false) {ti : TypeInformation} (hf : SizesFit ti)
    {t : UInt32} {m : Nat} (h : HasSize none ti t m) :
    ∃ k, TypeInformation.sizeOf cfg ti k t = .ok (m % cfg.usizeMod) := by
  have hmod : 2 ^ 32 ≤ cfg.usizeMod := by unfold Cfg.usizeMod; cases cfg.width <;> decide
  induction h with
  | @own t v n hv ho =>
    refine ⟨1, ?_⟩
    rw [(sizeOf_follows cfg ti).last 0 t (fun w hw => by rw [hv] at hw; cases hw; exact ownSize_sizeRef ho)]
    have := hf t v n hv ho
    rw [Nat.mod_eq_of_lt (by omega)]
    exact sizeLeaf_ok.2 ⟨v, hv, .inl ho⟩
  | @ptr t v n hv hp hs =>
    refine ⟨1, ?_⟩
    rw [(sizeOf_follows cfg ti).last 0 t (fun w hw => by rw [hv] at hw; cases hw; exact isPtr_sizeRef hp)]
    have hlt : n < 2 ^ 32 := by
      obtain ⟨l, hd, d, -, hl, rfl⟩ := hs
      have := hf l _ d.size hl rfl
      omega
    rw [Nat.mod_eq_of_lt (by omega)]
    exact sizeLeaf_ok.2 ⟨v, hv, .inr ⟨hp, hs⟩⟩
  | @array t hd d n hv _ hl ih =>
    obtain ⟨k, hk⟩ := ih
    refine ⟨k + 1, ?_⟩
    rw [(sizeOf_follows cfg ti).next k t _ d.elementTid hv rfl, hk]
    simp only [Res.bind, sizePost, Cfg.usizeMul, Cfg.wrapOr]
    by_cases hlt : n % cfg.usizeMod * d.elementCount.toNat < cfg.usizeMod
    · rw [if_pos hlt, ← Nat.mod_mul_mod, Nat.mod_eq_of_lt hlt]
    · rw [if_neg hlt, hc]
      simp [Nat.mod_mul_mod]
  | @alias t v u n hv ha _ ih =>
    obtain ⟨k, hk⟩ := ih
    refine ⟨k + 1, ?_⟩
    have := sizeAlias_sizeRef ha
    rw [(sizeOf_follows cfg ti).next k t v u hv this.1, hk]
    exact this.2 cfg _

/-- With overflow checks a size that does not fit makes `size_of` panic. -/
theorem sizeOf_panic {cfg : Cfg} {ti : TypeInformation} {t : UInt32} {m : Nat}
    (hc : cfg.overflowChecks = true) (h : HasSize none ti t m) :
    HasSize (some cfg.usizeMod) ti t m ∨ ∃ k, TypeInformation.sizeOf cfg ti k t = .panic := by
  induction h with
  | own hv ho => exact .inl (.own hv ho)
  | ptr hv hp hs => exact .inl (.ptr hv hp hs)
  | @array t hd d n hv _ _ ih =>
    rcases ih with ih | ⟨k, hk⟩
    · by_cases hlt : n * d.elementCount.toNat < cfg.usizeMod
      · exact .inl (.array hv ih (by rintro l hl; cases hl; exact hlt))
      · right
        obtain ⟨k, hk⟩ := sizeOf_of_hasSize ih
        refine ⟨k + 1, ?_⟩
        rw [(sizeOf_follows cfg ti).next k t _ d.elementTid hv rfl, hk]
        simp [Res.bind, sizePost, Cfg.usizeMul, Cfg.wrapOr, hlt, hc]
    · right
      refine ⟨k + 1, ?_⟩
      rw [(sizeOf_follows cfg ti).next k t _ d.elementTid hv rfl, hk]; rfl
  | @alias t v u n hv ha _ ih =>
    rcases ih with ih | ⟨k, hk⟩
    · exact .inl (.alias hv ha ih)
    · right
      refine ⟨k + 1, ?_⟩
      rw [(sizeOf_follows cfg ti).next k t v u hv (sizeAlias_sizeRef ha).1, hk]; rfl

/-- Failures come from the end of the chain. -/
theorem sizeOf_err_iff {cfg : Cfg} {ti : TypeInformation} {t : UInt32} {e : ErrorKind} :
    (∃ k, TypeInformation.sizeOf cfg ti k t = .err e) ↔
      ∃ u, Chain ti sizeRef t u ∧ (∀ v, ti.fromId u = some v → sizeRef v = none) ∧
        sizeLeaf ti (ti.fromId u) u = .err e := by
  constructor
  · rintro ⟨k, h⟩
    induction k generalizing t with
    | zero => simp [TypeInformation.sizeOf] at h
    | succ k ih =>
      rcases goes_on_or_ends ti sizeRef t with ⟨v, u, hv, hu⟩ | hend
      · rw [(sizeOf_follows cfg ti).next k t v u hv hu] at h
        cases hs : TypeInformation.sizeOf cfg ti k u with
        | err e' =>
          rw [hs] at h; cases h
          obtain ⟨w, h1, h2⟩ := ih hs
          exact ⟨w, .step hv hu h1, h2⟩
        | panic => rw [hs] at h; cases h
        | nofuel => rw [hs] at h; cases h
        | ok m =>
          rw [hs] at h
          simp only [Res.bind] at h
          exfalso
          cases v <;> simp [sizePost, Cfg.usizeMul, Cfg.wrapOr] at h
          split at h
          · cases h
          · split at h <;> cases h
      · rw [(sizeOf_follows cfg ti).last k t hend] at h
        exact ⟨t, .refl, hend, h⟩
  · rintro ⟨u, hc, hend, h⟩
    exact (sizeOf_follows cfg ti).leaf_fail hc hend h (by simp)

theorem own_not_ptr {v : TypeVariant} {n : Nat} (h : ownSize v = some n) : ¬ IsPtr v := by
  cases v <;> simp_all [ownSize, IsPtr]
theorem own_not_alias {v : TypeVariant} {n : Nat} {u : UInt32} (h : ownSize v = some n) :
    sizeAlias v ≠ some u := by
  cases v <;> simp_all [ownSize, sizeAlias]
theorem ptr_not_alias {v : TypeVariant} {u : UInt32} (h : IsPtr v) : sizeAlias v ≠ some u := by
  cases v <;> simp_all [IsPtr, sizeAlias]

/-- Sizes are unique. -/
theorem hasSize_unique {l : Option Nat} {ti : TypeInformation} {t : UInt32} {n m : Nat}
    (h : HasSize l ti t n) (h' : HasSize l ti t m) : n = m := by
  induction h generalizing m with
  | own hv ho =>
    cases h' with
    | own hv' ho' => rw [hv] at hv'; cases hv'; rw [ho] at ho'; cases ho'; rfl
    | ptr hv' hp' => rw [hv] at hv'; cases hv'; exact absurd hp' (own_not_ptr ho)
    | array hv' => rw [hv] at hv'; cases hv'; simp [ownSize] at ho
    | alias hv' ha' => rw [hv] at hv'; cases hv'; exact absurd ha' (own_not_alias ho)
  | ptr hv hp hs =>
    cases h' with
    | own hv' ho' => rw [hv] at hv'; cases hv'; exact absurd hp (own_not_ptr ho')
    | ptr hv' hp' hs' => exact pointerSize_unique hs hs'
    | array hv' => rw [hv] at hv'; cases hv'; simp [IsPtr] at hp
    | alias hv' ha' => rw [hv] at hv'; cases hv'; exact absurd ha' (ptr_not_alias hp)
  | array hv _ _ ih =>
    cases h' with
    | own hv' ho' => rw [hv] at hv'; cases hv'; simp [ownSize] at ho'
    | ptr hv' hp' => rw [hv] at hv'; cases hv'; simp [IsPtr] at hp'
    | array hv' hs' => rw [hv] at hv'; cases hv'; rw [ih hs']
    | alias hv' ha' => rw [hv] at hv'; cases hv'; simp [sizeAlias] at ha'
  | alias hv ha _ ih =>
    cases h' with
    | own hv' ho' => rw [hv] at hv'; cases hv'; exact absurd ha (own_not_alias ho')
    | ptr hv' hp' => rw [hv] at hv'; cases hv'; exact absurd ha (ptr_not_alias hp')
    | array hv' => rw [hv] at hv'; cases hv'; simp [sizeAlias] at ha
    | alias hv' ha' hs' => rw [hv] at hv'; cases hv'; rw [ha] at ha'; cases ha'; exact ih hs'

end Btf

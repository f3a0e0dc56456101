import Verif.Proofs.SafeNew

/-!
# How many requests the parser makes
-/

namespace Btf

open Spec Reader

/-- `p` makes at most `n` requests. -/
def Costs {α : Type} (n : Nat) (p : P α) : Prop := ∀ r, (p r).2.trace.length ≤ r.trace.length + n

section
variable {α β : Type} {cfg : Cfg} {fh : FileHeader}

theorem Costs.mono {n m : Nat} {p : P α} (h : Costs n p) (hnm : n ≤ m) : Costs m p := fun r => by
  have := h r; omega

theorem costs_pure (a : α) : Costs 0 (Pure.pure a : P α) := fun _ => Nat.le_refl _

theorem costs_fail (k : LoadReason) : Costs 0 (P.fail k : P α) := fun _ => Nat.le_refl _

theorem costs_lift (o : Res LoadReason α) : Costs 0 (P.lift o) := fun _ => Nat.le_refl _

theorem costs_bind {n m : Nat} {p : P α} {q : α → P β} (hp : Costs n p) (hq : ∀ a, Costs m (q a)) :
    Costs (n + m) (p >>= q) := by
  intro r
  change (P.bind p q r).2.trace.length ≤ _
  have h := hp r
  unfold P.bind
  cases hpr : p r with
  | mk o r1 =>
    rw [hpr] at h
    simp only [] at h
    cases o with
    | ok a => have := hq a r1; simp only []; omega
    | _ => simp only []; omega

theorem costs_free {n : Nat} {p : P α} {q : α → P β} (hp : Costs 0 p) (hq : ∀ a, Costs n (q a)) : Costs n (p >>= q) :=
  (costs_bind hp hq).mono (by omega)

theorem costs_ite {n : Nat} {c : Prop} [Decidable c] {p q : P α} (h : Costs n p) (h' : Costs n q) :
    Costs n (if c then p else q) := by split <;> assumption

theorem costs_getOffset : Costs 0 getOffset := fun _ => Nat.le_refl _
theorem costs_setOffset (o : Nat) : Costs 0 (setOffset o) := fun _ => Nat.le_refl _
theorem costs_getEndianness : Costs 0 getEndianness := fun _ => Nat.le_refl _

theorem costs_read (n : Nat) : Costs 1 (Reader.read cfg n) := by
  intro r
  unfold Reader.read
  split
  · exact Nat.le_refl _
  · split <;> exact Nat.le_refl _

theorem costs_u8 : Costs 1 (u8 cfg) := costs_bind (costs_read 1) fun _ => costs_pure _
theorem costs_u32 : Costs 1 (u32 cfg) :=
  costs_bind (costs_read 4) fun _ => costs_bind costs_getEndianness fun _ => costs_pure _
theorem costs_u64 : Costs 1 (u64 cfg) :=
  costs_bind (costs_read 8) fun _ => costs_bind costs_getEndianness fun _ => costs_pure _
theorem costs_i32 : Costs 1 (i32 cfg) := costs_bind costs_u32 fun _ => costs_pure _
theorem costs_i64 : Costs 1 (i64 cfg) := costs_bind costs_u64 fun _ => costs_pure _

/-- The bytes of a string. -/
theorem costs_stringLoop {start : UInt32} {stop orig : Nat} (hfit : stop + 1 < cfg.usizeMod) (fuel : Nat) :
    ∀ acc (r : Reader), r.offset ≤ stop →
      (parseStringLoop cfg start stop orig fuel acc r).2.trace.length ≤ r.trace.length + (stop - r.offset) := by
  induction fuel with
  | zero => intro acc r _; exact Nat.le_add_right _ _
  | succ fuel ih =>
    intro acc r hr
    unfold parseStringLoop
    rw [usizeAdd_lt (by omega)]
    simp only []
    split
    · exact Nat.le_add_right _ _
    · rename_i hle
      have hsafe := (safe_u8 (C := fun _ => True) (cfg := cfg) (pos := r.offset) (fun _ => trivial) (by omega)).run r rfl
      have hc := costs_u8 (cfg := cfg) r
      cases hu : u8 cfg r with
      | mk o r' =>
        rw [hu] at hsafe hc
        simp only [] at hsafe hc
        cases o with
        | ok b =>
          simp only []
          obtain ⟨-, ⟨a, -, hoff⟩ | ⟨k, hk, -⟩⟩ := hsafe
          · split
            · simp only []; omega
            · have := ih (pushLatin1 acc b) r' (by omega)
              omega
          · cases hk
        | _ => simp only []; omega

/-- A string: at most the bytes of the string section. -/
theorem costs_parseString (hf : Fits cfg fh) (off : UInt32) : Costs fh.strLen.toNat (parseString cfg fh off) := by
  unfold parseString
  intro r
  cases h1 : u32CheckedAdd fh.hdrLen fh.strOff with
  | none => exact Nat.le_add_right _ _
  | some s =>
    have hs := u32CheckedAdd_eq_some.1 h1
    change (P.bind _ _ r).2.trace.length ≤ _
    unfold P.bind P.lift okOr
    simp only []
    cases h2 : u32CheckedAdd s fh.strLen with
    | none => exact Nat.le_add_right _ _
    | some t =>
      have ht := u32CheckedAdd_eq_some.1 h2
      change (P.bind _ _ r).2.trace.length ≤ _
      unfold P.bind
      simp only []
      cases h3 : u32CheckedAdd s off with
      | none => exact Nat.le_add_right _ _
      | some u =>
        have hu := u32CheckedAdd_eq_some.1 h3
        change (P.bind _ _ r).2.trace.length ≤ _
        unfold P.bind
        simp only []
        split
        · exact Nat.le_add_right _ _
        · rename_i hlt
          have hlt' : u.toNat < t.toNat := by
            have : ¬ t ≤ u := hlt
            rw [UInt32.le_iff_toNat_le] at this; omega
          have htl := t.toNat_lt
          have hE : strEnd fh = t.toNat := by unfold strEnd strStart; omega
          have hfit : t.toNat + 1 < cfg.usizeMod := by
            have := hf.str (by omega); omega
          have key := costs_stringLoop (start := u) (orig := r.offset) hfit (t.toNat - u.toNat + 1) [] { r with offset := u.toNat } (by simp only []; omega)
          simp only [] at key
          change (P.bind (parseStringLoop cfg u t.toNat r.offset (t.toNat - u.toNat + 1) []) _ { r with offset := u.toNat }).2.trace.length ≤ _
          unfold P.bind
          cases hl : parseStringLoop cfg u t.toNat r.offset (t.toNat - u.toNat + 1) [] { r with offset := u.toNat } with
          | mk o r' =>
            rw [hl] at key
            simp only [] at key
            cases o with
            | ok a => change r'.trace.length ≤ _; omega
            | _ => simp only []; omega

theorem costs_parseName (hf : Fits cfg fh) (off : UInt32) : Costs fh.strLen.toNat (parseName cfg fh off) := by
  unfold parseName
  exact costs_ite (costs_bind (costs_parseString hf off) fun _ => costs_pure _) ((costs_pure _).mono (Nat.zero_le _))

theorem costs_repeat {n : Nat} {item : P α} (h : Costs n item) (k : Nat) : Costs (k * n) (repeatP item k) := by
  induction k with
  | zero => exact (costs_pure _).mono (Nat.zero_le _)
  | succ k ih => exact (costs_bind h fun _ => costs_bind ih fun _ => costs_pure _).mono (by rw [Nat.add_mul]; omega)

theorem costs_header : Costs 3 (Header.new cfg fh) := by
  unfold Header.new
  refine (costs_bind (costs_lift _) fun _ => costs_bind (costs_lift _) fun _ => costs_bind costs_getOffset fun _ =>
    costs_bind (costs_lift _) fun _ => costs_ite ((costs_fail _).mono (Nat.zero_le _)) ?_).mono (n := 0 + (0 + (0 + (0 + 3)))) (by omega)
  exact (costs_bind costs_u32 fun _ => costs_bind costs_u32 fun _ => costs_bind (costs_lift _) fun _ =>
    costs_bind costs_u32 fun _ => costs_pure _)

theorem costs_checkExtra (k : Kind) (th : Header) : Costs 0 (checkExtra cfg fh k th) := by
  unfold checkExtra
  refine costs_ite (costs_fail _) (costs_free (costs_lift _) fun _ => costs_ite ?_ (costs_pure _))
  refine costs_free (costs_lift _) fun _ => costs_free (costs_lift _) fun _ => costs_free costs_getOffset fun _ => ?_
  exact costs_ite (costs_fail _) (costs_free (costs_lift _) fun _ => costs_ite (costs_fail _) (costs_pure _))

/-- The body of a record and its name. -/
theorem costs_parseType (hf : Fits cfg fh) (th : Header) :
    ∃ n, Costs n (parseType cfg fh th) ∧
      4 * n ≤ 4 * fh.strLen.toNat + bodySize th.kind th.vlen * (fh.strLen.toNat + 1) := by
  have hname := fun off => costs_parseName (cfg := cfg) hf off
  have hstr := fun off => costs_parseString (cfg := cfg) hf off
  generalize fh.strLen.toNat = L at *
  have hmember : ∀ kf, Costs (3 + L) (Member.parse cfg fh kf) := fun kf =>
    (costs_bind costs_u32 fun _ => costs_bind costs_u32 fun _ => costs_bind costs_u32 fun _ => costs_bind (hname _) fun _ =>
      costs_bind (costs_lift _) fun _ => costs_pure _).mono (by omega)
  have henum : ∀ s, Costs (2 + L) (NamedValue32.parse cfg fh s) := fun s =>
    (costs_bind (m := L + 1) costs_u32 fun _ => costs_bind (hstr _) fun _ => by
      cases s
      · exact costs_bind costs_u32 fun _ => costs_pure _
      · exact costs_bind costs_i32 fun _ => costs_pure _).mono (by omega)
  have henum64 : ∀ s, Costs (2 + L) (NamedValue64.parse cfg fh s) := fun s =>
    (costs_bind (m := L + 1) costs_u32 fun _ => costs_bind (hstr _) fun _ => by
      cases s
      · exact costs_bind costs_u64 fun _ => costs_pure _
      · exact costs_bind costs_i64 fun _ => costs_pure _).mono (by omega)
  have hvar : Costs 3 (Variable.parse cfg) :=
    (costs_bind costs_u32 fun _ => costs_bind costs_u32 fun _ => costs_bind costs_u32 fun _ => costs_pure _)
  have hparam : Costs (2 + L) (Parameter.parse cfg fh) :=
    (costs_bind costs_u32 fun _ => costs_bind costs_u32 fun _ => costs_bind (hname _) fun _ => costs_pure _).mono (by omega)
  have hdef : ∀ {D : Type} {data : P D} {mk : Header → D → TypeVariant} {K : Kind} {n : Nat}, th.kind = K → Costs n data →
      4 * n ≤ 4 * L + bodySize K th.vlen * (L + 1) →
      ∃ n, Costs n (defineTypeNew cfg fh K th data mk) ∧ 4 * n ≤ 4 * L + bodySize th.kind th.vlen * (L + 1) := by
    intro D data mk K n hK h h'
    refine ⟨n, ?_, by rw [hK]; exact h'⟩
    exact (costs_bind (costs_checkExtra _ _) fun _ => costs_bind h fun _ => costs_pure _).mono (by omega)
  have m1 : ∀ a b v : Nat, 4 * a ≤ b * (L + 1) → 4 * (v * a) ≤ b * v * (L + 1) := by
    intro a b v h
    calc 4 * (v * a) = v * (4 * a) := by ring
      _ ≤ v * (b * (L + 1)) := Nat.mul_le_mul_left _ h
      _ = b * v * (L + 1) := by ring
  have hword : Costs (1 + L) (do let _ ← u32 cfg; parseName cfg fh th.nameOffset) := costs_bind costs_u32 fun _ => hname _
  have hlist : ∀ {α γ : Type} {item : P α} {n b : Nat} {g : List α → Option Str → γ}, Costs n item → 4 * n ≤ b * (L + 1) →
      ∃ n, Costs n (repeatP item th.vlen >>= fun l => parseName cfg fh th.nameOffset >>= fun name => (pure (g l name) : P γ)) ∧
        4 * n ≤ 4 * L + b * th.vlen * (L + 1) := by
    intro α γ item n b g h h'
    refine ⟨th.vlen * n + (L + 0), costs_bind (costs_repeat h th.vlen) fun _ => costs_bind (hname _) fun _ => costs_pure _, ?_⟩
    have := m1 n b th.vlen h'
    omega
  have hnm : ∀ {γ : Type} {g : Option Str → γ}, Costs L (parseName cfg fh th.nameOffset >>= fun name => (pure (g name) : P γ)) :=
    fun {γ g} => costs_bind (hname _) fun _ => costs_pure _
  have hw : ∀ {γ : Type} {g : UInt32 → Option Str → γ},
      Costs (1 + L) (u32 cfg >>= fun w => parseName cfg fh th.nameOffset >>= fun name => (pure (g w name) : P γ)) :=
    fun {γ g} => costs_bind costs_u32 fun _ => hnm
  unfold parseType
  split <;> rename_i hk
  · exact hdef hk hw (by simp only [bodySize]; omega)
  · exact hdef hk hnm (by simp only [bodySize]; omega)
  · obtain ⟨n, h1, h2⟩ := hlist (henum th.kindFlag) (b := 8) (by omega); exact hdef hk h1 h2
  · exact hdef hk (costs_pure _) (by simp only [bodySize]; omega)
  · exact hdef hk (costs_pure _) (by simp only [bodySize]; omega)
  · exact hdef hk (costs_pure _) (by simp only [bodySize]; omega)
  · exact hdef (n := 3) hk (costs_bind costs_u32 fun _ => costs_bind costs_u32 fun _ => costs_bind costs_u32 fun _ => costs_pure _)
      (by simp only [bodySize]; omega)
  · refine hdef (n := th.vlen * (2 + L)) hk (costs_bind (costs_repeat hparam th.vlen) fun _ => costs_pure _) ?_
    have := m1 (2 + L) 8 th.vlen (by omega)
    simp only [bodySize]; omega
  · obtain ⟨n, h1, h2⟩ := hlist (hmember th.kindFlag) (b := 12) (by omega); exact hdef hk h1 h2
  · obtain ⟨n, h1, h2⟩ := hlist (hmember th.kindFlag) (b := 12) (by omega); exact hdef hk h1 h2
  · exact hdef hk hnm (by simp only [bodySize]; omega)
  · exact hdef hk hw (by simp only [bodySize]; omega)
  · obtain ⟨n, h1, h2⟩ := hlist (henum64 th.kindFlag) (b := 12) (by omega); exact hdef hk h1 h2
  · exact hdef hk hnm (by simp only [bodySize]; omega)
  · exact hdef hk hnm (by simp only [bodySize]; omega)
  · exact hdef hk (costs_pure _) (by simp only [bodySize]; omega)
  · obtain ⟨n, h1, h2⟩ := hlist hvar (b := 12) (by omega); exact hdef hk h1 h2
  · exact hdef hk hnm (by simp only [bodySize]; omega)
  · exact hdef hk hw (by simp only [bodySize]; omega)

/-- A body that does not fit is not read. -/
theorem parseType_outside {th : Header} (hf : Fits cfg fh) (hE : typeEnd fh < 2 ^ 32) (hv : th.vlen < 2 ^ 16) {r : Reader}
    (hpos : r.offset ≤ typeEnd fh) (h : ¬ r.offset + boundedSize .crate th.kind th.vlen ≤ typeEnd fh) :
    (parseType cfg fh th r).2.trace.length ≤ r.trace.length := by
  have key : ∀ {D : Type} {data : P D} {mk : Header → D → TypeVariant} {K : Kind}, th.kind = K →
      (defineTypeNew cfg fh K th data mk r).2.trace.length ≤ r.trace.length := by
    intro D data mk K hK
    change (P.bind (checkExtra cfg fh K th) _ r).2.trace.length ≤ _
    unfold P.bind
    have h1 := costs_checkExtra (cfg := cfg) (fh := fh) K th r
    have h2 := (safe_checkExtra (C := fun _ => True) (cfg := cfg) hK hf hE hpos hv).run r rfl
    cases hc : checkExtra cfg fh K th r with
    | mk o r' =>
      rw [hc] at h1 h2
      simp only [] at h1 h2
      cases o with
      | ok a =>
        obtain ⟨-, ⟨a, -, h3, -⟩ | ⟨k, hk, -⟩⟩ := h2
        · exact absurd h3 h
        · cases hk
      | _ => simp only []; omega
  unfold parseType
  cases hk : th.kind <;> simp only [] <;> exact key hk

theorem costs_loop (hf : Fits cfg fh) (hE : typeEnd fh < 2 ^ 32) (fuel : Nat) :
    ∀ tid ti (r : Reader), typeStart fh ≤ r.offset → 4 ∣ r.offset - typeStart fh → r.offset ≤ typeEnd fh + 12 →
      4 * (parseLoop cfg fh (typeEnd fh) fuel tid ti r).2.trace.length ≤
        4 * r.trace.length + (typeEnd fh + 12 - r.offset) * (fh.strLen.toNat + 1) := by
  induction fuel with
  | zero => intro tid ti r _ _ _; exact Nat.le_add_right _ _
  | succ fuel ih =>
    intro tid ti r hs hal hend
    unfold parseLoop
    change 4 * (P.bind getOffset _ r).2.trace.length ≤ _
    unfold P.bind getOffset
    simp only []
    split
    · rename_i hpos
      change 4 * (P.bind (Header.new cfg fh) _ r).2.trace.length ≤ _
      unfold P.bind
      have h1 := costs_header (cfg := cfg) (fh := fh) r
      have h2 := (safe_header (C := fun _ => True) (cfg := cfg) hf (fun _ _ => trivial) hE hs hal (by omega)).run r rfl
      have hlarge : 12 * (fh.strLen.toNat + 1) ≤ (typeEnd fh + 12 - r.offset) * (fh.strLen.toNat + 1) :=
        Nat.mul_le_mul_right _ (by omega)
      cases hh : Header.new cfg fh r with
      | mk o r1 =>
        rw [hh] at h1 h2
        simp only [] at h1 h2
        cases o with
        | err k => simp only []; omega
        | panic => simp only []; omega
        | nofuel => simp only []; omega
        | ok th =>
          obtain ⟨-, ⟨a, ha, hv, hoff, hle⟩ | ⟨k, hk, -⟩⟩ := h2
          swap
          · cases hk
          cases ha
          simp only []
          change 4 * (P.bind (parseType cfg fh th) _ r1).2.trace.length ≤ _
          unfold P.bind
          obtain ⟨n, hn, hn'⟩ := costs_parseType (cfg := cfg) hf th
          have h3 := hn r1
          have h4 := (safe_parseType (C := fun _ => True) (cfg := cfg) (th := th) (pos := r1.offset) hf (fun _ _ => trivial) hE
            (by omega) (by omega) (by omega) hv).run r1 rfl
          have h5 := fun h => parseType_outside (cfg := cfg) (th := th) hf hE hv (r := r1) (by omega) h
          have hbody := bodySize_le th.kind th.vlen
          -- what has been used up
          have hsplit : ∀ b, b ≤ typeEnd fh + 12 - (r.offset + 12) →
              (typeEnd fh + 12 - (r.offset + 12) - b) * (fh.strLen.toNat + 1) + (12 + b) * (fh.strLen.toNat + 1) =
                (typeEnd fh + 12 - r.offset) * (fh.strLen.toNat + 1) := by
            intro b hb
            rw [← Nat.add_mul]; congr 1; omega
          have hdone : 4 * (parseType cfg fh th r1).2.trace.length ≤
              4 * r.trace.length + (typeEnd fh + 12 - r.offset) * (fh.strLen.toNat + 1) := by
            by_cases hb : r1.offset + boundedSize .crate th.kind th.vlen ≤ typeEnd fh
            · have := hsplit (bodySize th.kind th.vlen) (by omega)
              rw [Nat.add_mul 12] at this
              have h0 : 0 ≤ (typeEnd fh + 12 - (r.offset + 12) - bodySize th.kind th.vlen) * (fh.strLen.toNat + 1) := Nat.zero_le _
              omega
            · have := h5 hb; omega
          cases hp : parseType cfg fh th r1 with
          | mk o r2 =>
            rw [hp] at h3 h4 hdone
            simp only [] at h3 h4 hdone
            cases o with
            | err k => simp only []; omega
            | panic => simp only []; omega
            | nofuel => simp only []; omega
            | ok v =>
              obtain ⟨-, ⟨a, ha, -, hoff2, hb⟩ | ⟨k, hk, -⟩⟩ := h4
              swap
              · cases hk
              simp only []
              change 4 * (P.bind (P.lift (cfg.u32Add tid 1)) _ r2).2.trace.length ≤ _
              unfold P.bind P.lift
              have hbd := bodySize_dvd th.kind th.vlen
              cases cfg.u32Add tid 1 with
              | ok tid' =>
                simp only []
                have := ih tid' (ti.register tid v) r2 (by omega) (by omega) (by omega)
                have h6 := hsplit (bodySize th.kind th.vlen) (by omega)
                rw [Nat.add_mul 12] at h6
                rw [show typeEnd fh + 12 - r2.offset = typeEnd fh + 12 - (r.offset + 12) - bodySize th.kind th.vlen by omega] at this
                omega
              | _ => simp only []; omega
    · exact Nat.le_add_right _ _

theorem costs_afterHeader (hf : Fits cfg fh) (r : Reader) :
    4 * (afterHeader cfg fh r).2.trace.length ≤
      4 * r.trace.length + (fh.typeLen.toNat + 12) * (fh.strLen.toNat + 1) := by
  unfold afterHeader
  have hu := usizeMod_ge cfg
  cases hs : u32CheckedAdd fh.hdrLen fh.typeOff with
  | none => exact Nat.le_add_right _ _
  | some s =>
    have hst : s.toNat = typeStart fh := u32CheckedAdd_eq_some.1 hs
    have hslt := s.toNat_lt
    change 4 * (P.bind (P.lift (cfg.usizeCheckedAdd s.toNat fh.typeLen.toNat |> (okOr · .typeSectionEnd))) _ r).2.trace.length ≤ _
    unfold P.bind P.lift
    rw [hst]
    unfold Cfg.usizeCheckedAdd
    by_cases hadd : typeStart fh + fh.typeLen.toNat < cfg.usizeMod
    · rw [if_pos hadd]
      simp only [okOr]
      change 4 * (parseLoop cfg fh (typeEnd fh) (fh.typeLen.toNat + 1) 1 TypeInformation.empty { r with offset := typeStart fh }).2.trace.length ≤ _
      by_cases hE : typeEnd fh < 2 ^ 32
      · have := costs_loop (cfg := cfg) hf hE (fh.typeLen.toNat + 1) 1 TypeInformation.empty { r with offset := typeStart fh }
          (Nat.le_refl _) (by simp) (by simp only []; unfold typeEnd; omega)
        simp only [] at this
        rwa [show typeEnd fh + 12 - typeStart fh = fh.typeLen.toNat + 12 by unfold typeEnd; omega] at this
      · rw [loop_overflow (by omega) (by omega) _ _ _ (by simp only []; omega)]
        exact Nat.le_add_right _ _
    · rw [if_neg hadd]
      exact Nat.le_add_right _ _

end

end Btf

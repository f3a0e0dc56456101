import Verif.Proofs.Requests
import Verif.Spec.RequestCount

/-!
# Exactly how many requests a successful parser makes
-/

namespace Btf

open Spec Reader

/-- If `p` succeeds with `a` after `n` requests, then `Q a n`. -/
def Uses {α : Type} (p : P α) (Q : α → Nat → Prop) : Prop :=
  ∀ r a r', p r = (.ok a, r') → ∃ n, r'.trace.length = r.trace.length + n ∧ Q a n

section
variable {α β : Type} {cfg : Cfg} {fh : FileHeader}

theorem uses_pure (a : α) {Q : α → Nat → Prop} (h : Q a 0) : Uses (Pure.pure a : P α) Q := by
  intro r b r' hr
  cases hr
  exact ⟨0, rfl, h⟩

theorem uses_fail {k : LoadReason} {Q : α → Nat → Prop} : Uses (P.fail k : P α) Q := by
  intro r b r' hr; cases hr

theorem uses_bind {p : P α} {q : α → P β} {Q : α → Nat → Prop} {S : β → Nat → Prop} (hp : Uses p Q)
    (hq : ∀ a n, Q a n → Uses (q a) (fun b m => S b (n + m))) : Uses (p >>= q) S := by
  intro r b r' hr
  change P.bind p q r = _ at hr
  unfold P.bind at hr
  cases hpr : p r with
  | mk o r1 =>
    rw [hpr] at hr
    cases o with
    | ok a =>
      obtain ⟨n, h1, h2⟩ := hp r a r1 hpr
      obtain ⟨m, h3, h4⟩ := hq a n h2 r1 b r' hr
      exact ⟨n + m, by omega, h4⟩
    | _ => cases hr

theorem uses_free {p : P α} {q : α → P β} {S : β → Nat → Prop} (hp : Costs 0 p) (hs : ∀ r, r.trace.length ≤ (p r).2.trace.length)
    (hq : ∀ a, Uses (q a) S) : Uses (p >>= q) S := by
  refine uses_bind (Q := fun _ n => n = 0) ?_ fun a n h => ?_
  · intro r a r' hr
    have h1 := hp r
    have h2 := hs r
    rw [hr] at h1 h2
    exact ⟨0, by simp only [] at h1 h2; omega, rfl⟩
  · subst h
    simpa using hq a

theorem uses_lift {o : Res LoadReason α} {q : α → P β} {S : β → Nat → Prop} (hq : ∀ a, Uses (q a) S) : Uses (P.lift o >>= q) S :=
  uses_free (costs_lift o) (fun _ => Nat.le_refl _) hq

theorem uses_getOffset {q : Nat → P β} {S : β → Nat → Prop} (hq : ∀ a, Uses (q a) S) : Uses (getOffset >>= q) S :=
  uses_free costs_getOffset (fun _ => Nat.le_refl _) hq

theorem uses_setOffset {o : Nat} {q : Unit → P β} {S : β → Nat → Prop} (hq : ∀ a, Uses (q a) S) : Uses (setOffset o >>= q) S :=
  uses_free (costs_setOffset o) (fun _ => Nat.le_refl _) hq

theorem uses_getEndianness {q : Endianness → P β} {S : β → Nat → Prop} (hq : ∀ a, Uses (q a) S) :
    Uses (getEndianness >>= q) S :=
  uses_free costs_getEndianness (fun _ => Nat.le_refl _) hq

theorem uses_ite {c : Prop} [Decidable c] {p q : P α} {Q : α → Nat → Prop} (h : c → Uses p Q) (h' : ¬ c → Uses q Q) :
    Uses (if c then p else q) Q := by
  split
  · exact h ‹_›
  · exact h' ‹_›

theorem uses_read (n : Nat) : Uses (Reader.read cfg n) (fun _ k => k = 1) := by
  intro r b r' hr
  unfold Reader.read at hr
  split at hr
  · cases hr
  · split at hr <;> cases hr
    exact ⟨1, rfl, rfl⟩

theorem uses_one {p : P α} {q : α → P β} {S : β → Nat → Prop} (hp : Uses p (fun _ k => k = 1))
    (hq : ∀ a, Uses (q a) (fun b m => S b (1 + m))) : Uses (p >>= q) S :=
  uses_bind hp fun a n h => by subst h; exact hq a

theorem uses_u8 : Uses (u8 cfg) (fun _ k => k = 1) := uses_one (uses_read 1) fun _ => uses_pure _ rfl
theorem uses_u32 : Uses (u32 cfg) (fun _ k => k = 1) :=
  uses_one (uses_read 4) fun _ => uses_getEndianness fun _ => uses_pure _ rfl
theorem uses_u64 : Uses (u64 cfg) (fun _ k => k = 1) :=
  uses_one (uses_read 8) fun _ => uses_getEndianness fun _ => uses_pure _ rfl
theorem uses_i32 : Uses (i32 cfg) (fun _ k => k = 1) := uses_one uses_u32 fun _ => uses_pure _ rfl
theorem uses_i64 : Uses (i64 cfg) (fun _ k => k = 1) := uses_one uses_u64 fun _ => uses_pure _ rfl

theorem chars_push (s : Str) (b : UInt8) : chars (pushLatin1 s b) = chars s + 1 := by
  unfold chars pushLatin1
  rw [List.countP_append]
  congr 1
  have key : ∀ n < 256, (String.utf8EncodeChar (Char.ofNat n)).countP (fun b => b.toNat / 64 != 2) = 1 := by decide +kernel
  exact key _ b.toNat_lt

theorem uses_stringLoop {start : UInt32} {stop orig : Nat} (fuel : Nat) :
    ∀ acc, Uses (parseStringLoop cfg start stop orig fuel acc) (fun s n => n + chars acc = chars s + 1) := by
  induction fuel with
  | zero => intro acc r b r' h; cases h
  | succ fuel ih =>
    intro acc r b r' h
    unfold parseStringLoop at h
    cases hadd : cfg.usizeAdd r.offset 1 with
    | ok next =>
      rw [hadd] at h
      simp only [] at h
      split at h
      · cases h
      · cases hu : u8 cfg r with
        | mk o r1 =>
          rw [hu] at h
          cases o with
          | ok c =>
            obtain ⟨n, h1, rfl⟩ := uses_u8 r c r1 hu
            simp only [] at h
            split at h
            · cases h
              exact ⟨1, h1, by omega⟩
            · obtain ⟨m, h3, h4⟩ := ih _ r1 b r' h
              rw [chars_push] at h4
              exact ⟨1 + m, by omega, by omega⟩
          | _ => cases h
    | _ => rw [hadd] at h; cases h

theorem uses_parseString (off : UInt32) : Uses (parseString cfg fh off) (fun s n => n = stringRequests s) := by
  unfold parseString
  refine uses_lift fun s => uses_lift fun t => uses_lift fun u => uses_ite (fun _ => uses_fail) fun _ => ?_
  refine uses_getOffset fun o => uses_setOffset fun _ => ?_
  refine uses_bind (uses_stringLoop _ _) fun s n h => uses_setOffset fun _ => uses_pure _ ?_
  have h0 : chars [] = 0 := rfl
  rw [h0] at h
  unfold stringRequests
  omega

theorem uses_parseName (off : UInt32) : Uses (parseName cfg fh off) (fun s n => n = nameRequests s) := by
  unfold parseName
  refine uses_ite (fun _ => uses_bind (uses_parseString off) fun s n h => uses_pure _ ?_) fun _ => uses_pure _ rfl
  subst h; rfl

theorem uses_repeat {item : P α} {f : α → Nat} (h : Uses item (fun a n => n = f a)) (k : Nat) :
    Uses (repeatP item k) (fun l n => n = (l.map f).sum) := by
  induction k with
  | zero => exact uses_pure _ rfl
  | succ k ih =>
    refine uses_bind h fun a n ha => uses_bind ih fun l m hl => uses_pure _ ?_
    rw [List.map_cons, List.sum_cons, ha, hl]; omega

theorem uses_header : Uses (Header.new cfg fh) (fun _ n => n = 3) := by
  unfold Header.new
  refine uses_lift fun s => uses_lift fun t => uses_getOffset fun o => uses_lift fun e => uses_ite (fun _ => uses_fail) fun _ => ?_
  exact uses_one uses_u32 fun _ => uses_one uses_u32 fun _ => uses_lift fun _ => uses_one uses_u32 fun _ => uses_pure _ rfl

theorem uses_define {D : Type} {data : P D} {mk : Header → D → TypeVariant} {K : Kind} {th : Header}
    (h : Uses data (fun d n => 3 + n = variantRequests (mk th d))) :
    Uses (defineTypeNew cfg fh K th data mk) (fun v n => 3 + n = variantRequests v) := by
  have hs : ∀ r, r.trace.length ≤ (checkExtra cfg fh K th r).2.trace.length := by
    intro r
    unfold checkExtra
    split
    · exact Nat.le_refl _
    · change _ ≤ (P.bind (P.lift (extraSize cfg K th)) _ r).2.trace.length
      unfold P.bind P.lift
      cases extraSize cfg K th with
      | ok req =>
        simp only []
        split
        · change _ ≤ (P.bind (P.lift (cfg.u32Add fh.hdrLen fh.typeOff)) _ r).2.trace.length
          unfold P.bind P.lift
          cases cfg.u32Add fh.hdrLen fh.typeOff with
          | ok s =>
            simp only []
            change _ ≤ (P.bind (P.lift (cfg.u32Add s fh.typeLen)) _ r).2.trace.length
            unfold P.bind P.lift
            cases cfg.u32Add s fh.typeLen with
            | ok t =>
              simp only []
              change _ ≤ (P.bind getOffset _ r).2.trace.length
              unfold P.bind getOffset
              simp only []
              split
              · exact Nat.le_refl _
              · change _ ≤ (P.bind (P.lift (cfg.usizeAdd r.offset req)) _ r).2.trace.length
                unfold P.bind P.lift
                cases cfg.usizeAdd r.offset req with
                | ok x => simp only []; split <;> exact Nat.le_refl _
                | _ => exact Nat.le_refl _
            | _ => exact Nat.le_refl _
          | _ => exact Nat.le_refl _
        · exact Nat.le_refl _
      | _ => exact Nat.le_refl _
  exact uses_free (costs_checkExtra K th) hs fun _ => uses_bind h fun d n hd => uses_pure _ hd

theorem uses_parseType (th : Header) : Uses (parseType cfg fh th) (fun v n => 3 + n = variantRequests v) := by
  have hmember : ∀ kf, Uses (Member.parse cfg fh kf) (fun m n => n = 3 + nameRequests m.name) := fun kf =>
    uses_one uses_u32 fun _ => uses_one uses_u32 fun _ => uses_one uses_u32 fun _ => uses_bind (uses_parseName _) fun s n h =>
      uses_lift fun o => uses_pure _ (by simp only []; omega)
  have henum : ∀ s, Uses (NamedValue32.parse cfg fh s) (fun m n => n = 2 + stringRequests m.name) := fun s =>
    uses_one uses_u32 fun _ => uses_bind (uses_parseString _) fun x n h => by
      cases s
      · exact uses_one uses_u32 fun _ => uses_pure _ (by simp only []; omega)
      · exact uses_one uses_i32 fun _ => uses_pure _ (by simp only []; omega)
  have henum64 : ∀ s, Uses (NamedValue64.parse cfg fh s) (fun m n => n = 2 + stringRequests m.name) := fun s =>
    uses_one uses_u32 fun _ => uses_bind (uses_parseString _) fun x n h => by
      cases s
      · exact uses_one uses_u64 fun _ => uses_pure _ (by simp only []; omega)
      · exact uses_one uses_i64 fun _ => uses_pure _ (by simp only []; omega)
  have hvar : Uses (Variable.parse cfg) (fun _ n => n = 3) :=
    uses_one uses_u32 fun _ => uses_one uses_u32 fun _ => uses_one uses_u32 fun _ => uses_pure _ rfl
  have hparam : Uses (Parameter.parse cfg fh) (fun m n => n = 2 + nameRequests m.name) :=
    uses_one uses_u32 fun _ => uses_one uses_u32 fun _ => uses_bind (uses_parseName _) fun s n h =>
      uses_pure _ (by simp only []; omega)
  have hname := fun off => uses_parseName (cfg := cfg) (fh := fh) off
  unfold parseType
  split
  all_goals refine uses_define ?_
  · exact uses_one uses_u32 fun _ => uses_bind (hname _) fun s n h => uses_pure _ (by simp only [variantRequests]; omega)
  · exact uses_bind (hname _) fun s n h => uses_pure _ (by simp only [variantRequests]; omega)
  · exact uses_bind (uses_repeat (henum _) _) fun l m hl => uses_bind (hname _) fun s n h =>
      uses_pure _ (by simp only [variantRequests]; omega)
  · exact uses_pure _ rfl
  · exact uses_pure _ rfl
  · exact uses_pure _ rfl
  · exact uses_one uses_u32 fun _ => uses_one uses_u32 fun _ => uses_one uses_u32 fun _ => uses_pure _ rfl
  · exact uses_bind (uses_repeat hparam _) fun l m hl => uses_pure _ (by simp only [variantRequests]; omega)
  · exact uses_bind (uses_repeat (hmember _) _) fun l m hl => uses_bind (hname _) fun s n h =>
      uses_pure _ (by simp only [variantRequests]; omega)
  · exact uses_bind (uses_repeat (hmember _) _) fun l m hl => uses_bind (hname _) fun s n h =>
      uses_pure _ (by simp only [variantRequests]; omega)
  · exact uses_bind (hname _) fun s n h => uses_pure _ (by simp only [variantRequests]; omega)
  · exact uses_one uses_u32 fun _ => uses_bind (hname _) fun s n h => uses_pure _ (by simp only [variantRequests]; omega)
  · exact uses_bind (uses_repeat (henum64 _) _) fun l m hl => uses_bind (hname _) fun s n h =>
      uses_pure _ (by simp only [variantRequests]; omega)
  · exact uses_bind (hname _) fun s n h => uses_pure _ (by simp only [variantRequests]; omega)
  · exact uses_bind (hname _) fun s n h => uses_pure _ (by simp only [variantRequests]; omega)
  · exact uses_pure _ rfl
  · refine uses_bind (uses_repeat (f := fun _ => 3) hvar _) fun l m hl => uses_bind (hname _) fun s n h =>
      uses_pure _ ?_
    have : (l.map fun _ => 3).sum = 3 * l.length := by
      clear hl
      induction l with
      | nil => rfl
      | cons a l ih => rw [List.map_cons, List.sum_cons, ih, List.length_cons]; omega
    simp only [variantRequests]; omega
  · exact uses_bind (hname _) fun s n h => uses_pure _ (by simp only [variantRequests]; omega)
  · exact uses_one uses_u32 fun _ => uses_bind (hname _) fun s n h => uses_pure _ (by simp only [variantRequests]; omega)

theorem u32Add_ok {ε : Type} {a b c : UInt32} (h : (cfg.u32Add a b : Res ε UInt32) = .ok c) : c = a + b := by
  unfold Cfg.u32Add Cfg.wrapOr at h
  split at h
  · rename_i v hv
    cases h
    rw [← UInt32.toNat_inj]
    split at hv
    · cases hv; simp
    · split at hv
      · cases hv
      · cases hv; simp
  all_goals cases h

theorem count_loop (hf : Fits cfg fh) (hE : typeEnd fh < 2 ^ 32) (fuel : Nat) : ∀ tid ti (r : Reader),
    typeStart fh ≤ r.offset → 4 ∣ r.offset - typeStart fh → ∀ ti' r',
    parseLoop cfg fh (typeEnd fh) fuel tid ti r = (.ok ti', r') →
    ∃ vs, ti' = build tid ti vs ∧ r'.trace.length = r.trace.length + (vs.map variantRequests).sum ∧
      (vs = [] ∨ r.offset + 12 * vs.length ≤ typeEnd fh) := by
  induction fuel with
  | zero => intro tid ti r _ _ a r' h; cases h
  | succ fuel ih =>
    intro tid ti r hs hal ti' r' h
    unfold parseLoop at h
    change P.bind getOffset _ r = _ at h
    unfold P.bind getOffset at h
    simp only [] at h
    split at h
    swap
    · cases h
      exact ⟨[], rfl, rfl, .inl rfl⟩
    rename_i hpos
    change P.bind (Header.new cfg fh) _ r = _ at h
    unfold P.bind at h
    have h2 := (safe_header (C := fun _ => True) (cfg := cfg) hf (fun _ _ => trivial) hE hs hal (by omega)).run r rfl
    cases hh : Header.new cfg fh r with
    | mk o r1 =>
      rw [hh] at h2 h
      simp only [] at h2 h
      cases o with
      | err k => cases h
      | panic => cases h
      | nofuel => cases h
      | ok th =>
        obtain ⟨-, ⟨a, ha, hv, hoff, hle⟩ | ⟨k, hk, -⟩⟩ := h2
        swap
        · cases hk
        cases ha
        obtain ⟨n, hn, rfl⟩ := uses_header r _ r1 hh
        simp only [] at h
        change P.bind (parseType cfg fh th) _ r1 = _ at h
        unfold P.bind at h
        have h4 := (safe_parseType (C := fun _ => True) (cfg := cfg) (th := th) (pos := r1.offset) hf (fun _ _ => trivial) hE
          (by omega) (by omega) (by omega) hv).run r1 rfl
        cases hp : parseType cfg fh th r1 with
        | mk o r2 =>
          rw [hp] at h4 h
          simp only [] at h4 h
          cases o with
          | err k => cases h
          | panic => cases h
          | nofuel => cases h
          | ok v =>
            obtain ⟨-, ⟨a, ha, -, hoff2, hb⟩ | ⟨k, hk, -⟩⟩ := h4
            swap
            · cases hk
            obtain ⟨m, hm, hm'⟩ := uses_parseType th r1 _ r2 hp
            simp only [] at h
            change P.bind (P.lift (cfg.u32Add tid 1)) _ r2 = _ at h
            unfold P.bind P.lift at h
            have hbd := bodySize_dvd th.kind th.vlen
            cases hadd : cfg.u32Add tid 1 with
            | ok tid' =>
              rw [hadd] at h
              simp only [] at h
              obtain ⟨vs, h5, h6, h7⟩ := ih tid' _ r2 (by omega) (by omega) ti' r' h
              have ht := u32Add_ok hadd
              subst ht
              refine ⟨v :: vs, h5, by rw [List.map_cons, List.sum_cons]; omega, .inr ?_⟩
              rw [List.length_cons]
              rcases h7 with rfl | h7
              · simp only [List.length_nil]; omega
              · omega
            | _ => rw [hadd] at h; cases h

end

end Btf

import Verif.Proofs.Version
import Verif.Proofs.FileDialect
import Verif.Spec.Reserved

/-!
# Buffers that differ only in unused bits
-/

namespace Btf

open Spec Reader

section
variable {cfg : Cfg} {f f' : List UInt8} {e : Endianness} {fh : FileHeader} {R R' : Readable}

/-! ### Running the same program on two readers -/

/-- The two runs of `p` give the same result and leave the readers at the same place. -/
def SameRun {α : Type} (R R' : Readable) (e : Endianness) (p : P α) (r r' : Reader) : Prop :=
  (p r).1 = (p r').1 ∧ Twins R R' e e (p r).2 (p r').2

theorem sameRun_bind {α β : Type} {p : P α} {q : α → P β} {r r' : Reader} (hp : SameRun R R' e p r r')
    (hq : ∀ a r1 r1', p r = (.ok a, r1) → p r' = (.ok a, r1') → Twins R R' e e r1 r1' → SameRun R R' e (q a) r1 r1') :
    SameRun R R' e (p >>= q) r r' := by
  change (P.bind p q r).1 = (P.bind p q r').1 ∧ Twins R R' e e (P.bind p q r).2 (P.bind p q r').2
  obtain ⟨h1, h2⟩ := hp
  unfold P.bind
  cases hr : p r with
  | mk o r1 =>
    cases hr' : p r' with
    | mk o' r1' =>
      rw [hr, hr'] at h1 h2
      simp only [] at h1 h2
      subst h1
      cases o with
      | ok a => exact hq a r1 r1' hr hr' h2
      | err k => exact ⟨rfl, h2⟩
      | panic => exact ⟨rfl, h2⟩
      | nofuel => exact ⟨rfl, h2⟩

theorem sameRun_lift {α : Type} (o : Res LoadReason α) {r r' : Reader} (hT : Twins R R' e e r r') :
    SameRun R R' e (P.lift o) r r' := ⟨rfl, hT⟩

theorem sameRun_pure {α : Type} (a : α) {r r' : Reader} (hT : Twins R R' e e r r') :
    SameRun R R' e (Pure.pure a : P α) r r' := ⟨rfl, hT⟩

theorem sameRun_fail {α : Type} (k : LoadReason) {r r' : Reader} (hT : Twins R R' e e r r') :
    SameRun R R' e (P.fail k : P α) r r' := ⟨rfl, hT⟩

theorem sameRun_getOffset {r r' : Reader} (hT : Twins R R' e e r r') : SameRun R R' e getOffset r r' :=
  ⟨congrArg Res.ok hT.offset.symm, hT⟩

theorem sameRun_atOffset {α : Type} {q : Nat → P α} {r r' : Reader} (hT : Twins R R' e e r r')
    (h : SameRun R R' e (q r.offset) r r') : SameRun R R' e (getOffset >>= q) r r' := by
  have h1 : (getOffset >>= q) r = q r.offset r := rfl
  have h2 : (getOffset >>= q) r' = q r.offset r' := by rw [← hT.offset]; rfl
  unfold SameRun
  rw [h1, h2]
  exact h

theorem sameRun_setOffset (o : Nat) {r r' : Reader} (hT : Twins R R' e e r r') : SameRun R R' e (setOffset o) r r' :=
  ⟨rfl, hT.readable, hT.readable', hT.endianness, hT.endianness', rfl, hT.trace⟩

/-! ### One word that differs -/

/-- A word read from two buffers of the same length. -/
theorem twoWords (hl : f'.length = f.length) (hf : f.length < cfg.usizeMod) {r r' : Reader}
    (hT : Twins (readableBuffer cfg f) (readableBuffer cfg f') e e r r') (ho : r.offset + 4 < cfg.usizeMod) :
    (∃ k r1 r1', u32 cfg r = (.err k, r1) ∧ u32 cfg r' = (.err k, r1') ∧
      Twins (readableBuffer cfg f) (readableBuffer cfg f') e e r1 r1') ∨
    (∃ w w' r1 r1', u32 cfg r = (.ok w, r1) ∧ u32 cfg r' = (.ok w', r1') ∧ Word f e r.offset w ∧ Word f' e r.offset w' ∧
      Twins (readableBuffer cfg f) (readableBuffer cfg f') e e r1 r1') := by
  have hA : At cfg f e r.offset r := ⟨by rw [hT.readable]; exact serves_buffer cfg f hf, hT.endianness, rfl⟩
  have hA' : At cfg f' e r.offset r' :=
    ⟨by rw [hT.readable']; exact serves_buffer cfg f' (by omega), hT.endianness', hT.offset⟩
  have h1 := (correct_u32 (f := f) (e := e) ho).run r hA
  have h1' := (correct_u32 (f := f') (e := e) ho).run r' hA'
  have hst := buffer_status (cfg := cfg) hl r.trace (offset := r.offset) (len := 4) (by omega)
  have hdef : ∀ r : Reader, u32 cfg r = match r.readable.read r.trace r.offset 4 with
      | .error k => (.err (.source k), { r with trace := ⟨r.offset, 4, some k⟩ :: r.trace })
      | .ok b => match cfg.usizeAdd r.offset 4 with
        | .ok o => (.ok (UInt32.ofNat (decodeNat r.endianness (fun i => if i < 4 then b i else 0) 4)),
            { r with offset := o, trace := ⟨r.offset, 4, none⟩ :: r.trace })
        | .err e => (.err e, { r with trace := ⟨r.offset, 4, none⟩ :: r.trace })
        | .panic => (.panic, { r with trace := ⟨r.offset, 4, none⟩ :: r.trace })
        | .nofuel => (.nofuel, { r with trace := ⟨r.offset, 4, none⟩ :: r.trace }) := by
    intro r
    change P.bind _ _ r = _
    unfold P.bind Reader.read
    cases r.readable.read r.trace r.offset 4 with
    | error k => rfl
    | ok b =>
      simp only []
      cases cfg.usizeAdd r.offset 4 <;> rfl
  rw [hdef, hT.readable] at h1
  rw [hdef, hT.readable', hT.trace, hT.offset] at h1'
  rw [hdef, hdef, hT.readable, hT.readable', hT.trace, hT.offset]
  rw [usizeAdd_lt ho] at h1 h1' ⊢
  rcases hst with ⟨-, b, b', hb, hb'⟩ | ⟨k, hb, hb'⟩
  · rw [hb] at h1; rw [hb'] at h1'
    rw [hb, hb']
    simp only [] at h1 h1' ⊢
    rcases h1 with ⟨w, r1, n, h2, ⟨h3, -⟩, -⟩ | ⟨k, r1, h2, -⟩
    swap
    · cases h2
    rcases h1' with ⟨w', r1', n', h2', ⟨h3', -⟩, -⟩ | ⟨k, r1', h2', -⟩
    swap
    · cases h2'
    refine .inr ⟨w, w', r1, r1', h2, h2', h3, h3', ?_⟩
    cases h2; cases h2'
    exact ⟨rfl, rfl, hT.endianness, hT.endianness', rfl, rfl⟩
  · rw [hb, hb']
    exact .inl ⟨_, _, _, rfl, rfl, rfl, rfl, hT.endianness, hT.endianness', rfl, rfl⟩

/-- A word that is the same. -/
theorem sameRun_u32 (hl : f'.length = f.length) {r r' : Reader}
    (hT : Twins (readableBuffer cfg f) (readableBuffer cfg f') e e r r') (ho : r.offset < cfg.usizeMod)
    (hb : ∀ i, r.offset ≤ i → i < r.offset + 4 → f'[i]? = f[i]?) :
    SameRun (readableBuffer cfg f) (readableBuffer cfg f') e (u32 cfg) r r' :=
  twins_int 4 (fun v => UInt32.ofNat v) hT (sameInt_of_sameAnswer (buffer_same hl _ ho hb))

theorem sameFields_kind {w w' : UInt32} (h : SameFields w w') : (w &&& 0x1F000000) >>> 24 = (w' &&& 0x1F000000) >>> 24 := by
  apply UInt32.toNat_inj.1
  rw [info_kind, info_kind, h.2.1]

theorem sameFields_flag {w w' : UInt32} (h : SameFields w w') : ((w &&& 0x80000000) != 0) = ((w' &&& 0x80000000) != 0) := by
  rw [Bool.eq_iff_iff, info_flag, info_flag, h.2.2]

theorem u32_offset {w : UInt32} {r r1 : Reader} (ho : r.offset + 4 < cfg.usizeMod) (h : u32 cfg r = (.ok w, r1)) :
    r1.offset = r.offset + 4 := by
  have := (safe_u32 (cfg := cfg) (C := fun _ => True) (pos := r.offset) ⟨fun _ _ _ _ _ _ _ => trivial, ho⟩).run r rfl
  rw [h] at this
  rcases this.2 with ⟨a, -, h⟩ | ⟨k, h, -⟩
  · exact h
  · cases h

/-- The header of a record. -/
theorem sameRun_header (hl : f'.length = f.length) (hf : f.length < cfg.usizeMod) (hfit : Fits cfg fh)
    (hE : typeEnd fh < 2 ^ 32) {r r' : Reader} {pos : Nat} (hr : r.offset = pos) (hpos : pos ≤ typeEnd fh)
    (hT : Twins (readableBuffer cfg f) (readableBuffer cfg f') e e r r')
    (hb : pos + 12 ≤ typeEnd fh → ∀ i, pos ≤ i → i < pos + 12 → ¬ (pos + 4 ≤ i ∧ i < pos + 8) → f'[i]? = f[i]?)
    (hw : pos + 12 ≤ typeEnd fh → ∀ w w', Word f e (pos + 4) w → Word f' e (pos + 4) w' → SameFields w w') :
    SameRun (readableBuffer cfg f) (readableBuffer cfg f') e (Header.new cfg fh) r r' := by
  subst hr
  have ht := hfit.type hE
  obtain ⟨s, t, hs, ht', hs1, ht1⟩ := section_ok hE
  unfold Header.new
  rw [hs]
  refine sameRun_bind (sameRun_lift _ hT) ?_
  rintro _ _ _ ⟨⟩ ⟨⟩ -
  rw [ht']
  refine sameRun_bind (sameRun_lift _ hT) ?_
  rintro _ _ _ ⟨⟩ ⟨⟩ -
  refine sameRun_atOffset hT ?_
  rw [usizeAdd_lt (by unfold TYPE_HEADER_SIZE; omega)]
  refine sameRun_bind (sameRun_lift _ hT) ?_
  rintro _ _ _ ⟨⟩ ⟨⟩ -
  by_cases hle : r.offset + TYPE_HEADER_SIZE > t.toNat
  · rw [if_pos hle]; exact sameRun_fail _ hT
  rw [if_neg hle]
  have hle : r.offset + 12 ≤ typeEnd fh := by
    unfold TYPE_HEADER_SIZE at hle; rw [ht1] at hle; omega
  have hb := hb hle
  refine sameRun_bind (sameRun_u32 hl hT (by omega) fun i h1 h2 => hb i h1 (by omega) (by omega)) ?_
  intro name r1 r1' h1 h1' hT1
  have ho1 := u32_offset (by omega) h1
  rcases twoWords hl hf hT1 (by omega) with ⟨k, r2, r2', h2, h2', hT2⟩ | ⟨w, w', r2, r2', h2, h2', hw1, hw1', hT2⟩
  · refine sameRun_bind ?_ ?_
    · exact ⟨by rw [h2, h2'], by rw [h2, h2']; exact hT2⟩
    · intro a x x' hx
      rw [h2] at hx; cases hx
  rw [ho1] at hw1 hw1'
  have hsame := hw hle w w' hw1 hw1'
  have ho2 := u32_offset (by omega) h2
  have hrun : ∀ {α : Type} (q : UInt32 → P α), q w' = q w →
      SameRun (readableBuffer cfg f) (readableBuffer cfg f') e (q w) r2 r2' →
      SameRun (readableBuffer cfg f) (readableBuffer cfg f') e (u32 cfg >>= q) r1 r1' := by
    intro α q hq hS
    unfold SameRun
    have e1 : (u32 cfg >>= q) r1 = q w r2 := by
      change P.bind _ _ _ = _; unfold P.bind; rw [h2]
    have e2 : (u32 cfg >>= q) r1' = q w r2' := by
      change P.bind _ _ _ = _; unfold P.bind; rw [h2']; simp only []; rw [hq]
    rw [e1, e2]
    exact hS
  refine hrun _ ?_ ?_
  · simp only []
    rw [sameFields_kind hsame, sameFields_flag hsame, info_vlen, info_vlen, hsame.1]
  · refine sameRun_bind (sameRun_lift _ hT2) ?_
    rintro k x x' hx hx' -
    have hx1 : x = r2 := (congrArg Prod.snd hx).symm
    have hx2 : x' = r2' := (congrArg Prod.snd hx').symm
    subst hx1 hx2
    refine sameRun_bind (sameRun_u32 hl hT2 (by omega) fun i h1 h2 => hb i (by omega) (by omega) (by omega)) ?_
    intro sz _ _ _ _ hT3
    exact sameRun_pure _ hT3

/-! ### The loop -/

/-- The places of records do not overlap. -/
theorem starts_apart (hE : typeEnd fh < 2 ^ 32) {vs vs2 : List TypeVariant} {pos p2 : Nat} {th : Header}
    (h : Records .crate f e fh (typeStart fh) vs pos) (h2 : Records .crate f e fh (typeStart fh) vs2 p2) (hth : HeaderAt f e pos th) :
    p2 + 12 ≤ pos ∨ p2 = pos ∨ pos + 12 + bodySize th.kind th.vlen ≤ p2 := by
  rcases records_prefix hE (Nat.le_refl _) h h2 with ⟨rest, hr, -⟩ | ⟨rest, hr, -⟩
  · cases hr with
    | nil => exact .inr (.inl rfl)
    | cons h1 h3 =>
      obtain ⟨th', hth', -, -, rfl⟩ := h1
      rw [headerAt_unique hth hth']
      have := records_next h3
      exact .inr (.inr (by omega))
  · cases hr with
    | nil => exact .inr (.inl rfl)
    | cons h1 h3 =>
      have := record_next h1
      have := records_next h3
      exact .inl (by omega)

theorem starts_apart' (hE : typeEnd fh < 2 ^ 32) {vs vs2 : List TypeVariant} {pos p2 : Nat}
    (h : Records .crate f e fh (typeStart fh) vs pos) (h2 : Records .crate f e fh (typeStart fh) vs2 p2) :
    p2 + 12 ≤ pos ∨ p2 = pos ∨ pos + 12 ≤ p2 := by
  rcases records_prefix hE (Nat.le_refl _) h h2 with ⟨rest, hr, -⟩ | ⟨rest, hr, -⟩
  · cases hr with
    | nil => exact .inr (.inl rfl)
    | cons h1 h3 =>
      have := record_next h1
      have := records_next h3
      exact .inr (.inr (by omega))
  · cases hr with
    | nil => exact .inr (.inl rfl)
    | cons h1 h3 =>
      have := record_next h1
      have := records_next h3
      exact .inl (by omega)

theorem bytes_same (h : OnlyReserved f f') (hp : Preamble f e fh) {i : Nat} (h2 : i ≠ 2) (h3 : i ≠ 3)
    (hi : ∀ pos vs, Records .crate f e fh (typeStart fh) vs pos → pos + 12 ≤ typeEnd fh → ¬ (pos + 4 ≤ i ∧ i < pos + 8)) :
    f'[i]? = f[i]? := by
  by_contra hne
  rcases h.bytes i hne with h | h | ⟨e', fh', pos, hp', ⟨h4, vs, h5⟩, h6⟩
  · exact h2 h
  · exact h3 h
  · obtain ⟨rfl, rfl⟩ := preamble_unique hp hp'
    exact hi pos vs h5 h4 h6

theorem sameRun_loop (h : OnlyReserved f f') (hf : f.length < cfg.usizeMod) (hp : Preamble f e fh) (hfit : Fits cfg fh)
    (hE : typeEnd fh < 2 ^ 32) (hsec : SectionsApart fh) (hstr : strEnd fh < cfg.usizeMod) (fuel : Nat) :
    ∀ pos vs tid ti r r', Records .crate f e fh (typeStart fh) vs pos → r.offset = pos →
      Twins (readableBuffer cfg f) (readableBuffer cfg f') e e r r' →
      SameRun (readableBuffer cfg f) (readableBuffer cfg f') e (parseLoop cfg fh (typeEnd fh) fuel tid ti) r r' := by
  have hl := h.length
  have ht := hfit.type hE
  obtain ⟨hs1, hs2, hs3⟩ := hsec
  induction fuel with
  | zero => intro pos vs tid ti r r' _ _ hT; exact ⟨rfl, hT⟩
  | succ fuel ih =>
    intro pos vs tid ti r r' hrec hr hT
    have hstart : typeStart fh ≤ pos := by have := records_next hrec; omega
    have hS := serves_buffer cfg f hf
    unfold parseLoop
    refine sameRun_atOffset hT ?_
    rw [hr]
    by_cases hpos : pos < typeEnd fh
    swap
    · rw [if_neg hpos]; exact sameRun_pure _ hT
    rw [if_pos hpos]
    refine sameRun_bind (sameRun_header (pos := pos) hl hf hfit hE hr (by omega) hT ?_ ?_) ?_
    · intro hle i h3 h4 h5
      refine bytes_same h hp (by omega) (by omega) fun p2 vs2 h6 h7 h8 => ?_
      rcases starts_apart' hE hrec h6 with h9 | h9 | h9 <;> omega
    · intro hle w w' h3 h4
      exact h.fields e fh pos w w' hp ⟨hle, vs, hrec⟩ h3 h4
    intro th r1 r1' h2 h2' hT1
    have hA : At cfg f e pos r := ⟨by rw [hT.readable]; exact hS, hT.endianness, hr⟩
    have hh := (correct_header (f := f) (e := e) (pos := pos) hfit hE (by omega)).run r hA
    rw [h2] at hh
    rcases hh with ⟨a, x, n, h3, ⟨⟨hth, hle⟩, rfl⟩, hA1⟩ | ⟨k, x, h3, -⟩
    swap
    · cases h3
    cases h3
    have hv := headerAt_vlen hth
    -- the requests for the body
    have hbody := (safe_parseType_body (cfg := cfg) (th := th) (pos := pos + 12)
      (C := fun ev => (Within (pos + 12) (pos + 12 + bodySize th.kind th.vlen) ev ∧ ev.offset < cfg.usizeMod) ∨
        (Within (strStart fh) (strEnd fh) ev ∧ ev.len = 1 ∧ ev.offset < cfg.usizeMod)) hfit ?_ hE ?_ hle hv).run r1 hA1.offset
    rotate_left
    · rintro ev ⟨h3, h4⟩ h5
      refine .inr ⟨⟨h3, h4⟩, h5, ?_⟩
      omega
    · intro hbd
      have := bodySize_le th.kind th.vlen
      refine ⟨fun a len k h3 h4 h5 h6 => .inl ⟨⟨h3, h4⟩, ?_⟩, by omega⟩
      simp only []; omega
    obtain ⟨⟨new, hnew, hloc⟩, -⟩ := hbody
    have hag : AgreeInts (readableBuffer cfg f) (readableBuffer cfg f') e e new r1.trace := by
      rintro later ev earlier rfl
      apply sameInt_of_sameAnswer
      rcases hloc ev (by simp) with ⟨⟨h3, h4⟩, h5⟩ | ⟨⟨h3, h4⟩, h6, h5⟩
      · refine buffer_same hl _ h5 fun i h6 h7 => ?_
        refine bytes_same h hp (by omega) (by omega) fun p2 vs2 h8 h9 h10 => ?_
        rcases starts_apart hE hrec h8 hth with h11 | h11 | h11 <;> omega
      · refine buffer_same hl _ h5 fun i h8 h7 => ?_
        refine bytes_same h hp (by omega) (by omega) fun p2 vs2 h8 h9 h10 => ?_
        have := records_next h8
        omega
    have hsame := (ints_parseType (cfg := cfg) fh th).same r1 r1' hT1 new hnew hag
    refine sameRun_bind hsame ?_
    intro v r2 r2' h3 h3' hT2
    have hpt := (correct_parseType (f := f) (e := e) (pos := pos + 12) hfit hE hle (by omega) hv).run r1 hA1
    rw [h3] at hpt
    rcases hpt with ⟨a, x, n, h4, ⟨⟨h5, h6⟩, rfl⟩, hA2⟩ | ⟨k, x, h4, -⟩
    swap
    · cases h4
    cases h4
    refine sameRun_bind (sameRun_lift _ hT2) ?_
    intro tid' x x' hx hx' _
    have hx1 : x = r2 := (congrArg Prod.snd hx).symm
    have hx2 : x' = r2' := (congrArg Prod.snd hx').symm
    subst hx1 hx2
    exact ih _ (vs ++ [v]) _ _ _ _ (records_append hrec (.cons ⟨th, hth, h5, h6, rfl⟩ .nil)) hA2.offset hT2

theorem sameRun_afterHeader (h : OnlyReserved f f') (hf : f.length < cfg.usizeMod) (hp : Preamble f e fh) (hfit : Fits cfg fh)
    (hsec : SectionsApart fh) (hstr : strEnd fh < cfg.usizeMod) {r r' : Reader}
    (hT : Twins (readableBuffer cfg f) (readableBuffer cfg f') e e r r') :
    SameRun (readableBuffer cfg f) (readableBuffer cfg f') e (afterHeader cfg fh) r r' := by
  unfold afterHeader
  refine sameRun_bind (sameRun_lift _ hT) ?_
  intro start x x' hx hx' _
  have hx1 : x = r := (congrArg Prod.snd hx).symm
  have hx2 : x' = r' := (congrArg Prod.snd hx').symm
  subst hx1 hx2
  cases hs : u32CheckedAdd fh.hdrLen fh.typeOff with
  | none => rw [hs] at hx; cases hx
  | some s =>
    rw [hs] at hx
    cases hx
    have hst : start.toNat = typeStart fh := u32CheckedAdd_eq_some.1 hs
    have hslt := start.toNat_lt
    simp only []
    refine sameRun_bind (sameRun_lift _ hT) ?_
    intro stop y y' hy hy' _
    have hy1 : y = x := (congrArg Prod.snd hy).symm
    have hy2 : y' = x' := (congrArg Prod.snd hy').symm
    subst hy1 hy2
    unfold Cfg.usizeCheckedAdd at hy
    rw [hst] at hy ⊢
    by_cases hadd : typeStart fh + fh.typeLen.toNat < cfg.usizeMod
    swap
    · rw [if_neg hadd] at hy; cases hy
    rw [if_pos hadd] at hy
    cases hy
    refine sameRun_bind (sameRun_setOffset _ hT) ?_
    intro _ z z' hz hz' hT1
    have hz1 : z = { y with offset := typeStart fh } := (congrArg Prod.snd hz).symm
    by_cases hE : typeEnd fh < 2 ^ 32
    · exact sameRun_loop h hf hp hfit hE hsec hstr _ _ [] _ _ _ _ .nil (by rw [hz1]) hT1
    · have h0 : z.offset < typeStart fh + fh.typeLen.toNat := by
        rw [hz1]; simp only []
        unfold typeEnd at hE
        omega
      unfold SameRun
      rw [loop_overflow (by omega) (by omega) _ _ _ h0, loop_overflow (by omega) (by omega) _ _ _ (by rw [hT1.offset]; exact h0)]
      exact ⟨rfl, hT1⟩

theorem preamble_other_head (hl : f'.length = f.length) (hb : ∀ i < 24, i ≠ 2 → i ≠ 3 → f'[i]? = f[i]?) (h : Preamble f e fh) :
    ∃ v w, Preamble f' e { fh with version := v, flags := w } := by
  have hlen := h.strLen.1
  have hw : ∀ pos w, 4 ≤ pos → pos + 4 ≤ 24 → Word f e pos w → Word f' e pos w := by
    rintro pos w hp hp' ⟨h1, h2⟩
    refine ⟨by omega, ?_⟩
    rw [h2]
    congr 1
    apply List.ext_getElem?
    intro i
    rw [List.getElem?_take, List.getElem?_take, List.getElem?_drop, List.getElem?_drop]
    split
    · rw [hb _ (by omega) (by omega) (by omega)]
    · rfl
  refine ⟨f'[2]'(by omega), f'[3]'(by omega), ?_, List.getElem?_eq_getElem _, List.getElem?_eq_getElem _,
    hw _ _ (by decide) (by decide) h.hdrLen, hw _ _ (by decide) (by decide) h.typeOff, hw _ _ (by decide) (by decide) h.typeLen,
    hw _ _ (by decide) (by decide) h.strOff, hw _ _ (by decide) (by decide) h.strLen⟩
  rw [← h.magic]
  apply List.ext_getElem?
  intro i
  rw [List.getElem?_take, List.getElem?_take]
  split
  · rw [hb _ (by omega) (by omega) (by omega)]
  · rfl

theorem new_reserved (h : OnlyReserved f f') (hf : f.length < cfg.usizeMod)
    (hfit : ∀ e fh, Preamble f e fh → Fits cfg fh)
    (hsec : ∀ e fh, Preamble f e fh → SectionsApart fh ∧ strEnd fh < cfg.usizeMod)
    (hfaith : ∀ R, Faithful R (TypeInformation.newTrace cfg R)) :
    TypeInformation.newT cfg (readableBuffer cfg f') = TypeInformation.newT cfg (readableBuffer cfg f) := by
  by_cases hp : ∃ e fh, Preamble f e fh
  · obtain ⟨e, fh, hp⟩ := hp
    obtain ⟨hap, hstr⟩ := hsec e fh hp
    have hS := serves_buffer cfg f hf
    have hS' := serves_buffer cfg f' (by rw [h.length]; exact hf)
    obtain ⟨v, w, hp'⟩ := preamble_other_head h.length (fun i hi h2 h3 => bytes_same h hp h2 h3 fun pos vs h4 h5 h6 => by
      have := records_next h4
      have := hap.1
      omega) hp
    obtain ⟨r, h1, h2⟩ := header_announced (cfg := cfg) ((announces_iff hS).2 hp)
    obtain ⟨r', h1', h2'⟩ := header_announced (cfg := cfg) ((announces_iff hS').2 hp')
    have hrun : TypeInformation.newP cfg (Reader.new (readableBuffer cfg f)) = afterHeader cfg fh r := by
      rw [newP_eq]; change P.bind _ _ _ = _; unfold P.bind; rw [h1]
    have hrun' : TypeInformation.newP cfg (Reader.new (readableBuffer cfg f')) = afterHeader cfg fh r' := by
      rw [newP_eq]; change P.bind _ _ _ = _; unfold P.bind; rw [h1']
      simp only []
      rw [afterHeader_version fh v w]
    have hT : Twins (readableBuffer cfg f) (readableBuffer cfg f') e e r r' := by
      refine ⟨h2.readable, h2'.readable, h2.endianness, h2'.endianness, ?_, h2'.trace.trans h2.trace.symm⟩
      rw [h2.last rfl, h2'.last rfl]
    unfold TypeInformation.newT
    rw [hrun, hrun']
    exact (sameRun_afterHeader h hf hp (hfit e fh hp) hap hstr hT).1.symm
  · refine new_version h.length hf ?_ hfit (fun e fh h => absurd ⟨e, fh, h⟩ hp) hfaith
    intro i h2 h3
    by_contra hne
    rcases h.bytes i hne with h | h | ⟨e, fh, pos, h, -⟩
    · exact h2 h
    · exact h3 h
    · exact hp ⟨e, fh, h⟩

end

end Btf

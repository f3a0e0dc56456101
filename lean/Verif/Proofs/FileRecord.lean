import Verif.Proofs.FileData

/-!
# The records of a file
-/

namespace Btf

open Spec Reader

section
variable {α β : Type} {f : List UInt8} {e : Endianness} {cfg : Cfg} {fh : FileHeader} {pos : Nat}

theorem ite_cases {c : Prop} [Decidable c] {x y z : α} (h : (if c then x else y) = z) : (c ∧ x = z) ∨ y = z := by
  by_cases hc : c
  · rw [if_pos hc] at h; exact .inl ⟨hc, h⟩
  · rw [if_neg hc] at h; exact .inr h

theorem ite_cases' {ε : Type} {c : Prop} [Decidable c] {x : α} {y : Res ε α} {z : Res ε α}
    (h : (∃ k, y = .ok k) ∨ y = z) :
    (∃ k, (if c then .ok x else y) = Res.ok k) ∨ (if c then .ok x else y) = z := by
  by_cases hc : c
  · rw [if_pos hc]; exact .inl ⟨_, rfl⟩
  · rw [if_neg hc]; exact h

/-- A step that always succeeds with the same value and does not move the reader. -/
theorem correct_step {p : P α} {q : α → P β} {a : α} {S : β → Nat → Prop} {E : LoadReason → Prop}
    (h : ∀ r, At cfg f e pos r → p r = (.ok a, r)) (hq : Correct cfg f e pos (q a) S E) : Correct cfg f e pos (p >>= q) S E := by
  refine ⟨fun r hr => ?_, hq.unique⟩
  change (∃ b r' n', P.bind _ _ r = _ ∧ _) ∨ ∃ k r', P.bind _ _ r = _ ∧ _
  unfold P.bind
  rw [h r hr]
  exact hq.run r hr

theorem kind_new_ok {v : UInt32} {k : Kind} : Kind.new v = .ok k ↔ kindCode k = v.toNat := by
  constructor
  · intro h
    unfold Kind.new at h
    repeat (rcases ite_cases h with ⟨hv, h⟩ | h; · cases h; rw [hv]; rfl)
    cases h
  · intro h
    have : v = UInt32.ofNat (kindCode k) := by rw [h]; simp
    rw [this]
    cases k <;> rfl

theorem kind_new_returns (v : UInt32) : (∃ k, Kind.new v = .ok k) ∨ Kind.new v = .err (.invalidKind v) := by
  unfold Kind.new
  repeat refine ite_cases' ?_
  exact .inr rfl

theorem kindCode_inj {k k' : Kind} (h : kindCode k = kindCode k') : k = k' := by
  have h1 : Kind.new (UInt32.ofNat (kindCode k)) = .ok k := by cases k <;> rfl
  have h2 : Kind.new (UInt32.ofNat (kindCode k')) = .ok k' := by cases k' <;> rfl
  rw [h, h2] at h1
  cases h1; rfl

theorem section_ok (hE : typeEnd fh < 2 ^ 32) : ∃ s t : UInt32, u32CheckedAdd fh.hdrLen fh.typeOff = some s ∧
    u32CheckedAdd s fh.typeLen = some t ∧ s.toNat = typeStart fh ∧ t.toNat = typeEnd fh := by
  unfold typeEnd typeStart at *
  refine ⟨UInt32.ofNat (fh.hdrLen.toNat + fh.typeOff.toNat),
    UInt32.ofNat (fh.hdrLen.toNat + fh.typeOff.toNat + fh.typeLen.toNat), ?_, ?_, ?_, ?_⟩
  · rw [u32CheckedAdd_eq_some, ofNat_toNat_lt (by omega)]
  · rw [u32CheckedAdd_eq_some, ofNat_toNat_lt (by omega), ofNat_toNat_lt (by omega)]
  · rw [ofNat_toNat_lt (by omega)]
  · rw [ofNat_toNat_lt (by omega)]

/-- Why the header of the record at `pos` cannot be decoded. -/
def HeadFlaw (f : List UInt8) (e : Endianness) (fh : FileHeader) (pos : Nat) (k : LoadReason) : Prop :=
  (typeEnd fh < pos + 12 ∧ k = .typeSectionOffset) ∨
  (pos + 12 ≤ typeEnd fh ∧ Cut f (pos + 12) k) ∨
  (pos + 12 ≤ typeEnd fh ∧ ∃ info value, Word f e (pos + 4) info ∧ k = .invalidKind value ∧
    value.toNat = info.toNat / 2 ^ 24 % 32 ∧ ∀ k, kindCode k ≠ value.toNat)

theorem correct_header (hf : Fits cfg fh) (hE : typeEnd fh < 2 ^ 32) (hpos : pos ≤ typeEnd fh) :
    Correct cfg f e pos (Header.new cfg fh)
      (fun th n => (HeaderAt f e pos th ∧ pos + 12 ≤ typeEnd fh) ∧ n = pos + 12) (HeadFlaw f e fh pos) := by
  obtain ⟨s, t, hs, ht, hs', ht'⟩ := section_ok hE
  have hfit := hf.type hE
  unfold Header.new
  by_cases hlen : pos + 12 ≤ typeEnd fh
  · refine correct_step (a := s) (fun r hr => by rw [P.lift, hs]; rfl) ?_
    refine correct_step (a := t) (fun r hr => by rw [P.lift, ht]; rfl) ?_
    refine correct_step (a := pos) (fun r hr => by rw [getOffset, hr.offset]) ?_
    refine correct_step (a := pos + 12) (fun r hr => by rw [P.lift, usizeAdd_lt (by unfold TYPE_HEADER_SIZE; omega)]; rfl) ?_
    refine Correct.congr (R := fun th n => HeaderAt f e pos th ∧ n = pos + 12) (E := HeadFlaw f e fh pos) ?_ (fun th n => by simp [hlen]) (fun _ h => h)
    generalize hpp : pos = p at *
    rw [if_neg (by omega)]
    refine (correct_word (by omega) fun w _ => correct_word (by omega) fun info _ =>
      correct_bind (R := fun k n => kindCode k = info.toNat / 2 ^ 24 % 32 ∧ n = p + 4 + 4)
        (E := fun k => ∃ value, k = .invalidKind value ∧ value.toNat = info.toNat / 2 ^ 24 % 32 ∧ ∀ k, kindCode k ≠ value.toNat) ?_ fun k mid hk =>
        (?_ : Correct cfg f e mid _ (fun (th : Header) n => ∃ sz, Word f e (p + 8) sz ∧ n = p + 12 ∧
          th = { kind := k, nameOffset := w, vlen := (info &&& 65535).toNat,
                 kindFlag := (info &&& 0x80000000) != 0, sizeOrType := sz }) (Cut f (p + 12)))).congr ?_ ?_
    · refine (correct_lift (R := fun k => kindCode k = info.toNat / 2 ^ 24 % 32) ?_ ?_).congr (fun _ _ => Iff.rfl) ?_
      · intro k; rw [kind_new_ok, info_kind]
      · rcases kind_new_returns ((info &&& 0x1F000000) >>> 24) with h | h
        · exact .inl h
        · exact .inr ⟨_, h⟩
      · intro k hk
        rcases kind_new_returns ((info &&& 0x1F000000) >>> 24) with ⟨k', h⟩ | h
        · rw [h] at hk; cases hk
        · rw [h] at hk
          cases hk
          refine ⟨_, rfl, info_kind info, fun k' hk' => ?_⟩
          rw [← kind_new_ok, h] at hk'
          cases hk'
    · obtain ⟨hk, rfl⟩ := hk
      refine (correct_word (by omega) fun sz _ => correct_pure _).congr ?_ ?_
      · intro th n
        constructor
        · rintro ⟨sz, h, rfl, rfl⟩; exact ⟨sz, h, rfl, rfl⟩
        · rintro ⟨sz, h, rfl, rfl⟩; exact ⟨sz, h, rfl, rfl⟩
      · rintro k (h | ⟨_, _, h⟩)
        · exact h
        · exact h.elim
    · intro th n
      unfold HeaderAt
      constructor
      · rintro ⟨w, hw, info, hi, k, mid, ⟨hk, rfl⟩, sz, hsz, rfl, rfl⟩
        exact ⟨⟨hw, hsz, info, hi, hk, info_vlen info, info_flag info⟩, rfl⟩
      · rintro ⟨⟨hw, hsz, info, hi, hk, hv, hfl⟩, rfl⟩
        refine ⟨_, hw, info, hi, th.kind, _, ⟨hk, rfl⟩, _, hsz, rfl, ?_⟩
        cases th
        simp only [] at hv hfl
        congr 1
        · rw [hv, info_vlen]
        · rw [Bool.eq_iff_iff, hfl, info_flag]
    · rintro k (h | ⟨w, hw, h | ⟨info, hi, ⟨v, h1, h2⟩ | ⟨_, _, _, h⟩⟩⟩)
      · exact .inr (.inl ⟨hlen, h.mono (by omega)⟩)
      · exact .inr (.inl ⟨hlen, h.mono (by omega)⟩)
      · exact .inr (.inr ⟨hlen, info, v, hi, h1, h2⟩)
      · exact .inr (.inl ⟨hlen, h.mono (by omega)⟩)
  · constructor
    · intro r hr
      refine .inr ⟨.typeSectionOffset, r, ?_, ?_, .inl ⟨by omega, rfl⟩⟩
      · change P.bind _ _ r = _
        unfold P.bind P.lift
        rw [hs]
        simp only [okOr]
        change P.bind _ _ r = _
        unfold P.bind
        rw [ht]
        simp only []
        change P.bind _ _ r = _
        unfold P.bind getOffset
        simp only []
        change P.bind _ _ r = _
        unfold P.bind
        rw [hr.offset, usizeAdd_lt (show pos + TYPE_HEADER_SIZE < cfg.usizeMod by unfold TYPE_HEADER_SIZE; omega)]
        simp only []
        rw [if_pos (by unfold TYPE_HEADER_SIZE; omega)]
        rfl
      · rintro a n ⟨⟨-, h⟩, -⟩; exact hlen h
    · rintro a n a' n' ⟨⟨-, h⟩, -⟩; exact absurd h hlen

theorem extraSize_eq {th : Header} (hv : th.vlen < 2 ^ 16) (hu : 2 ^ 20 < cfg.usizeMod) :
    extraSize cfg th.kind th = .ok (boundedSize .crate th.kind th.vlen) := by
  have h12 : cfg.usizeMul (ε := LoadReason) th.vlen 12 = .ok (12 * th.vlen) := by
    rw [usizeMul_lt (by omega), Nat.mul_comm]
  have h8 : cfg.usizeMul (ε := LoadReason) th.vlen 8 = .ok (8 * th.vlen) := by
    rw [usizeMul_lt (by omega), Nat.mul_comm]
  unfold extraSize boundedSize bodySize
  cases th.kind <;> simp only [] <;> first | rfl | exact h12 | exact h8

theorem boundedSize_le {k : Kind} {v : Nat} (hv : v < 2 ^ 16) : boundedSize .crate k v < 2 ^ 20 := by
  unfold boundedSize bodySize; cases k <;> simp only [] <;> omega

theorem bodySize_le (k : Kind) (v : Nat) : bodySize k v ≤ boundedSize .crate k v + 12 := by
  unfold boundedSize bodySize; cases k <;> simp only [] <;> omega

theorem usizeMod_ge (cfg : Cfg) : 2 ^ 32 ≤ cfg.usizeMod := by
  unfold Cfg.usizeMod; split <;> decide

theorem u32Add_lt {ε : Type} {a b : UInt32} (h : a.toNat + b.toNat < 2 ^ 32) : cfg.u32Add (ε := ε) a b = .ok (UInt32.ofNat (a.toNat + b.toNat)) := by
  unfold Cfg.u32Add; rw [wrapOr_lt h]

theorem correct_checkExtra {th : Header} (hf : Fits cfg fh) (hE : typeEnd fh < 2 ^ 32)
    (hpos : pos ≤ typeEnd fh) (hs : typeStart fh ≤ pos) (hv : th.vlen < 2 ^ 16) :
    Correct cfg f e pos (checkExtra cfg fh th.kind th)
      (fun _ n => pos + boundedSize .crate th.kind th.vlen ≤ typeEnd fh ∧ n = pos)
      (fun k => typeEnd fh < pos + boundedSize .crate th.kind th.vlen ∧ k = .typeSectionOffset) := by
  constructor
  swap
  · rintro a n a' n' ⟨-, rfl⟩ ⟨-, rfl⟩; exact ⟨rfl, rfl⟩
  intro r hr
  have hsz := boundedSize_le (k := th.kind) hv
  have hu := usizeMod_ge cfg
  have hfit := hf.type hE
  unfold checkExtra
  rw [if_neg (by simp)]
  change (∃ b r' n', P.bind _ _ r = _ ∧ _) ∨ ∃ k r', P.bind _ _ r = _ ∧ _
  unfold P.bind P.lift
  rw [extraSize_eq hv (by omega)]
  simp only []
  by_cases h0 : boundedSize .crate th.kind th.vlen > 0
  · rw [if_pos h0]
    change (∃ b r' n', P.bind _ _ r = _ ∧ _) ∨ ∃ k r', P.bind _ _ r = _ ∧ _
    unfold P.bind
    have hs1 : fh.hdrLen.toNat + fh.typeOff.toNat < 2 ^ 32 := by unfold typeEnd typeStart at hE; omega
    rw [u32Add_lt hs1]
    simp only []
    change (∃ b r' n', P.bind _ _ r = _ ∧ _) ∨ ∃ k r', P.bind _ _ r = _ ∧ _
    unfold P.bind
    rw [u32Add_lt (by rw [ofNat_toNat_lt hs1]; unfold typeEnd typeStart at hE; omega), ofNat_toNat_lt hs1]
    simp only []
    change (∃ b r' n', P.bind _ _ r = _ ∧ _) ∨ ∃ k r', P.bind _ _ r = _ ∧ _
    unfold P.bind getOffset
    simp only []
    rw [hr.offset, if_neg (by unfold typeStart at hs; omega)]
    change (∃ b r' n', P.bind _ _ r = _ ∧ _) ∨ ∃ k r', P.bind _ _ r = _ ∧ _
    unfold P.bind
    rw [usizeAdd_lt (by omega)]
    simp only []
    have hte : (UInt32.ofNat (fh.hdrLen.toNat + fh.typeOff.toNat + fh.typeLen.toNat)).toNat = typeEnd fh := by
      rw [ofNat_toNat_lt (by unfold typeEnd typeStart at hE; omega)]; rfl
    rw [hte]
    by_cases hle : pos + boundedSize .crate th.kind th.vlen > typeEnd fh
    · rw [if_pos hle]
      exact .inr ⟨_, r, rfl, fun _ _ h => by omega, hle, rfl⟩
    · rw [if_neg hle]
      exact .inl ⟨(), r, pos, rfl, ⟨by omega, rfl⟩, hr⟩
  · rw [if_neg h0]
    exact .inl ⟨(), r, pos, rfl, ⟨by omega, rfl⟩, hr⟩

/-- Why the rest of the record, at `pos`, cannot be decoded. -/
def RestFlaw (f : List UInt8) (e : Endianness) (fh : FileHeader) (th : Header) (pos : Nat) (k : LoadReason) : Prop :=
  (typeEnd fh < pos + boundedSize .crate th.kind th.vlen ∧ k = .typeSectionOffset) ∨
  (pos + boundedSize .crate th.kind th.vlen ≤ typeEnd fh ∧ BodyFlaw f e fh th pos k)

theorem correct_defineType {D : Type} {th : Header} {data : P D} {mk : Header → D → TypeVariant} {R : D → Prop} {K : Kind}
    (hK : th.kind = K)
    (hf : Fits cfg fh) (hE : typeEnd fh < 2 ^ 32)
    (hpos : pos ≤ typeEnd fh) (hs : typeStart fh ≤ pos) (hv : th.vlen < 2 ^ 16)
    (hdata : pos + bodySize th.kind th.vlen < cfg.usizeMod → Correct cfg f e pos data
      (fun d n => R d ∧ n = pos + bodySize th.kind th.vlen) (BodyFlaw f e fh th pos))
    (hbody : ∀ v, Body .crate f e fh th pos v ↔ ∃ d, R d ∧ v = mk th d) :
    Correct cfg f e pos (defineTypeNew cfg fh K th data mk)
      (fun v n => (Body .crate f e fh th pos v ∧ pos + boundedSize .crate th.kind th.vlen ≤ typeEnd fh) ∧
        n = pos + bodySize th.kind th.vlen) (RestFlaw f e fh th pos) := by
  subst hK
  unfold defineTypeNew
  have hfit := hf.type hE
  refine (correct_bind (S := fun _ _ v n => Body .crate f e fh th pos v ∧ n = pos + bodySize th.kind th.vlen)
    (E' := fun _ _ => BodyFlaw f e fh th pos)
    (correct_checkExtra hf hE hpos hs hv) ?_).congr ?_ ?_
  · rintro _ _ ⟨h, rfl⟩
    have hb := bodySize_le th.kind th.vlen
    refine (correct_bind (hdata (by omega)) (fun d _ _ => correct_pure _)).congr ?_ ?_
    · intro v n
      rw [hbody]
      constructor
      · rintro ⟨d, mid, ⟨hd, rfl⟩, rfl, rfl⟩; exact ⟨⟨d, hd, rfl⟩, rfl⟩
      · rintro ⟨⟨d, hd, rfl⟩, rfl⟩; exact ⟨d, _, ⟨hd, rfl⟩, rfl, rfl⟩
    · rintro k (h | ⟨_, _, _, h⟩)
      · exact h
      · exact h.elim
  · intro v n
    constructor
    · rintro ⟨_, _, ⟨h1, -⟩, h2, h3⟩; exact ⟨⟨h2, h1⟩, h3⟩
    · rintro ⟨⟨h2, h1⟩, h3⟩; exact ⟨(), pos, ⟨h1, rfl⟩, h2, h3⟩
  · rintro k (h | ⟨_, _, ⟨h, -⟩, h'⟩)
    · exact .inl h
    · exact .inr ⟨h, h'⟩

theorem correct_parseType {th : Header} (hf : Fits cfg fh) (hE : typeEnd fh < 2 ^ 32)
    (hpos : pos ≤ typeEnd fh) (hs : typeStart fh ≤ pos) (hv : th.vlen < 2 ^ 16) :
    Correct cfg f e pos (parseType cfg fh th)
      (fun v n => (Body .crate f e fh th pos v ∧ pos + boundedSize .crate th.kind th.vlen ≤ typeEnd fh) ∧
        n = pos + bodySize th.kind th.vlen) (RestFlaw f e fh th pos) := by
  unfold parseType
  split <;> rename_i hk
  · refine correct_defineType hk hf hE hpos hs hv (fun h => correct_int_body hk hf (by rw [hk] at h; exact h)) ?_
    intro v; cases v <;> simp [Body, hk, eq_comm, and_comm]
  · refine correct_defineType hk hf hE hpos hs hv (fun h => correct_namedTid_body (by rw [hk]; rfl) (by rw [hk]; rfl) hf) ?_
    intro v; cases v <;> simp [Body, hk, eq_comm, and_comm]
  · refine correct_defineType hk hf hE hpos hs hv (fun h => correct_enum_body hk hf (by rw [hk] at h; exact h)) ?_
    intro v; cases v <;> simp [Body, hk, eq_comm, and_comm]
  · refine correct_defineType hk hf hE hpos hs hv (fun h => correct_tid_body (by rw [hk]; rfl)) ?_
    intro v; cases v <;> simp [Body, hk, eq_comm, and_comm]
  · refine correct_defineType hk hf hE hpos hs hv (fun h => correct_tid_body (by rw [hk]; rfl)) ?_
    intro v; cases v <;> simp [Body, hk, eq_comm, and_comm]
  · refine correct_defineType hk hf hE hpos hs hv (fun h => correct_tid_body (by rw [hk]; rfl)) ?_
    intro v; cases v <;> simp [Body, hk, eq_comm, and_comm]
  · refine correct_defineType hk hf hE hpos hs hv (fun h => correct_array_body hk (by rw [hk] at h; exact h)) ?_
    intro v; cases v <;> simp [Body, hk, eq_comm, and_comm]
  · refine correct_defineType hk hf hE hpos hs hv (fun h => correct_funcProto_body hk hf (by rw [hk] at h; exact h)) ?_
    intro v; cases v <;> simp [Body, hk, eq_comm, and_comm]
  · refine correct_defineType hk hf hE hpos hs hv (fun h => correct_struct_body (.inl hk) hf (by rw [hk] at h; exact h)) ?_
    intro v; cases v <;> simp [Body, hk, eq_comm, and_comm]
  · refine correct_defineType hk hf hE hpos hs hv (fun h => correct_struct_body (.inr hk) hf (by rw [hk] at h; exact h)) ?_
    intro v; cases v <;> simp [Body, hk, eq_comm, and_comm]
  · refine correct_defineType hk hf hE hpos hs hv (fun h => correct_namedTid_body (by rw [hk]; rfl) (by rw [hk]; rfl) hf) ?_
    intro v; cases v <;> simp [Body, hk, eq_comm, and_comm]
  · refine correct_defineType hk hf hE hpos hs hv (fun h => correct_var_body hk hf (by rw [hk] at h; exact h)) ?_
    intro v; cases v <;> simp [Body, hk, eq_comm, and_comm]
  · refine correct_defineType hk hf hE hpos hs hv (fun h => correct_enum64_body hk hf (by rw [hk] at h; exact h)) ?_
    intro v; cases v <;> simp [Body, hk, eq_comm, and_comm]
  · refine correct_defineType hk hf hE hpos hs hv (fun h => correct_func_body hk hf) ?_
    intro v; cases v <;> simp [Body, hk, eq_comm, and_comm]
  · refine correct_defineType hk hf hE hpos hs hv (fun h => correct_float_body hk hf) ?_
    intro v; cases v <;> simp [Body, hk, eq_comm, and_comm]
  · refine correct_defineType hk hf hE hpos hs hv (fun h => correct_tid_body (by rw [hk]; rfl)) ?_
    intro v; cases v <;> simp [Body, hk, eq_comm, and_comm]
  · refine correct_defineType hk hf hE hpos hs hv (fun h => correct_dataSec_body hk hf (by rw [hk] at h; exact h)) ?_
    intro v; cases v <;> simp [Body, hk, eq_comm, and_comm]
  · refine correct_defineType hk hf hE hpos hs hv (fun h => correct_namedTid_body (by rw [hk]; rfl) (by rw [hk]; rfl) hf) ?_
    intro v; cases v <;> simp [Body, hk, eq_comm, and_comm]
  · refine correct_defineType hk hf hE hpos hs hv (fun h => correct_declTag_body hk hf (by rw [hk] at h; exact h)) ?_
    intro v; cases v <;> simp [Body, hk, eq_comm, and_comm]

theorem headerAt_vlen {th : Header} (h : HeaderAt f e pos th) : th.vlen < 2 ^ 16 := by
  obtain ⟨-, -, info, -, -, hv, -⟩ := h
  omega

/-- One record. -/
theorem correct_record (hf : Fits cfg fh) (hE : typeEnd fh < 2 ^ 32)
    (hpos : pos ≤ typeEnd fh) (hs : typeStart fh ≤ pos) :
    Correct cfg f e pos (Header.new cfg fh >>= parseType cfg fh)
      (fun v n => RecordAt .crate f e fh pos v n) (RecordFlaw f e fh pos) := by
  refine (correct_bind (S := fun th _ v n => (Body .crate f e fh th (pos + 12) v ∧
      pos + 12 + boundedSize .crate th.kind th.vlen ≤ typeEnd fh) ∧ n = pos + 12 + bodySize th.kind th.vlen)
    (E' := fun th _ => RestFlaw f e fh th (pos + 12))
    (correct_header hf hE hpos) ?_).congr ?_ ?_
  · rintro th _ ⟨⟨hh, hle⟩, rfl⟩
    exact correct_parseType hf hE hle (by omega) (headerAt_vlen hh)
  · intro v n
    unfold RecordAt
    constructor
    · rintro ⟨th, _, ⟨⟨hh, -⟩, -⟩, ⟨h1, h2⟩, h3⟩; exact ⟨th, hh, h1, h2, h3⟩
    · rintro ⟨th, hh, h1, h2, h3⟩; exact ⟨th, _, ⟨⟨hh, by omega⟩, rfl⟩, ⟨h1, h2⟩, h3⟩
  · rintro k (h | ⟨th, _, ⟨⟨hh, hle⟩, -⟩, h⟩)
    · rcases h with ⟨h, rfl⟩ | ⟨h1, ⟨err, rfl⟩, h2⟩ | ⟨h1, info, v, h2, rfl, h3, h4⟩
      · exact .header h
      · exact .headerTruncated h1 h2
      · exact .kind h1 h2 h3 h4
    · rcases h with ⟨h, rfl⟩ | ⟨hb, ⟨⟨err, rfl⟩, h⟩ | ⟨off, h1, h2⟩ | ⟨h1, h2, rfl, i, raw, h3, h4, h5⟩⟩
      · exact .body hle hh h
      · exact .bodyTruncated hb hh h
      · exact .string hb hh h1 h2
      · exact .misaligned hb hh h1 h2 h3 h4 h5

end

end Btf

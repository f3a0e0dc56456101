import Verif.Proofs.FileRecord

/-!
# `TypeInformation::new` on a file
-/

namespace Btf

open Spec Reader

/-- The maps built from a list of types, numbered from `tid`. -/
def build (tid : UInt32) (ti : TypeInformation) : List TypeVariant → TypeInformation
  | [] => ti
  | v :: vs => build (tid + 1) (ti.register tid v) vs

section
variable {α β : Type} {f : List UInt8} {e : Endianness} {cfg : Cfg} {fh : FileHeader} {pos : Nat}

theorem record_unique (hE : typeEnd fh < 2 ^ 32) (hs : typeStart fh ≤ pos) {v v' : TypeVariant} {n n' : Nat}
    (h : RecordAt .crate f e fh pos v n) (h' : RecordAt .crate f e fh pos v' n') : v = v' ∧ n = n' := by
  have hpos : pos ≤ typeEnd fh := by obtain ⟨th, -, -, h, -⟩ := h; omega
  exact (correct_record (cfg := ⟨.w64, true⟩) (fits_64 rfl fh) hE hpos hs).unique _ _ _ _ h h'

theorem record_next {v : TypeVariant} {n : Nat} {dl : Dialect} (h : RecordAt dl f e fh pos v n) :
    pos + 12 ≤ n ∧ pos + 12 ≤ typeEnd fh := by
  obtain ⟨th, -, -, h, h'⟩ := h; omega

theorem records_unique (hE : typeEnd fh < 2 ^ 32) {vs vs' : List TypeVariant} {pos n n' : Nat}
    (hs : typeStart fh ≤ pos)
    (h : Records .crate f e fh pos vs n) (hn : typeEnd fh ≤ n)
    (h' : Records .crate f e fh pos vs' n') (hn' : typeEnd fh ≤ n') : vs = vs' ∧ n = n' := by
  induction h generalizing vs' with
  | nil =>
    cases h' with
    | nil => exact ⟨rfl, rfl⟩
    | cons h1 _ => have := record_next h1; omega
  | cons h1 h2 ih =>
    cases h' with
    | nil => have := record_next h1; omega
    | cons h1' h2' =>
      obtain ⟨rfl, rfl⟩ := record_unique hE hs h1 h1'
      have := record_next h1
      obtain ⟨rfl, rfl⟩ := ih (by omega) hn h2'
      exact ⟨rfl, rfl⟩

theorem bind_assoc' {γ : Type} (p : P α) (q : α → P β) (s : β → P γ) :
    (p >>= fun a => q a >>= s) = ((p >>= q) >>= s) := by
  funext r
  change P.bind p (fun a => P.bind (q a) s) r = P.bind (P.bind p q) s r
  unfold P.bind
  cases p r with
  | mk o r' => cases o <;> rfl

theorem u32_succ {ε : Type} {tid : UInt32} (h : tid.toNat + 1 < 2 ^ 32) : cfg.u32Add (ε := ε) tid 1 = .ok (tid + 1) := by
  have h1 : (1 : UInt32).toNat = 1 := rfl
  rw [u32Add_lt (by rw [h1]; omega)]
  congr 1

theorem u32_succ_toNat {tid : UInt32} (h : tid.toNat + 1 < 2 ^ 32) : (tid + 1).toNat = tid.toNat + 1 := by
  have h1 : (1 : UInt32).toNat = 1 := rfl
  rw [UInt32.toNat_add, h1, Nat.mod_eq_of_lt (by omega)]

theorem correct_loop (hf : Fits cfg fh) (hE : typeEnd fh < 2 ^ 32) (fuel : Nat) :
    ∀ pos tid ti, typeStart fh ≤ pos → 12 * tid.toNat ≤ pos - typeStart fh + 12 → typeEnd fh - pos < fuel →
      0 < tid.toNat →
      Correct cfg f e pos (parseLoop cfg fh (typeEnd fh) fuel tid ti)
        (fun ti' n => ∃ vs, Records .crate f e fh pos vs n ∧ typeEnd fh ≤ n ∧ ti' = build tid ti vs)
        (fun k => ∃ vs p, Records .crate f e fh pos vs p ∧ p < typeEnd fh ∧ RecordFlaw f e fh p k) := by
  induction fuel with
  | zero =>
    intro pos tid ti hs hn hfuel ht
    omega
  | succ fuel ih =>
    intro pos tid ti hs hn hfuel ht
    unfold parseLoop
    refine correct_step (a := pos) (fun r hr => by rw [getOffset, hr.offset]) ?_
    by_cases hpos : pos < typeEnd fh
    · rw [if_pos hpos, bind_assoc']
      refine (correct_bind
        (S := fun v mid ti' n => ∃ vs, Records .crate f e fh mid vs n ∧ typeEnd fh ≤ n ∧ ti' = build (tid + 1) (ti.register tid v) vs)
        (E' := fun v mid k => ∃ vs p, Records .crate f e fh mid vs p ∧ p < typeEnd fh ∧ RecordFlaw f e fh p k)
        (correct_record hf hE (by omega) hs) ?_).congr ?_ ?_
      · intro v mid hrec
        have hnext := record_next hrec
        have hlen : typeEnd fh = typeStart fh + fh.typeLen.toNat := rfl
        have htl := fh.typeLen.toNat_lt
        have hlt : tid.toNat + 1 < 2 ^ 32 := by omega
        refine correct_step (a := tid + 1) (fun r hr => by rw [P.lift, u32_succ hlt]) ?_
        exact ih mid (tid + 1) _ (by omega) (by rw [u32_succ_toNat hlt]; omega) (by omega) (by rw [u32_succ_toNat hlt]; omega)
      · intro ti' n
        constructor
        · rintro ⟨v, mid, hrec, vs, h1, h2, rfl⟩
          exact ⟨v :: vs, .cons hrec h1, h2, rfl⟩
        · rintro ⟨vs, h1, h2, rfl⟩
          cases h1 with
          | nil => omega
          | cons h1 h1' => exact ⟨_, _, h1, _, h1', h2, rfl⟩
      · rintro k (h | ⟨v, mid, hrec, vs, p, h1, h2, h3⟩)
        · exact ⟨[], pos, .nil, hpos, h⟩
        · exact ⟨v :: vs, p, .cons hrec h1, h2, h3⟩
    · rw [if_neg hpos]
      refine (correct_pure ti).congr ?_ (fun _ h => h.elim)
      intro ti' n
      constructor
      · rintro ⟨rfl, rfl⟩; exact ⟨[], .nil, by omega, rfl⟩
      · rintro ⟨vs, h1, h2, rfl⟩
        cases h1 with
        | nil => exact ⟨rfl, rfl⟩
        | cons h1 _ => have := record_next h1; omega

/-! ### The file header -/

/-- Reading the header. -/
theorem header_file {r : Reader} (hr : At cfg f .little 0 r) :
    (∃ e fh r', FileHeader.new cfg r = (.ok fh, r') ∧ Preamble f e fh ∧ At cfg f e 24 r') ∨
    (∃ k r', FileHeader.new cfg r = (.err k, r') ∧ (∀ e fh, ¬ Preamble f e fh) ∧
      (Cut f 24 k ∨ (∃ v : UInt16, (∀ e, f.take 2 ≠ magic e) ∧ f[0]? = some (UInt8.ofNat (v.toNat % 256)) ∧
        f[1]? = some (UInt8.ofNat (v.toNat / 256)) ∧ k = .invalidMagic v))) := by
  have hu := usizeMod_ge cfg
  -- the fields after the magic
  have hfields : ∀ e, Correct cfg f e 2 (do
      let version ← u8 cfg
      let flags ← u8 cfg
      let hdrLen ← u32 cfg
      let typeOff ← u32 cfg
      let typeLen ← u32 cfg
      let strOff ← u32 cfg
      let strLen ← u32 cfg
      return ({ version, flags, hdrLen, typeOff, typeLen, strOff, strLen } : FileHeader))
      (fun fh n => n = 24 ∧ f[2]? = some fh.version ∧ f[3]? = some fh.flags ∧ Word f e 4 fh.hdrLen ∧ Word f e 8 fh.typeOff ∧
        Word f e 12 fh.typeLen ∧ Word f e 16 fh.strOff ∧ Word f e 20 fh.strLen) (Cut f 24) := by
    intro e
    refine (correct_bind (correct_u8 (by omega)) fun v m hm => correct_bind (R := fun b n => f[3]? = some b ∧ n = 4)
      (E := Cut f 4) ?_ fun v' m' hm' => (?_ : Correct cfg f e m' _ (fun (fh : FileHeader) n => ∃ h, Word f e 4 h ∧
        ∃ a, Word f e 8 a ∧ ∃ b, Word f e 12 b ∧ ∃ c, Word f e 16 c ∧ ∃ d, Word f e 20 d ∧
        fh = ⟨v, v', h, a, b, c, d⟩ ∧ n = 24) (Cut f 24))).congr ?_ ?_
    · obtain ⟨-, rfl⟩ := hm
      exact (correct_u8 (by omega)).congr (fun _ _ => Iff.rfl) (fun _ h => h)
    · obtain ⟨-, rfl⟩ := hm'
      refine (correct_word (by omega) fun a _ => correct_word (by omega) fun b _ => correct_word (by omega) fun c _ =>
        correct_word (by omega) fun d _ => correct_word (by omega) fun g _ => correct_pure _).congr ?_ ?_
      · intro fh n
        exact Iff.rfl
      · rintro k (h | ⟨_, _, h | ⟨_, _, h | ⟨_, _, h | ⟨_, _, h | ⟨_, _, h⟩⟩⟩⟩⟩)
        all_goals first | exact h.mono (by omega) | exact h.elim
    · intro fh n
      constructor
      · rintro ⟨v, m, ⟨h1, rfl⟩, v', m', ⟨h2, rfl⟩, a, ha, b, hb, c, hc, d, hd, g, hg, rfl, rfl⟩
        exact ⟨rfl, h1, h2, ha, hb, hc, hd, hg⟩
      · rintro ⟨rfl, h1, h2, ha, hb, hc, hd, hg⟩
        exact ⟨_, _, ⟨h1, rfl⟩, _, _, ⟨h2, rfl⟩, _, ha, _, hb, _, hc, _, hd, _, hg, rfl, rfl⟩
    · rintro k (h | ⟨_, _, _, h | ⟨_, _, _, h⟩⟩) <;> exact h.mono (by omega)
  have hpre : ∀ e fh, Preamble f e fh ↔ f.take 2 = magic e ∧ (f[2]? = some fh.version ∧ f[3]? = some fh.flags ∧ Word f e 4 fh.hdrLen ∧
      Word f e 8 fh.typeOff ∧ Word f e 12 fh.typeLen ∧ Word f e 16 fh.strOff ∧ Word f e 20 fh.strLen) := by
    intro e fh
    constructor
    · rintro ⟨h1, h2, h3, h4, h5, h6, h7, h8⟩; exact ⟨h1, h2, h3, h4, h5, h6, h7, h8⟩
    · rintro ⟨h1, h2, h3, h4, h5, h6, h7, h8⟩; exact ⟨h1, h2, h3, h4, h5, h6, h7, h8⟩
  have hend : ∀ e (r' : Reader), At cfg f e 2 r' → f.take 2 = magic e → (∀ e', f.take 2 = magic e' → e' = e) →
      ((∃ e fh r'', (do
      let version ← u8 cfg
      let flags ← u8 cfg
      let hdrLen ← u32 cfg
      let typeOff ← u32 cfg
      let typeLen ← u32 cfg
      let strOff ← u32 cfg
      let strLen ← u32 cfg
      return ({ version, flags, hdrLen, typeOff, typeLen, strOff, strLen } : FileHeader) : P FileHeader) r' = (.ok fh, r'') ∧ Preamble f e fh ∧ At cfg f e 24 r'') ∨
      (∃ k r'', (do
      let version ← u8 cfg
      let flags ← u8 cfg
      let hdrLen ← u32 cfg
      let typeOff ← u32 cfg
      let typeLen ← u32 cfg
      let strOff ← u32 cfg
      let strLen ← u32 cfg
      return ({ version, flags, hdrLen, typeOff, typeLen, strOff, strLen } : FileHeader) : P FileHeader) r' = (.err k, r'') ∧ (∀ e fh, ¬ Preamble f e fh) ∧
      (Cut f 24 k ∨ (∃ v : UInt16, (∀ e, f.take 2 ≠ magic e) ∧ f[0]? = some (UInt8.ofNat (v.toNat % 256)) ∧
        f[1]? = some (UInt8.ofNat (v.toNat / 256)) ∧ k = .invalidMagic v)))) := by
    intro e r' hr' hm honly
    rcases (hfields e).run r' hr' with ⟨fh, r'', n, h1, ⟨rfl, h2⟩, h3⟩ | ⟨k, r'', h1, h2, h3⟩
    · exact .inl ⟨e, fh, r'', h1, (hpre e fh).2 ⟨hm, h2⟩, h3⟩
    · refine .inr ⟨k, r'', h1, ?_, .inl h3⟩
      intro e' fh hp
      rw [hpre] at hp
      cases honly e' hp.1
      exact h2 fh 24 ⟨rfl, hp.2⟩
  unfold FileHeader.new
  change (∃ e fh r', P.bind _ _ r = _ ∧ _) ∨ ∃ k r', P.bind _ _ r = _ ∧ _
  unfold P.bind setOffset
  simp only []
  have hr0 : At cfg f .little 0 { r with offset := 0 } := ⟨hr.serves, hr.endianness, rfl⟩
  generalize { r with offset := 0 } = r0 at hr0
  change (∃ e fh r', P.bind _ _ r0 = _ ∧ _) ∨ ∃ k r', P.bind _ _ r0 = _ ∧ _
  unfold P.bind
  rcases (correct_int (f := f) (e := .little) (pos := 0) (cfg := cfg) (n := 2) (by decide) (by omega) UInt16.ofNat).run r0 hr0 with
    ⟨m, r1, n, h1, ⟨⟨v, hv, rfl⟩, rfl⟩, hat⟩ | ⟨k, r1, h1, hno, hlen⟩
  · have hrun : FileHeader.detectEndianness cfg r0 =
        (if UInt16.ofNat v = 0xEB9F then setEndianness .little
         else if UInt16.ofNat v = 0x9FEB then setEndianness .big else P.fail (.invalidMagic (UInt16.ofNat v)) : P Unit) r1 := by
      unfold FileHeader.detectEndianness
      change P.bind (u16 cfg) _ r0 = _
      unfold P.bind
      have : u16 cfg r0 = (.ok (UInt16.ofNat v), r1) := h1
      rw [this]
    rw [hrun]
    have hlt := intAt_lt hv
    obtain ⟨hl, hv⟩ := hv
    -- the first two bytes
    match f, hl with
    | b0 :: b1 :: rest, _ =>
      have hv' : v = b0.toNat + 256 * b1.toNat := by simpa [intOf] using hv
      have h0 := b0.toNat_lt
      have h1' := b1.toNat_lt
      have key : ∀ (c : UInt16) (x0 x1 : UInt8), c.toNat = x0.toNat + 256 * x1.toNat →
          (UInt16.ofNat v = c ↔ (b0 :: b1 :: rest).take 2 = [x0, x1]) := by
        intro c x0 x1 hc
        have hx0 := x0.toNat_lt
        have hx1 := x1.toNat_lt
        have hvn : (UInt16.ofNat v).toNat = v := by simp [UInt16.toNat_ofNat']; omega
        rw [← UInt16.toNat_inj, hvn, hc]
        simp only [List.take_succ_cons, List.take_zero, List.cons.injEq, and_true]
        rw [← UInt8.toNat_inj, ← UInt8.toNat_inj]
        omega
      have kl := key 0xEB9F 0x9F 0xEB (by decide)
      have kb := key 0x9FEB 0xEB 0x9F (by decide)
      by_cases hl : UInt16.ofNat v = 0xEB9F
      · rw [if_pos hl]
        have hm := kl.1 hl
        refine hend .little _ ⟨hat.serves, rfl, hat.offset⟩ hm ?_
        intro e' he'
        cases e' with
        | little => rfl
        | big => rw [hm] at he'; exact absurd he' (by decide)
      · rw [if_neg hl]
        by_cases hb : UInt16.ofNat v = 0x9FEB
        · rw [if_pos hb]
          have hm := kb.1 hb
          refine hend .big _ ⟨hat.serves, rfl, hat.offset⟩ hm ?_
          intro e' he'
          cases e' with
          | little => rw [hm] at he'; exact absurd he' (by decide)
          | big => rfl
        · rw [if_neg hb]
          have hno : ∀ e, (b0 :: b1 :: rest).take 2 ≠ magic e := by
            intro e he
            cases e with
            | little => exact hl (kl.2 he)
            | big => exact hb (kb.2 he)
          have hvn : (UInt16.ofNat v).toNat = v := by simp [UInt16.toNat_ofNat']; omega
          refine .inr ⟨_, r1, rfl, fun e fh hp => hno e hp.magic, .inr ⟨_, hno, ?_, ?_, rfl⟩⟩
          · rw [hvn, hv', show (b0.toNat + 256 * b1.toNat) % 256 = b0.toNat by omega]; simp
          · rw [hvn, hv', show (b0.toNat + 256 * b1.toNat) / 256 = b1.toNat by omega]; simp
  · have hrun : FileHeader.detectEndianness cfg r0 = (.err k, r1) := by
      unfold FileHeader.detectEndianness
      change P.bind (u16 cfg) _ r0 = _
      unfold P.bind
      have : u16 cfg r0 = (.err k, r1) := h1
      rw [this]
    rw [hrun]
    refine .inr ⟨k, r1, rfl, ?_, .inl (hlen.mono (by omega))⟩
    intro e fh hp
    have := congrArg List.length hp.magic
    have := hlen.2
    cases e <;> simp [magic] at this <;> omega

theorem preamble_unique {e e' : Endianness} {fh fh' : FileHeader} (h : Preamble f e fh) (h' : Preamble f e' fh') :
    e = e' ∧ fh = fh' := by
  have he : e = e' := by
    have := h.magic.symm.trans h'.magic
    cases e <;> cases e' <;> first | rfl | exact absurd this (by decide)
  subst he
  refine ⟨rfl, ?_⟩
  cases fh
  cases fh'
  congr
  · exact Option.some.inj (h.version.symm.trans h'.version)
  · exact Option.some.inj (h.flags.symm.trans h'.flags)
  · exact word_unique h.hdrLen h'.hdrLen
  · exact word_unique h.typeOff h'.typeOff
  · exact word_unique h.typeLen h'.typeLen
  · exact word_unique h.strOff h'.strOff
  · exact word_unique h.strLen h'.strLen

theorem decodes_unique {vs vs' : List TypeVariant} (h : Decodes .crate f vs) (h' : Decodes .crate f vs') : vs = vs' := by
  obtain ⟨e, fh, n, hp, hE, hr, hn⟩ := h
  obtain ⟨e', fh', n', hp', hE', hr', hn'⟩ := h'
  obtain ⟨rfl, rfl⟩ := preamble_unique hp hp'
  exact (records_unique hE (Nat.le_refl _) hr hn hr' hn').1

/-- A section that ends beyond 4 GiB is refused. -/
theorem loop_overflow (hE : 2 ^ 32 ≤ typeEnd fh) (hs : typeStart fh < 2 ^ 32) {stop : Nat} (fuel : Nat) (tid : UInt32) (ti : TypeInformation)
    {r : Reader} (hoff : r.offset < stop) :
    parseLoop cfg fh stop (fuel + 1) tid ti r = (.err .typeSectionEnd, r) := by
  unfold parseLoop
  change P.bind getOffset _ r = _
  unfold P.bind getOffset
  simp only []
  rw [if_pos hoff]
  change P.bind (Header.new cfg fh) _ r = _
  have h1 : u32CheckedAdd fh.hdrLen fh.typeOff = some (UInt32.ofNat (typeStart fh)) := by
    rw [u32CheckedAdd_eq_some, ofNat_toNat_lt hs]; rfl
  have h2 : u32CheckedAdd (UInt32.ofNat (typeStart fh)) fh.typeLen = none := by
    rw [u32CheckedAdd_eq_none, ofNat_toNat_lt hs]; exact hE
  have : Header.new cfg fh r = (.err .typeSectionEnd, r) := by
    unfold Header.new
    change P.bind _ _ r = _
    unfold P.bind P.lift
    rw [h1]
    simp only [okOr]
    change P.bind _ _ r = _
    unfold P.bind
    rw [h2]
  unfold P.bind
  rw [this]

/-- What `TypeInformation::new` does with a file. -/
theorem newT_file {R : Readable} (hS : Serves cfg R f) (hfit : ∀ e fh, Preamble f e fh → Fits cfg fh) :
    (∃ vs, Decodes .crate f vs ∧ TypeInformation.newT cfg R = .ok (build 1 TypeInformation.empty vs)) ∨
    (∃ k, TypeInformation.newT cfg R = .err k ∧ FileFlaw f k ∧ ∀ vs, ¬ Decodes .crate f vs) := by
  unfold TypeInformation.newT TypeInformation.newP
  change (∃ vs, _ ∧ (P.bind _ _ _).1 = _) ∨ ∃ k, (P.bind _ _ _).1 = _ ∧ _
  have hr : At cfg f .little 0 (Reader.new R) := ⟨hS, rfl, rfl⟩
  generalize Reader.new R = r at hr
  unfold P.bind
  rcases header_file (cfg := cfg) hr with ⟨e, fh, r1, h1, hp, hat⟩ | ⟨k, r1, h1, hno, hk⟩
  · rw [h1]
    simp only []
    have hf := hfit e fh hp
    have hu := usizeMod_ge cfg
    have hover : 2 ^ 32 ≤ typeEnd fh → ∀ vs, ¬ Decodes .crate f vs := by
      rintro h vs ⟨e', fh', n, hp', hE, -⟩
      obtain ⟨rfl, rfl⟩ := preamble_unique hp hp'
      omega
    change (∃ vs, _ ∧ (P.bind _ _ _).1 = _) ∨ ∃ k, (P.bind _ _ _).1 = _ ∧ _
    unfold P.bind P.lift
    cases hs : u32CheckedAdd fh.hdrLen fh.typeOff with
    | none =>
      rw [u32CheckedAdd_eq_none] at hs
      have h : 2 ^ 32 ≤ typeEnd fh := by unfold typeEnd typeStart; omega
      exact .inr ⟨_, rfl, .sectionStart hp hs, hover h⟩
    | some s =>
      rw [u32CheckedAdd_eq_some] at hs
      have hst : s.toNat = typeStart fh := hs
      have hslt := s.toNat_lt
      simp only [okOr]
      change (∃ vs, _ ∧ (P.bind _ _ _).1 = _) ∨ ∃ k, (P.bind _ _ _).1 = _ ∧ _
      unfold P.bind
      rw [hst]
      unfold Cfg.usizeCheckedAdd
      by_cases hadd : typeStart fh + fh.typeLen.toNat < cfg.usizeMod
      · rw [if_pos hadd]
        simp only []
        change (∃ vs, _ ∧ (P.bind (setOffset _) _ _).1 = _) ∨ ∃ k, (P.bind (setOffset _) _ _).1 = _ ∧ _
        unfold P.bind setOffset
        simp only []
        change (∃ vs, _ ∧ (parseLoop cfg fh (typeEnd fh) _ _ _ _).1 = _) ∨ ∃ k, (parseLoop cfg fh (typeEnd fh) _ _ _ _).1 = _ ∧ _
        have hat' : At cfg f e (typeStart fh) { r1 with offset := typeStart fh } := ⟨hat.serves, hat.endianness, rfl⟩
        by_cases hE : typeEnd fh < 2 ^ 32
        · rcases (correct_loop hf hE (fh.typeLen.toNat + 1) (typeStart fh) 1 TypeInformation.empty (Nat.le_refl _)
            (by rw [Nat.sub_self]; decide) (by unfold typeEnd; omega) (by decide)).run _ hat' with
            ⟨ti, r2, n, h2, ⟨vs, h3, h4, rfl⟩, -⟩ | ⟨k, r2, h2, hno, vs, p, h3, h4, h5⟩
          · rw [h2]
            exact .inl ⟨vs, ⟨e, fh, n, hp, hE, h3, h4⟩, rfl⟩
          · rw [h2]
            refine .inr ⟨k, rfl, .record hp hE h3 h4 h5, ?_⟩
            rintro vs' ⟨e', fh', n, hp', -, h3', h4'⟩
            obtain ⟨rfl, rfl⟩ := preamble_unique hp hp'
            exact hno _ n ⟨vs', h3', h4', rfl⟩
        · have hE' : 2 ^ 32 ≤ typeEnd fh := by omega
          rw [loop_overflow hE' (by omega) _ _ _ (by show typeStart fh < typeEnd fh; omega)]
          exact .inr ⟨_, rfl, .sectionEnd hp (by omega) hE', hover hE'⟩
      · rw [if_neg hadd]
        have h : 2 ^ 32 ≤ typeEnd fh := by unfold typeEnd; omega
        exact .inr ⟨_, rfl, .sectionEnd hp (by omega) h, hover h⟩
  · rw [h1]
    refine .inr ⟨k, rfl, ?_, fun vs ⟨e, fh, _, hp, _⟩ => hno e fh hp⟩
    rcases hk with ⟨⟨err, rfl⟩, h⟩ | ⟨v, h, h', h'', rfl⟩
    · exact .truncated h
    · exact .magic h h' h''

/-- The same, with only the kind of the error. -/
theorem new_file {R : Readable} (hS : Serves cfg R f) (hfit : ∀ e fh, Preamble f e fh → Fits cfg fh) :
    (∃ vs, Decodes .crate f vs ∧ TypeInformation.new cfg R = .ok (build 1 TypeInformation.empty vs)) ∨
    (∃ q : LoadReason, TypeInformation.new cfg R = .err q.kind ∧ FileFlaw f q ∧ ∀ vs, ¬ Decodes .crate f vs) := by
  unfold TypeInformation.new
  rcases newT_file hS hfit with ⟨vs, h1, h2⟩ | ⟨q, h1, h2⟩
  · exact .inl ⟨vs, h1, by rw [h2]; rfl⟩
  · exact .inr ⟨q, by rw [h1]; rfl, h2⟩

end

end Btf

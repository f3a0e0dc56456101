import Verif.Proofs.Safe
import Verif.Proofs.Build

/-!
# `TypeInformation::new` on an arbitrary source
-/

namespace Btf

open Spec Reader

section
variable {α β : Type} {cfg : Cfg} {R : Readable} {e : Endianness}

/-- There is only one announced header. -/
theorem announces_unique {R : Readable} {e e' : Endianness} {fh fh' : FileHeader} (h : Announces R e fh)
    (h' : Announces R e' fh') : e = e' ∧ fh = fh' := by
  have he : e = e' := by
    obtain ⟨b, hb, hm⟩ := h.magic
    obtain ⟨b', hb', hm'⟩ := h'.magic
    rw [hb] at hb'; cases hb'
    rw [hm] at hm'
    cases e <;> cases e' <;> first | rfl | exact absurd hm' (by decide)
  subst he
  refine ⟨rfl, ?_⟩
  have key : ∀ {i v v'}, Answers R e i v → Answers R e i v' → v = v' := by
    rintro i v v' ⟨p, b, h1, h2, h3⟩ ⟨p', b', h1', h2', h3'⟩
    rw [h1] at h1'; cases h1'
    rw [h2] at h2'; cases h2'
    rw [h3, h3']
  cases fh; cases fh'
  have e1 := UInt8.toNat_inj.1 (key h.version h'.version)
  have e2 := UInt8.toNat_inj.1 (key h.flags h'.flags)
  have e3 := UInt32.toNat_inj.1 (key h.hdrLen h'.hdrLen)
  have e4 := UInt32.toNat_inj.1 (key h.typeOff h'.typeOff)
  have e5 := UInt32.toNat_inj.1 (key h.typeLen h'.typeLen)
  have e6 := UInt32.toNat_inj.1 (key h.strOff h'.strOff)
  have e7 := UInt32.toNat_inj.1 (key h.strLen h'.strLen)
  simp only [] at e1 e2 e3 e4 e5 e6 e7
  subst e1 e2 e3 e4 e5 e6 e7; rfl

/-! ### Totality -/

/-- The reader has read the first `i` header fields. -/
structure HdrAt (R : Readable) (e : Endianness) (i : Nat) (r : Reader) : Prop where
  readable : r.readable = R
  endianness : r.endianness = e
  trace : r.trace = headerRequests i
  offset : ∀ place, headerFields[i]? = some place → r.offset = place.1
  last : i = 8 → r.offset = 24
  answered : ∀ j < i, ∃ place b, headerFields[j]? = some place ∧ R.read (headerRequests j) place.1 place.2 = .ok b

/-- All requests are in the header. -/
def InHeader (trace : List ReadEvent) : Prop := ∀ ev ∈ trace, Within 0 24 ev

theorem inHeader_requests (i : Nat) : InHeader (headerRequests i) := by
  intro ev hev
  unfold headerRequests at hev
  rw [List.mem_reverse, List.mem_map] at hev
  obtain ⟨p, hp, rfl⟩ := hev
  have := List.mem_of_mem_take hp
  simp only [headerFields, List.mem_cons, List.not_mem_nil, or_false] at this
  unfold Within
  rcases this with rfl | rfl | rfl | rfl | rfl | rfl | rfl | rfl <;> simp

theorem headerRequests_succ {i : Nat} {place : Nat × Nat} (h : headerFields[i]? = some place) :
    headerRequests (i + 1) = ⟨place.1, place.2, none⟩ :: headerRequests i := by
  unfold headerRequests
  rw [List.take_add_one, h]
  simp

theorem decodeNat_buffer (e : Endianness) (b : Nat → UInt8) (n : Nat) :
    decodeNat e (fun i => if i < n then b i else 0) n = decodeNat e b n := by
  rw [decodeNat_eq, decodeNat_eq]
  congr 1
  apply List.map_congr_left
  intro i hi
  rw [if_pos (List.mem_range.1 hi)]

/-- The request for header field `i` failed with `k`; those for the earlier fields succeeded. -/
def HeaderFailed (R : Readable) (trace : List ReadEvent) (k : Error) : Prop :=
  ∃ i place, headerFields[i]? = some place ∧ R.read (headerRequests i) place.1 place.2 = .error k ∧
    trace = ⟨place.1, place.2, some k⟩ :: headerRequests i ∧
    ∀ j < i, ∃ place b, headerFields[j]? = some place ∧ R.read (headerRequests j) place.1 place.2 = .ok b

theorem HeaderFailed.last {trace : List ReadEvent} {k : Error} (h : HeaderFailed R trace k) : LastFailed trace k := by
  obtain ⟨i, place, -, -, h, -⟩ := h
  exact ⟨_, _, h, rfl⟩

/-- `p` reads the header fields from `i` up to `j`, or fails. -/
def Reads (R : Readable) (e : Endianness) (i j : Nat) (p : P α) (Q : α → Prop) : Prop :=
  ∀ r, HdrAt R e i r → (∃ a r', p r = (.ok a, r') ∧ Q a ∧ HdrAt R e j r') ∨
    (∃ k r', p r = (.err (.source k), r') ∧ InHeader r'.trace ∧ HeaderFailed R r'.trace k)

theorem reads_bind {i j l : Nat} {p : P α} {q : α → P β} {Q : α → Prop} {S : β → Prop} (hp : Reads R e i j p Q)
    (hq : ∀ a, Q a → Reads R e j l (q a) S) : Reads R e i l (p >>= q) S := by
  intro r hr
  change (∃ a r', P.bind p q r = _ ∧ _) ∨ (∃ k r', P.bind p q r = _ ∧ _)
  unfold P.bind
  rcases hp r hr with ⟨a, r', h1, h2, h3⟩ | ⟨k, r', h1, h2, h3⟩
  · rw [h1]; exact hq a h2 r' h3
  · rw [h1]; exact .inr ⟨k, r', rfl, h2, h3⟩

theorem reads_pure {i : Nat} {a : α} {Q : α → Prop} (h : Q a) : Reads R e i i (Pure.pure a) Q :=
  fun r hr => .inl ⟨a, r, rfl, h, hr⟩

theorem reads_int {i n off : Nat} (hpl : headerFields[i]? = some (off, n)) (hnext : ∀ place, headerFields[i+1]? = some place → place.1 = off + n)
    {mk : Nat → α} {val : α → Nat} (hmk : ∀ v, v < 256 ^ n → val (mk v) = v) :
    Reads R e i (i + 1) (Reader.read cfg n >>= fun b => getEndianness >>= fun e => (Pure.pure (mk (decodeNat e b n)) : P α))
      (fun a => Answers R e i (val a)) := by
  intro r hr
  have hu := usizeMod_ge cfg
  have hmem : (off, n) ∈ headerFields := List.mem_of_getElem? hpl
  have hle : off + n ≤ 24 := by
    simp only [headerFields, List.mem_cons, List.not_mem_nil, or_false, Prod.mk.injEq] at hmem
    omega
  change (∃ a r', P.bind _ _ r = _ ∧ _) ∨ (∃ k r', P.bind _ _ r = _ ∧ _)
  unfold P.bind Reader.read
  rw [hr.readable, hr.trace, hr.offset _ hpl]
  cases hread : R.read (headerRequests i) off n with
  | error k =>
    refine .inr ⟨k, _, rfl, ?_, ⟨i, _, hpl, hread, rfl, hr.answered⟩⟩
    intro ev hev
    rcases List.mem_cons.1 hev with rfl | hev
    · exact ⟨Nat.zero_le _, hle⟩
    · exact inHeader_requests i ev hev
  | ok b =>
    simp only []
    rw [usizeAdd_lt (by omega)]
    refine .inl ⟨mk (decodeNat e b n), ⟨R, off + n, e, ⟨off, n, none⟩ :: headerRequests i⟩, ?_, ?_, rfl, rfl, (headerRequests_succ hpl).symm, ?_, ?_, ?_⟩
    · change P.bind getEndianness _ _ = _
      unfold P.bind getEndianness
      simp only [hr.endianness]
      rw [decodeNat_buffer]
      rfl
    · refine ⟨_, b, hpl, hread, ?_⟩
      rw [hmk, decodeNat_eq]
      rw [decodeNat_eq]
      have := intOf_lt e ((List.range n).map b)
      rwa [List.length_map, List.length_range] at this
    · intro place h; exact (hnext place h).symm
    · intro hi
      obtain rfl : i = 7 := by omega
      cases hpl; rfl
    · intro j hj
      rcases Nat.lt_or_ge j i with hlt | hge
      · exact hr.answered j hlt
      · obtain rfl : j = i := by omega
        exact ⟨_, b, hpl, hread⟩

theorem reads_u32 {i off : Nat} (hpl : headerFields[i]? = some (off, 4)) (hnext : ∀ place, headerFields[i+1]? = some place → place.1 = off + 4) :
    Reads R e i (i + 1) (u32 cfg) (fun a => Answers R e i a.toNat) :=
  reads_int hpl hnext (mk := UInt32.ofNat) (val := UInt32.toNat) (fun v hv => ofNat_toNat_lt (by omega))

theorem intOf_one (e : Endianness) (b : UInt8) : intOf e [b] = b.toNat := by cases e <;> simp [intOf]

theorem reads_u8 {i off : Nat} (hpl : headerFields[i]? = some (off, 1)) (hnext : ∀ place, headerFields[i+1]? = some place → place.1 = off + 1) :
    Reads R e i (i + 1) (u8 cfg) (fun a => Answers R e i a.toNat) := by
  intro r hr
  have h := reads_int (R := R) (e := e) (cfg := cfg) hpl hnext (mk := UInt8.ofNat) (val := UInt8.toNat)
    (fun v hv => by simp [UInt8.toNat_ofNat']; omega) r hr
  have heq : u8 cfg r = (Reader.read cfg 1 >>= fun b => getEndianness >>= fun e => (Pure.pure (UInt8.ofNat (decodeNat e b 1)) : P UInt8)) r := by
    change P.bind _ _ r = P.bind _ _ r
    unfold P.bind
    cases Reader.read cfg 1 r with
    | mk o r' =>
      cases o with
      | ok b =>
        simp only []
        change _ = P.bind getEndianness _ r'
        unfold P.bind getEndianness
        simp only []
        have : UInt8.ofNat (decodeNat r'.endianness b 1) = b 0 := by
          rw [decodeNat_eq]
          have : (List.range 1).map b = [b 0] := rfl
          rw [this, intOf_one]; simp
        rw [this]
      | _ => rfl
  rw [heq]; exact h

/-- Reading the header. -/
theorem header_any :
    (∃ e fh r', FileHeader.new cfg (Reader.new R) = (.ok fh, r') ∧ Announces R e fh ∧ HdrAt R e 8 r') ∨
    (∃ q r', FileHeader.new cfg (Reader.new R) = (.err q, r') ∧ InHeader r'.trace ∧
      ((∃ k, q = .source k ∧ HeaderFailed R r'.trace k ∧ ¬ BadMagic R) ∨
        (∃ v, q = .invalidMagic v ∧ r'.trace = headerRequests 1 ∧ FirstBytes R v ∧ BadMagic R))) := by
  have hu := usizeMod_ge cfg
  have hrest : ∀ e b, R.read [] 0 2 = .ok b → [b 0, b 1] = magic e → Reads R e 1 8 (do
      let version ← u8 cfg
      let flags ← u8 cfg
      let hdrLen ← u32 cfg
      let typeOff ← u32 cfg
      let typeLen ← u32 cfg
      let strOff ← u32 cfg
      let strLen ← u32 cfg
      return ({ version, flags, hdrLen, typeOff, typeLen, strOff, strLen } : FileHeader)) (fun fh => Announces R e fh) := by
    intro e b hb hm
    refine reads_bind (reads_u8 (i := 1) (off := 2) rfl (by simp [headerFields])) fun _ h1 => ?_
    refine reads_bind (reads_u8 (i := 2) (off := 3) rfl (by simp [headerFields])) fun _ h2 => ?_
    refine reads_bind (reads_u32 (i := 3) (off := 4) rfl (by simp [headerFields])) fun _ h3 => ?_
    refine reads_bind (reads_u32 (i := 4) (off := 8) rfl (by simp [headerFields])) fun _ h4 => ?_
    refine reads_bind (reads_u32 (i := 5) (off := 12) rfl (by simp [headerFields])) fun _ h5 => ?_
    refine reads_bind (reads_u32 (i := 6) (off := 16) rfl (by simp [headerFields])) fun _ h6 => ?_
    refine reads_bind (reads_u32 (i := 7) (off := 20) rfl (by simp [headerFields])) fun _ h7 => ?_
    exact reads_pure ⟨⟨b, hb, hm⟩, h1, h2, h3, h4, h5, h6, h7⟩
  have hend : ∀ e b r1, R.read [] 0 2 = .ok b → [b 0, b 1] = magic e → HdrAt R e 1 r1 →
      (∃ e fh r', (do
      let version ← u8 cfg
      let flags ← u8 cfg
      let hdrLen ← u32 cfg
      let typeOff ← u32 cfg
      let typeLen ← u32 cfg
      let strOff ← u32 cfg
      let strLen ← u32 cfg
      return ({ version, flags, hdrLen, typeOff, typeLen, strOff, strLen } : FileHeader) : P FileHeader) r1 = (.ok fh, r') ∧ Announces R e fh ∧ HdrAt R e 8 r') ∨
      (∃ k r', (do
      let version ← u8 cfg
      let flags ← u8 cfg
      let hdrLen ← u32 cfg
      let typeOff ← u32 cfg
      let typeLen ← u32 cfg
      let strOff ← u32 cfg
      let strLen ← u32 cfg
      return ({ version, flags, hdrLen, typeOff, typeLen, strOff, strLen } : FileHeader) : P FileHeader) r1 = (.err (.source k), r') ∧ InHeader r'.trace ∧
      HeaderFailed R r'.trace k) := by
    intro e b r1 hb hm hr1
    rcases hrest e b hb hm r1 hr1 with ⟨fh, r', h1, h2, h3⟩ | ⟨k, r', h1, h2, h3⟩
    · exact .inl ⟨e, fh, r', h1, h2, h3⟩
    · exact .inr ⟨k, r', h1, h2, h3⟩
  unfold FileHeader.new
  change (∃ e fh r', P.bind _ _ _ = _ ∧ _) ∨ ∃ k r', P.bind _ _ _ = _ ∧ _
  unfold P.bind setOffset
  simp only []
  change (∃ e fh r', P.bind _ _ (⟨R, 0, .little, []⟩ : Reader) = _ ∧ _) ∨ ∃ k r', P.bind _ _ (⟨R, 0, .little, []⟩ : Reader) = _ ∧ _
  unfold P.bind
  have hu16 : u16 cfg (⟨R, 0, .little, []⟩ : Reader) = match R.read [] 0 2 with
      | .error k => (.err (.source k), ⟨R, 0, .little, [⟨0, 2, some k⟩]⟩)
      | .ok b => (.ok (UInt16.ofNat (decodeNat .little b 2)), ⟨R, 2, .little, [⟨0, 2, none⟩]⟩) := by
    change P.bind _ _ _ = _
    unfold P.bind Reader.read
    cases R.read [] 0 2 with
    | error k => rfl
    | ok b =>
      simp only []
      rw [usizeAdd_lt (by omega)]
      change (Res.ok (UInt16.ofNat (decodeNat .little (fun i => if i < 2 then b i else 0) 2)), _) = _
      rw [decodeNat_buffer]
  have hdet : FileHeader.detectEndianness cfg (⟨R, 0, .little, []⟩ : Reader) = match R.read [] 0 2 with
      | .error k => (.err (.source k), ⟨R, 0, .little, [⟨0, 2, some k⟩]⟩)
      | .ok b => (if UInt16.ofNat (decodeNat .little b 2) = 0xEB9F then setEndianness .little
         else if UInt16.ofNat (decodeNat .little b 2) = 0x9FEB then setEndianness .big else P.fail (.invalidMagic (UInt16.ofNat (decodeNat .little b 2))) : P Unit)
           ⟨R, 2, .little, [⟨0, 2, none⟩]⟩ := by
    unfold FileHeader.detectEndianness
    change P.bind (u16 cfg) _ _ = _
    unfold P.bind
    rw [hu16]
    cases R.read [] 0 2 <;> rfl
  rw [hdet]
  cases hread : R.read [] 0 2 with
  | error k =>
    refine .inr ⟨_, _, rfl, ?_, .inl ⟨k, rfl, ⟨0, _, rfl, hread, rfl, fun _ h => absurd h (Nat.not_lt_zero _)⟩, fun ⟨b, hb, _⟩ => by rw [hread] at hb; cases hb⟩⟩
    intro ev hev
    rw [List.mem_singleton] at hev
    subst hev; exact ⟨Nat.zero_le _, by simp⟩
  | ok b =>
    simp only []
    have h0 := (b 0).toNat_lt
    have h1 := (b 1).toNat_lt
    have hv : decodeNat .little b 2 = (b 0).toNat + 256 * (b 1).toNat := by
      rw [decodeNat_eq]; simp [List.range_succ, intOf]
    have key : ∀ (c : UInt16) (x0 x1 : UInt8), c.toNat = x0.toNat + 256 * x1.toNat →
        (UInt16.ofNat (decodeNat .little b 2) = c ↔ [b 0, b 1] = [x0, x1]) := by
      intro c x0 x1 hc
      have hx0 := x0.toNat_lt
      have hx1 := x1.toNat_lt
      rw [hv]
      have hvn : (UInt16.ofNat ((b 0).toNat + 256 * (b 1).toNat)).toNat = (b 0).toNat + 256 * (b 1).toNat := by
        simp; omega
      rw [← UInt16.toNat_inj, hvn, hc]
      simp only [List.cons.injEq, and_true]
      rw [← UInt8.toNat_inj, ← UInt8.toNat_inj]
      omega
    have kl := key 0xEB9F 0x9F 0xEB (by decide)
    have kb := key 0x9FEB 0xEB 0x9F (by decide)
    have hat : ∀ e, HdrAt R e 1 ⟨R, 2, e, [⟨0, 2, none⟩]⟩ := fun e =>
      ⟨rfl, rfl, rfl, by intro place h; simp [headerFields] at h; rw [← h], by omega,
        fun j hj => by obtain rfl : j = 0 := by omega
                       exact ⟨_, b, rfl, hread⟩⟩
    by_cases hl : UInt16.ofNat (decodeNat .little b 2) = 0xEB9F
    · rw [if_pos hl]
      rcases hend .little b _ hread (kl.1 hl) (hat _) with h | ⟨k, r', h1, h2, h3⟩
      · exact .inl h
      · exact .inr ⟨_, r', h1, h2, .inl ⟨k, rfl, h3, fun ⟨b', hb', hm⟩ => by rw [hread] at hb'; cases hb'; exact hm .little (kl.1 hl)⟩⟩
    · rw [if_neg hl]
      by_cases hb : UInt16.ofNat (decodeNat .little b 2) = 0x9FEB
      · rw [if_pos hb]
        rcases hend .big b _ hread (kb.1 hb) (hat _) with h | ⟨k, r', h1, h2, h3⟩
        · exact .inl h
        · exact .inr ⟨_, r', h1, h2, .inl ⟨k, rfl, h3, fun ⟨b', hb', hm⟩ => by rw [hread] at hb'; cases hb'; exact hm .big (kb.1 hb)⟩⟩
      · rw [if_neg hb]
        refine .inr ⟨_, _, rfl, inHeader_requests 1, .inr ⟨_, rfl, rfl, ⟨b, hread, by rw [hv]; simp; omega⟩, b, hread, ?_⟩⟩
        intro e he
        cases e with
        | little => exact hl (kl.2 he)
        | big => exact hb (kb.2 he)

/-- A header that is announced is read. -/
theorem header_announced {fh : FileHeader} (h : Announces R e fh) :
    ∃ r, FileHeader.new cfg (Reader.new R) = (.ok fh, r) ∧ HdrAt R e 8 r := by
  rcases header_any (cfg := cfg) (R := R) with ⟨e1, fh1, r', h1, h2, h3⟩ | ⟨k, r', h1, h2, h3⟩
  · obtain ⟨rfl, rfl⟩ := announces_unique h h2
    exact ⟨r', h1, h3⟩
  · exfalso
    rcases h3 with ⟨_, -, ⟨i, place, h4, h5, -⟩, -⟩ | ⟨-, -, -, -, b, hb, hm⟩
    · have key : ∀ v, Answers R e i v → False := by
        rintro v ⟨place', b, h6, h7, -⟩
        rw [h4] at h6; cases h6
        rw [h5] at h7; cases h7
      have hi : i < 8 := (List.getElem?_eq_some_iff.1 h4).1
      match i, hi with
      | 0, _ =>
        obtain ⟨b, hb, -⟩ := h.magic
        cases h4
        rw [show R.read (headerRequests 0) 0 2 = R.read [] 0 2 from rfl, hb] at h5
        cases h5
      | 1, _ => exact key _ h.version
      | 2, _ => exact key _ h.flags
      | 3, _ => exact key _ h.hdrLen
      | 4, _ => exact key _ h.typeOff
      | 5, _ => exact key _ h.typeLen
      | 6, _ => exact key _ h.strOff
      | 7, _ => exact key _ h.strLen
    · obtain ⟨b', hb', hm'⟩ := h.magic
      rw [hb] at hb'; cases hb'
      exact hm e hm'

/-- `TypeInformation::new` after the file header has been read. -/
def afterHeader (cfg : Cfg) (fh : FileHeader) : P TypeInformation := do
  let start ← P.lift (okOr (u32CheckedAdd fh.hdrLen fh.typeOff) .typeSectionStart)
  let typeSectionStart := start.toNat
  let typeSectionEnd ←
    P.lift (okOr (cfg.usizeCheckedAdd typeSectionStart fh.typeLen.toNat) .typeSectionEnd)
  setOffset typeSectionStart
  parseLoop cfg fh typeSectionEnd (fh.typeLen.toNat + 1) 1 TypeInformation.empty

theorem newP_eq : TypeInformation.newP cfg = (FileHeader.new cfg >>= afterHeader cfg) := rfl

theorem safe_afterHeader {fh : FileHeader} (hf : Fits cfg fh) (o : Nat) :
    Safe (fun ev => InSections fh ev) o (afterHeader cfg fh)
      (fun ti _ => ∃ vs : List TypeVariant, ti = build 1 TypeInformation.empty vs ∧ typeEnd fh < 2 ^ 32 ∧ 12 * vs.length ≤ fh.typeLen.toNat ∧
          ∀ v ∈ vs, Sane v) := by
  unfold afterHeader
  have hu := usizeMod_ge cfg
  cases hs : u32CheckedAdd fh.hdrLen fh.typeOff with
  | none =>
    refine safe_bind (Q := fun _ _ => False) (safe_lift (.inr ⟨_, rfl, trivial⟩)) fun _ _ h => h.elim
  | some s =>
    have hst : s.toNat = typeStart fh := u32CheckedAdd_eq_some.1 hs
    have hslt := s.toNat_lt
    refine safe_step s (fun r _ => rfl) ?_
    simp only []
    rw [hst]
    unfold Cfg.usizeCheckedAdd
    by_cases hadd : typeStart fh + fh.typeLen.toNat < cfg.usizeMod
    · rw [if_pos hadd]
      refine safe_step (typeEnd fh) (fun r _ => rfl) ?_
      refine safe_next (safe_setOffset _) fun _ => ?_
      by_cases hE : typeEnd fh < 2 ^ 32
      · refine (safe_loop hf (fun ev h => h) hE (fh.typeLen.toNat + 1) (typeStart fh) 1 TypeInformation.empty (Nat.le_refl _) (by rw [Nat.sub_self]; exact Nat.dvd_zero _)
          (by rw [Nat.sub_self]; decide) (by unfold typeEnd; omega) (by decide)).mono ?_
        rintro ti n ⟨vs, h1, h2, h3⟩
        refine ⟨vs, h1, hE, ?_, h3⟩
        rcases h2 with rfl | h2
        · simp
        · unfold typeEnd at h2; omega
      · constructor
        intro r hr
        rw [loop_overflow (by omega) (by omega) _ _ _ (by rw [hr]; omega)]
        exact ⟨⟨[], rfl, fun _ h => by cases h⟩, .inr ⟨_, rfl, .inl trivial⟩⟩
    · rw [if_neg hadd]
      exact safe_bind (Q := fun _ _ => False) (safe_lift (.inr ⟨_, rfl, trivial⟩)) fun _ _ h => h.elim

/-- After the header only the sections are read. -/
theorem new_body {fh : FileHeader} (h : Announces R e fh) (hf : Fits cfg fh) :
    ∃ new, TypeInformation.newTrace cfg R = new ++ headerRequests 8 ∧ ∀ ev ∈ new, InSections fh ev := by
  obtain ⟨r, h1, h2⟩ := header_announced (cfg := cfg) h
  have hrun : TypeInformation.newP cfg (Reader.new R) = afterHeader cfg fh r := by
    rw [newP_eq]; change P.bind _ _ _ = _; unfold P.bind; rw [h1]
  obtain ⟨⟨new, h4, h5⟩, -⟩ := (safe_afterHeader hf r.offset).run r rfl
  refine ⟨new, ?_, h5⟩
  unfold TypeInformation.newTrace
  rw [hrun, h4, h2.trace]

/-- What `TypeInformation::new` does with any source. -/
theorem newT_any (hfit : ∀ e fh, Announces R e fh → Fits cfg fh) :
    (∀ ev ∈ TypeInformation.newTrace cfg R, Within 0 24 ev ∨ ∃ e fh, Announces R e fh ∧ InSections fh ev) ∧
    ((∃ vs e fh, Announces R e fh ∧ typeEnd fh < 2 ^ 32 ∧ 12 * vs.length ≤ fh.typeLen.toNat ∧ (∀ v ∈ vs, Sane v) ∧
        TypeInformation.newT cfg R = .ok (build 1 TypeInformation.empty vs)) ∨
      (∃ q, TypeInformation.newT cfg R = .err q ∧
        ((∃ k, q = .source k ∧ LastFailed (TypeInformation.newTrace cfg R) k ∧ ¬ BadMagic R) ∨
        (∃ v, q = .invalidMagic v ∧ FirstBytes R v ∧ BadMagic R) ∨
        (ContentReason q ∧ ∃ e fh, Announces R e fh)))) := by
  unfold TypeInformation.newT TypeInformation.newTrace TypeInformation.newP
  change (∀ ev ∈ (P.bind _ _ _).2.trace, _) ∧ ((∃ vs e fh, _ ∧ _ ∧ _ ∧ _ ∧ (P.bind _ _ _).1 = _) ∨ ∃ k, (P.bind _ _ _).1 = _ ∧ ((∃ e, _ ∧ LastFailed (P.bind _ _ _).2.trace e ∧ _) ∨ _))
  unfold P.bind
  have hu := usizeMod_ge cfg
  rcases header_any (cfg := cfg) (R := R) with ⟨e, fh, r', h1, h2, h3⟩ | ⟨k, r', h1, h2, h3⟩
  · rw [h1]
    simp only []
    have hf := hfit e fh h2
    have hh : ∀ ev ∈ r'.trace, Within 0 24 ev := by rw [h3.trace]; exact inHeader_requests 8
    have hsafe := safe_afterHeader hf r'.offset
    obtain ⟨⟨new, h4, h5⟩, h6⟩ := hsafe.run r' rfl
    constructor
    · intro ev hev
      replace hev : ev ∈ new ++ r'.trace := by rw [← h4]; exact hev
      rcases List.mem_append.1 hev with h | h
      · exact .inr ⟨e, fh, h2, h5 ev h⟩
      · exact .inl (hh ev h)
    · rcases h6 with ⟨a, h7, vs, rfl, h8, h9, h10⟩ | ⟨k, h7, h8⟩
      · exact .inl ⟨vs, e, fh, h2, h8, h9, h10, h7⟩
      · refine .inr ⟨k, h7, ?_⟩
        rcases h8 with h8 | ⟨k', h8', h8⟩
        · exact .inr (.inr ⟨h8, e, fh, h2⟩)
        · refine .inl ⟨k', h8', h8, fun ⟨b', hb', hm⟩ => ?_⟩
          obtain ⟨b, hb, hm'⟩ := h2.magic
          rw [hb] at hb'; cases hb'; exact hm _ hm'
  · rw [h1]
    refine ⟨fun ev hev => .inl (h2 ev hev), .inr ⟨k, rfl, ?_⟩⟩
    rcases h3 with ⟨k', h3', h3⟩ | ⟨v, h3, -, h4⟩
    · exact .inl ⟨k', h3', h3.1.last, h3.2⟩
    · exact .inr (.inl ⟨v, h3, h4⟩)

theorem contentReason_kind {q : LoadReason} (h : ContentReason q) : ContentError q.kind := by
  cases q <;> first | exact h.elim | simp [ContentError, LoadReason.kind]

theorem new_ok {ti : TypeInformation} : TypeInformation.new cfg R = .ok ti ↔ TypeInformation.newT cfg R = .ok ti := by
  unfold TypeInformation.new
  cases TypeInformation.newT cfg R <;> simp [Res.mapErr]

theorem newE_ok {ti : TypeInformation} : TypeInformation.newE cfg R = .ok ti ↔ TypeInformation.newT cfg R = .ok ti := by
  unfold TypeInformation.newE
  cases TypeInformation.newT cfg R <;> simp [Res.mapErr]

theorem newE_err {k : Error} : TypeInformation.newE cfg R = .err k ↔ ∃ q, TypeInformation.newT cfg R = .err q ∧ q.error = k := by
  unfold TypeInformation.newE
  cases TypeInformation.newT cfg R <;> simp [Res.mapErr]

theorem new_err {k : ErrorKind} : TypeInformation.new cfg R = .err k ↔ ∃ q, TypeInformation.newT cfg R = .err q ∧ q.kind = k := by
  unfold TypeInformation.new
  cases TypeInformation.newT cfg R <;> simp [Res.mapErr]

theorem new_of_newE {k : Error} (h : TypeInformation.newE cfg R = .err k) : TypeInformation.new cfg R = .err k.kind := by
  obtain ⟨q, h1, rfl⟩ := newE_err.1 h
  exact new_err.2 ⟨q, h1, rfl⟩

theorem newE_of_source {k : Error} (h : TypeInformation.newT cfg R = .err (.source k)) : TypeInformation.newE cfg R = .err k :=
  newE_err.2 ⟨_, h, rfl⟩

/-- The same, with only the kinds of the errors. -/
theorem new_any (hfit : ∀ e fh, Announces R e fh → Fits cfg fh) :
    (∀ ev ∈ TypeInformation.newTrace cfg R, Within 0 24 ev ∨ ∃ e fh, Announces R e fh ∧ InSections fh ev) ∧
    ((∃ vs e fh, Announces R e fh ∧ typeEnd fh < 2 ^ 32 ∧ 12 * vs.length ≤ fh.typeLen.toNat ∧ (∀ v ∈ vs, Sane v) ∧
        TypeInformation.new cfg R = .ok (build 1 TypeInformation.empty vs)) ∨
      (∃ k, TypeInformation.new cfg R = .err k ∧
        ((∃ x, x.kind = k ∧ LastFailed (TypeInformation.newTrace cfg R) x ∧ ¬ BadMagic R) ∨
        (k = .InvalidMagic ∧ BadMagic R) ∨
        (ContentError k ∧ ∃ e fh, Announces R e fh)))) := by
  unfold TypeInformation.new
  refine ⟨(newT_any hfit).1, (newT_any hfit).2.imp ?_ ?_⟩
  · rintro ⟨vs, e, fh, h1, h2, h3, h4, h5⟩
    exact ⟨vs, e, fh, h1, h2, h3, h4, by rw [h5]; rfl⟩
  · rintro ⟨q, h1, h2⟩
    refine ⟨q.kind, by rw [h1]; rfl, ?_⟩
    rcases h2 with ⟨k, rfl, h2⟩ | ⟨v, rfl, -, h2⟩ | ⟨h2, h3⟩
    · exact .inl ⟨k, rfl, h2⟩
    · exact .inr (.inl ⟨rfl, h2⟩)
    · exact .inr (.inr ⟨contentReason_kind h2, h3⟩)

end

end Btf

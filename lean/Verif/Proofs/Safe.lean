import Verif.Proofs.Prog
import Verif.Proofs.FileNew
import Verif.Spec.Shape

/-!
# Parsers on arbitrary sources

`Safe C pos p Q`: whatever the source answers, `p` run at `pos` returns (no panic, enough fuel), makes only
requests in `C`, if it succeeds the value and the new position are in `Q`, and if it fails the error is the
source's or one about the contents of the sections.
-/

namespace Btf

open Spec Reader

structure Safe {α : Type} (C : ReadEvent → Prop) (pos : Nat) (p : P α) (Q : α → Nat → Prop) : Prop where
  run : ∀ r, r.offset = pos →
    (∃ new, (p r).2.trace = new ++ r.trace ∧ ∀ ev ∈ new, C ev) ∧
    ((∃ a, (p r).1 = .ok a ∧ Q a (p r).2.offset) ∨
      ∃ k, (p r).1 = .err k ∧ (ContentReason k ∨ ∃ e, k = .source e ∧ LastFailed (p r).2.trace e))

section
variable {α β : Type} {C : ReadEvent → Prop} {pos : Nat} {cfg : Cfg} {fh : FileHeader}

theorem Safe.mono {p : P α} {Q Q' : α → Nat → Prop} (h : Safe C pos p Q) (hQ : ∀ a n, Q a n → Q' a n) : Safe C pos p Q' :=
  ⟨fun r hr => ⟨(h.run r hr).1, (h.run r hr).2.imp (fun ⟨a, h1, h2⟩ => ⟨a, h1, hQ _ _ h2⟩) id⟩⟩

theorem safe_pure (a : α) : Safe C pos (Pure.pure a : P α) (fun b n => b = a ∧ n = pos) :=
  ⟨fun r hr => ⟨⟨[], rfl, fun _ h => by cases h⟩, .inl ⟨a, rfl, rfl, hr⟩⟩⟩

theorem safe_fail {Q : α → Nat → Prop} {k : LoadReason} (hk : ContentReason k) : Safe C pos (P.fail k : P α) Q :=
  ⟨fun _ _ => ⟨⟨[], rfl, fun _ h => by cases h⟩, .inr ⟨k, rfl, .inl hk⟩⟩⟩

theorem safe_bind {p : P α} {q : α → P β} {Q : α → Nat → Prop} {S : β → Nat → Prop} (hp : Safe C pos p Q)
    (hq : ∀ a mid, Q a mid → Safe C mid (q a) S) : Safe C pos (p >>= q) S := by
  constructor
  intro r hr
  change (∃ new, (P.bind p q r).2.trace = _ ∧ _) ∧ ((∃ b, (P.bind p q r).1 = _ ∧ S b (P.bind p q r).2.offset) ∨
    ∃ k, (P.bind p q r).1 = _ ∧ (_ ∨ ∃ e, k = _ ∧ LastFailed (P.bind p q r).2.trace e))
  obtain ⟨⟨new, h1, h2⟩, h3⟩ := hp.run r hr
  unfold P.bind
  rcases h3 with ⟨a, ha, hQ⟩ | ⟨k, hk, hk'⟩
  · cases hpr : p r with
    | mk o r1 =>
      rw [hpr] at h1 ha hQ
      simp only [] at h1 ha hQ
      subst ha
      simp only []
      obtain ⟨⟨new', h1', h2'⟩, h3'⟩ := (hq a _ hQ).run r1 rfl
      refine ⟨⟨new' ++ new, by rw [h1', h1, List.append_assoc], ?_⟩, h3'⟩
      intro ev hev
      rcases List.mem_append.1 hev with h | h
      · exact h2' ev h
      · exact h2 ev h
  · cases hpr : p r with
    | mk o r1 =>
      rw [hpr] at h1 hk hk'
      simp only [] at h1 hk hk'
      subst hk
      exact ⟨⟨new, h1, h2⟩, .inr ⟨k, rfl, hk'⟩⟩

/-- The new position is known. -/
theorem safe_seq {p : P α} {q : α → P β} {Q : α → Prop} {mid : Nat} {S : β → Nat → Prop}
    (hp : Safe C pos p (fun a n => Q a ∧ n = mid)) (hq : ∀ a, Q a → Safe C mid (q a) S) : Safe C pos (p >>= q) S :=
  safe_bind hp fun a n h => by rw [h.2]; exact hq a h.1

theorem safe_next {p : P α} {q : α → P β} {mid : Nat} {S : β → Nat → Prop}
    (hp : Safe C pos p (fun _ n => n = mid)) (hq : ∀ a, Safe C mid (q a) S) : Safe C pos (p >>= q) S :=
  safe_bind hp fun a n h => by rw [h]; exact hq a

theorem safe_step {p : P α} {q : α → P β} {S : β → Nat → Prop} (a : α)
    (hp : ∀ r, r.offset = pos → p r = (.ok a, r)) (hq : Safe C pos (q a) S) : Safe C pos (p >>= q) S := by
  constructor
  intro r hr
  have : (p >>= q) r = q a r := by
    change P.bind p q r = _
    unfold P.bind; rw [hp r hr]
  rw [this]
  exact hq.run r hr

theorem safe_lift {o : Res LoadReason α} {Q : α → Nat → Prop} (h : (∃ a, o = .ok a ∧ Q a pos) ∨ ∃ k, o = .err k ∧ ContentReason k) :
    Safe C pos (P.lift o) Q :=
  ⟨fun r hr => ⟨⟨[], rfl, fun _ h => by cases h⟩, by subst hr; exact h.imp id (fun ⟨k, h, h'⟩ => ⟨k, h, .inl h'⟩)⟩⟩

theorem safe_getOffset : Safe C pos getOffset (fun b n => b = pos ∧ n = pos) :=
  ⟨fun r hr => ⟨⟨[], rfl, fun _ h => by cases h⟩, .inl ⟨r.offset, rfl, hr, hr⟩⟩⟩

theorem safe_setOffset (o : Nat) : Safe C pos (setOffset o) (fun _ n => n = o) :=
  ⟨fun _ _ => ⟨⟨[], rfl, fun _ h => by cases h⟩, .inl ⟨(), rfl, rfl⟩⟩⟩

theorem safe_getEndianness : Safe C pos getEndianness (fun _ n => n = pos) :=
  ⟨fun _ hr => ⟨⟨[], rfl, fun _ h => by cases h⟩, .inl ⟨_, rfl, hr⟩⟩⟩

theorem safe_ite {c : Prop} [Decidable c] {p q : P α} {Q : α → Nat → Prop} (h : c → Safe C pos p Q) (h' : ¬ c → Safe C pos q Q) :
    Safe C pos (if c then p else q) Q := by
  by_cases hc : c
  · rw [if_pos hc]; exact h hc
  · rw [if_neg hc]; exact h' hc

theorem safe_restoring {p : P α} {Q : α → Nat → Prop} {o : Nat} (h : Safe C pos p Q) : Safe C pos (p.restoring o) Q := by
  constructor
  intro r hr
  obtain ⟨h1, h2⟩ := h.run r hr
  have : (p.restoring o r).1 = (p r).1 ∧ (p.restoring o r).2.trace = (p r).2.trace ∧
      (∀ a, (p r).1 = .ok a → (p.restoring o r).2.offset = (p r).2.offset) := by
    unfold P.restoring
    cases p r with
    | mk x r' => cases x <;> exact ⟨rfl, rfl, fun _ h => by cases h; try rfl⟩
  rw [this.1, this.2.1]
  refine ⟨h1, h2.imp (fun ⟨a, ha, hQ⟩ => ⟨a, ha, ?_⟩) id⟩
  rw [this.2.2 a ha]; exact hQ

/-- The requests for words in `[pos, pos + n)` are allowed, and the position after them is representable. -/
structure Space (cfg : Cfg) (C : ReadEvent → Prop) (pos n : Nat) : Prop where
  allowed : ∀ a len k, pos ≤ a → a + len ≤ pos + n → 4 ∣ a - pos → len = 4 ∨ len = 8 → C ⟨a, len, k⟩
  fits : pos + n < cfg.usizeMod

theorem Space.part {pos n a m : Nat} (h : Space cfg C pos n) (h1 : pos ≤ a) (h2 : a + m ≤ pos + n) (h0 : 4 ∣ a - pos) :
    Space cfg C a m :=
  ⟨fun x len k h3 h4 h5 h6 => h.allowed x len k (by omega) (by omega) (by omega) h6, by have := h.fits; omega⟩

theorem safe_read {n : Nat} (h : ∀ k, C ⟨pos, n, k⟩) (hfit : pos + n < cfg.usizeMod) : Safe C pos (Reader.read cfg n) (fun _ m => m = pos + n) := by
  constructor
  intro r hr
  subst hr
  unfold Reader.read
  cases r.readable.read r.trace r.offset n with
  | error k =>
    refine ⟨⟨[_], rfl, ?_⟩, .inr ⟨_, rfl, .inr ⟨k, rfl, _, _, rfl, rfl⟩⟩⟩
    intro ev hev
    rw [List.mem_singleton] at hev
    rw [hev]; exact h _
  | ok b =>
    simp only []
    rw [usizeAdd_lt hfit]
    refine ⟨⟨[_], rfl, ?_⟩, .inl ⟨_, rfl, rfl⟩⟩
    intro ev hev
    rw [List.mem_singleton] at hev
    rw [hev]; exact h _

theorem safe_u8 (h : ∀ k, C ⟨pos, 1, k⟩) (hfit : pos + 1 < cfg.usizeMod) : Safe C pos (u8 cfg) (fun _ m => m = pos + 1) :=
  safe_bind (safe_read h hfit) fun _ _ h => by subst h; exact (safe_pure _).mono fun _ _ h => h.2

theorem safe_u32 (h : Space cfg C pos 4) : Safe C pos (u32 cfg) (fun _ m => m = pos + 4) :=
  safe_bind (safe_read (fun k => h.allowed _ _ _ (Nat.le_refl _) (Nat.le_refl _) (by omega) (by omega)) h.fits) fun _ _ h => by
    subst h
    exact safe_bind safe_getEndianness fun _ _ h => by subst h; exact (safe_pure _).mono fun _ _ h => h.2

theorem safe_u64 (h : Space cfg C pos 8) : Safe C pos (u64 cfg) (fun _ m => m = pos + 8) :=
  safe_bind (safe_read (fun k => h.allowed _ _ _ (Nat.le_refl _) (Nat.le_refl _) (by omega) (by omega)) h.fits) fun _ _ h => by
    subst h
    exact safe_bind safe_getEndianness fun _ _ h => by subst h; exact (safe_pure _).mono fun _ _ h => h.2

theorem safe_i32 (h : Space cfg C pos 4) : Safe C pos (i32 cfg) (fun _ m => m = pos + 4) :=
  safe_bind (safe_u32 h) fun _ _ h => by subst h; exact (safe_pure _).mono fun _ _ h => h.2

theorem safe_i64 (h : Space cfg C pos 8) : Safe C pos (i64 cfg) (fun _ m => m = pos + 8) :=
  safe_bind (safe_u64 h) fun _ _ h => by subst h; exact (safe_pure _).mono fun _ _ h => h.2

/-! ### Strings -/

theorem safe_stringLoop {s : UInt32} {start stop orig : Nat} (hfit : stop + 1 < cfg.usizeMod)
    (hC : ∀ ev, Within start stop ev → ev.len = 1 → C ev) (fuel : Nat) :
    ∀ pos acc, start ≤ pos → pos ≤ stop → stop - pos < fuel →
      Safe C pos (parseStringLoop cfg s stop orig fuel acc) (fun _ _ => True) := by
  induction fuel with
  | zero => intro pos acc _ _ h; omega
  | succ fuel ih =>
    intro pos acc hs hp hfuel
    rw [parseStringLoop_eq]
    refine safe_bind safe_getOffset fun _ _ h => ?_
    obtain ⟨rfl, rfl⟩ := h
    refine safe_bind (safe_lift (Q := fun n m => n = _ + 1 ∧ m = _) (.inl ⟨_, usizeAdd_lt (by omega), rfl, rfl⟩)) fun _ _ h => ?_
    obtain ⟨rfl, rfl⟩ := h
    refine safe_ite (fun _ => safe_fail trivial) fun hle => ?_
    refine safe_bind (safe_restoring (safe_u8 (fun k => hC _ ⟨by simp only []; omega, by simp only []; omega⟩ rfl) (by omega))) fun b _ h => ?_
    subst h
    exact safe_ite (fun _ => (safe_pure _).mono fun _ _ _ => trivial) fun _ => ih _ _ (by omega) (by omega) (by omega)

theorem safe_parseString (hf : Fits cfg fh) (hC : ∀ ev, Within (strStart fh) (strEnd fh) ev → ev.len = 1 → C ev) (off : UInt32) :
    Safe C pos (parseString cfg fh off) (fun _ n => n = pos) := by
  unfold parseString
  have hl : ∀ (a b : UInt32) {q : LoadReason}, ContentReason q → (∃ c, okOr (u32CheckedAdd a b) q = .ok c ∧ c.toNat = a.toNat + b.toNat) ∨
      ∃ k', okOr (u32CheckedAdd a b) q = .err k' ∧ ContentReason k' := by
    intro a b q hq
    cases h : u32CheckedAdd a b with
    | none => exact .inr ⟨_, rfl, hq⟩
    | some c => exact .inl ⟨c, rfl, u32CheckedAdd_eq_some.1 h⟩
  refine safe_seq (Q := fun c => c.toNat = strStart fh) (mid := pos) (safe_lift ?_) fun s hs => ?_
  · exact (hl _ _ (q := .stringSectionStart) trivial).imp (fun ⟨c, h1, h2⟩ => ⟨c, h1, h2, rfl⟩) id
  refine safe_seq (Q := fun c => c.toNat = strEnd fh) (mid := pos) (safe_lift ?_) fun t ht => ?_
  · exact (hl _ _ (q := .stringSectionEnd) trivial).imp (fun ⟨c, h1, h2⟩ => ⟨c, h1, by rw [h2, hs]; rfl, rfl⟩) id
  refine safe_seq (Q := fun c => c.toNat = strStart fh + off.toNat) (mid := pos) (safe_lift ?_) fun u hu => ?_
  · exact (hl _ _ (q := .stringOverflow) trivial).imp (fun ⟨c, h1, h2⟩ => ⟨c, h1, by rw [h2, hs], rfl⟩) id
  refine safe_ite (fun _ => safe_fail trivial) fun hlt => ?_
  have hlt' : u.toNat < t.toNat := by
    have : ¬ t ≤ u := hlt
    rw [UInt32.le_iff_toNat_le] at this; omega
  refine safe_step pos (fun r hr => by rw [getOffset, hr]) ?_
  refine safe_next (safe_setOffset _) fun _ => ?_
  have htl := t.toNat_lt
  refine safe_bind (safe_stringLoop (start := strStart fh) ?_ ?_ _ _ _ ?_ ?_ ?_) fun _ _ _ => ?_
  · have := hf.str (by omega); omega
  · rw [ht]; exact hC
  · omega
  · omega
  · omega
  exact safe_next (safe_setOffset _) fun _ => (safe_pure _).mono fun _ _ h => h.2

theorem safe_parseName (hf : Fits cfg fh) (hC : ∀ ev, Within (strStart fh) (strEnd fh) ev → ev.len = 1 → C ev) (off : UInt32) :
    Safe C pos (parseName cfg fh off) (fun a n => NameFits off a ∧ n = pos) := by
  unfold parseName NameFits
  by_cases h : off = 0
  · subst h; exact (safe_pure _).mono fun a n h => ⟨by rw [h.1]; simp, h.2⟩
  · rw [if_pos (by simpa using h)]
    refine safe_bind (safe_parseString hf hC off) fun s _ h' => ?_
    subst h'
    refine (safe_pure _).mono fun a n h' => ⟨by rw [h'.1]; simp [h], h'.2⟩

/-! ### Records -/

theorem safe_repeat {item : P α} {size : Nat} {Q : α → Prop} (n : Nat) :
    ∀ pos, (∀ i, i < n → Safe C (pos + i * size) item (fun a m => Q a ∧ m = pos + i * size + size)) →
      Safe C pos (repeatP item n) (fun l m => (l.length = n ∧ ∀ a ∈ l, Q a) ∧ m = pos + n * size) := by
  induction n with
  | zero =>
    intro pos _
    exact (safe_pure _).mono fun l m h => ⟨by rw [h.1]; simp, by rw [h.2]; simp⟩
  | succ n ih =>
    intro pos h
    have h0 := h 0 (by omega)
    rw [Nat.zero_mul, Nat.add_zero] at h0
    refine safe_bind h0 fun a _ h' => ?_
    obtain ⟨ha, rfl⟩ := h'
    refine safe_bind (ih (pos + size) fun i hi => ?_) fun l _ h' => ?_
    · have := h (i + 1) (by omega)
      have e : pos + (i + 1) * size = pos + size + i * size := by ring
      rw [e] at this; exact this
    obtain ⟨⟨hl, hQ⟩, rfl⟩ := h'
    refine (safe_pure _).mono fun l' m h' => ?_
    rw [h'.1, h'.2]
    refine ⟨⟨by rw [List.length_cons, hl], ?_⟩, by ring⟩
    intro b hb
    rcases List.mem_cons.1 hb with rfl | hb
    · exact ha
    · exact hQ b hb

theorem bodySize_dvd (k : Kind) (n : Nat) : 4 ∣ bodySize k n := by
  cases k <;> simp only [bodySize] <;> omega

theorem safe_header (hf : Fits cfg fh) (hC : ∀ ev, InSections fh ev → C ev) (hE : typeEnd fh < 2 ^ 32)
    (hs : typeStart fh ≤ pos) (hal : 4 ∣ pos - typeStart fh) (hpos : pos ≤ typeEnd fh) :
    Safe C pos (Header.new cfg fh) (fun th n => th.vlen < 2 ^ 16 ∧ n = pos + 12 ∧ n ≤ typeEnd fh) := by
  obtain ⟨s, t, h1, h2, h1', h2'⟩ := section_ok hE
  have hfit := hf.type hE
  unfold Header.new
  refine safe_step s (fun r _ => by rw [P.lift, h1]; rfl) ?_
  refine safe_step t (fun r _ => by rw [P.lift, h2]; rfl) ?_
  refine safe_step pos (fun r hr => by rw [getOffset, hr]) ?_
  refine safe_step (pos + 12) (fun r _ => by rw [P.lift, usizeAdd_lt (by unfold TYPE_HEADER_SIZE; omega)]; rfl) ?_
  refine safe_ite (fun _ => safe_fail trivial) fun hle => ?_
  have room : Space cfg C pos 12 := ⟨fun a len k h3 h4 h5 h6 =>
    hC _ (.inl ⟨⟨by simp only []; omega, by simp only []; omega⟩, by simp only []; omega, h6⟩), by omega⟩
  refine safe_next (safe_u32 (room.part (by omega) (by omega) (by omega))) fun w => ?_
  refine safe_next (safe_u32 (room.part (by omega) (by omega) (by omega))) fun info => ?_
  refine safe_next (mid := pos + 4 + 4) (safe_lift ?_) fun k => ?_
  · exact (kind_new_returns _).imp (fun ⟨k, h⟩ => ⟨k, h, rfl⟩) (fun h => ⟨.invalidKind _, h, trivial⟩)
  refine safe_next (safe_u32 (room.part (by omega) (by omega) (by omega))) fun sz => ?_
  refine (safe_pure _).mono fun th n h => ?_
  rw [h.1, h.2]
  refine ⟨?_, by omega, by omega⟩
  have := info_vlen info
  simp only []
  rw [this]
  exact Nat.mod_lt _ (by decide)

theorem safe_checkExtra {th : Header} {K : Kind} (hK : th.kind = K) (hf : Fits cfg fh) (hE : typeEnd fh < 2 ^ 32)
    (hpos : pos ≤ typeEnd fh) (hv : th.vlen < 2 ^ 16) :
    Safe C pos (checkExtra cfg fh K th) (fun _ n => pos + boundedSize .crate th.kind th.vlen ≤ typeEnd fh ∧ n = pos) := by
  subst hK
  have hsz := boundedSize_le (k := th.kind) hv
  have hu := usizeMod_ge cfg
  have hfit := hf.type hE
  have hs1 : fh.hdrLen.toNat + fh.typeOff.toNat < 2 ^ 32 := by unfold typeEnd typeStart at hE; omega
  have hte : fh.hdrLen.toNat + fh.typeOff.toNat + fh.typeLen.toNat = typeEnd fh := rfl
  unfold checkExtra
  refine safe_ite (fun h => absurd rfl h) fun _ => ?_
  refine safe_step _ (fun r _ => by rw [P.lift, extraSize_eq hv (by omega)]) ?_
  refine safe_ite (fun _ => ?_) (fun h => (safe_pure _).mono fun _ _ h' => ⟨by omega, h'.2⟩)
  refine safe_step _ (fun r _ => by rw [P.lift, u32Add_lt hs1]) ?_
  refine safe_step _ (fun r _ => by rw [P.lift, u32Add_lt (by rw [ofNat_toNat_lt hs1]; omega)]) ?_
  rw [ofNat_toNat_lt hs1, ofNat_toNat_lt (by omega)]
  refine safe_step pos (fun r hr => by rw [getOffset, hr]) ?_
  refine safe_ite (fun _ => safe_fail trivial) fun _ => ?_
  refine safe_step _ (fun r _ => by rw [P.lift, usizeAdd_lt (by omega)]) ?_
  exact safe_ite (fun _ => safe_fail trivial) fun _ => (safe_pure _).mono fun _ _ h => ⟨by omega, h.2⟩

/-- The data of every kind. `hroom`: the body may be read. -/
theorem safe_defineType {D : Type} {th : Header} {data : P D} {mk : Header → D → TypeVariant} {K : Kind}
    (hK : th.kind = K) (hf : Fits cfg fh) (hE : typeEnd fh < 2 ^ 32)
    (hroom : pos + boundedSize .crate th.kind th.vlen ≤ typeEnd fh → Space cfg C pos (bodySize th.kind th.vlen))
    (hpos : pos ≤ typeEnd fh) (hv : th.vlen < 2 ^ 16)
    (hdata : Space cfg C pos (bodySize K th.vlen) →
      Safe C pos data (fun d n => Shape th (mk th d) ∧ n = pos + bodySize K th.vlen)) :
    Safe C pos (defineTypeNew cfg fh K th data mk) (fun v n => Shape th v ∧ n = pos + bodySize th.kind th.vlen ∧
      pos + boundedSize .crate th.kind th.vlen ≤ typeEnd fh) := by
  refine safe_seq (safe_checkExtra hK hf hE hpos hv) fun _ h => ?_
  have hr := hroom h
  rw [hK] at h hr
  refine safe_seq (hdata hr) fun d hd => ?_
  exact (safe_pure _).mono fun v n h => ⟨by rw [h.1]; exact hd, by rw [h.2, hK], by rw [hK]; assumption⟩

theorem memberOffset_returns' (kf : Bool) (raw : UInt32) :
    (∃ o, memberOffset kf raw = .ok o) ∨ ∃ k, memberOffset kf raw = .err k ∧ ContentReason k := by
  unfold memberOffset
  cases kf with
  | false => simp only []; split <;> simp [ContentReason]
  | true => simp only []; split <;> simp

/-- Only the body and the string section are read. -/
theorem safe_parseType_body {th : Header} (hf : Fits cfg fh)
    (hC : ∀ ev, Within (strStart fh) (strEnd fh) ev → ev.len = 1 → C ev) (hE : typeEnd fh < 2 ^ 32)
    (hroom : pos + boundedSize .crate th.kind th.vlen ≤ typeEnd fh → Space cfg C pos (bodySize th.kind th.vlen))
    (hpos : pos ≤ typeEnd fh) (hv : th.vlen < 2 ^ 16) :
    Safe C pos (parseType cfg fh th) (fun v n => Shape th v ∧ n = pos + bodySize th.kind th.vlen ∧
      pos + boundedSize .crate th.kind th.vlen ≤ typeEnd fh) := by
  have hname : ∀ {pos : Nat} (off : UInt32), Safe C pos (parseName cfg fh off) (fun a n => NameFits off a ∧ n = pos) :=
    fun off => safe_parseName hf hC off
  have hstr : ∀ {pos : Nat} (off : UInt32), Safe C pos (parseString cfg fh off) (fun _ n => n = pos) :=
    fun off => safe_parseString hf hC off
  have hmember : ∀ kf pos, Space cfg C pos 12 → Safe C pos (Member.parse cfg fh kf)
      (fun m n => NameFits m.nameOffset m.name ∧ n = pos + 12) := by
    intro kf pos room
    refine safe_next (safe_u32 (room.part (by omega) (by omega) (by omega))) fun no => ?_
    refine safe_next (safe_u32 (room.part (by omega) (by omega) (by omega))) fun tid => ?_
    refine safe_next (safe_u32 (room.part (by omega) (by omega) (by omega))) fun raw => ?_
    refine safe_seq (hname no) fun name hn => ?_
    refine safe_next (mid := pos + 4 + 4 + 4) (safe_lift ?_) fun o => ?_
    · exact (memberOffset_returns' kf raw).imp (fun ⟨o, h⟩ => ⟨o, h, rfl⟩) id
    refine (safe_pure _).mono fun m n h => ?_
    rw [h.1, h.2]; exact ⟨hn, by omega⟩
  have henum : ∀ s pos, Space cfg C pos 8 → Safe C pos (NamedValue32.parse cfg fh s)
      (fun m n => ((∃ i, m.value = .signed i) ↔ s = true) ∧ n = pos + 8) := by
    intro s pos room
    refine safe_next (safe_u32 (room.part (by omega) (by omega) (by omega))) fun no => ?_
    refine safe_next (hstr no) fun name => ?_
    cases s with
    | true =>
      refine safe_next (safe_i32 (room.part (by omega) (by omega) (by omega))) fun v => ?_
      refine (safe_pure _).mono fun m n h => ?_
      rw [h.1, h.2]; exact ⟨by simp, by omega⟩
    | false =>
      refine safe_next (safe_u32 (room.part (by omega) (by omega) (by omega))) fun v => ?_
      refine (safe_pure _).mono fun m n h => ?_
      rw [h.1, h.2]; exact ⟨by simp, by omega⟩
  have henum64 : ∀ s pos, Space cfg C pos 12 → Safe C pos (NamedValue64.parse cfg fh s)
      (fun m n => ((∃ i, m.value = .signed i) ↔ s = true) ∧ n = pos + 12) := by
    intro s pos room
    refine safe_next (safe_u32 (room.part (by omega) (by omega) (by omega))) fun no => ?_
    refine safe_next (hstr no) fun name => ?_
    cases s with
    | true =>
      refine safe_next (safe_i64 (room.part (by omega) (by omega) (by omega))) fun v => ?_
      refine (safe_pure _).mono fun m n h => ?_
      rw [h.1, h.2]; exact ⟨by simp, by omega⟩
    | false =>
      refine safe_next (safe_u64 (room.part (by omega) (by omega) (by omega))) fun v => ?_
      refine (safe_pure _).mono fun m n h => ?_
      rw [h.1, h.2]; exact ⟨by simp, by omega⟩
  have hvar : ∀ pos, Space cfg C pos 12 → Safe C pos (Variable.parse cfg) (fun _ n => True ∧ n = pos + 12) := by
    intro pos room
    refine safe_next (safe_u32 (room.part (by omega) (by omega) (by omega))) fun no => ?_
    refine safe_next (safe_u32 (room.part (by omega) (by omega) (by omega))) fun tid => ?_
    refine safe_next (safe_u32 (room.part (by omega) (by omega) (by omega))) fun raw => ?_
    exact (safe_pure _).mono fun m n h => ⟨trivial, by omega⟩
  have hparam : ∀ pos, Space cfg C pos 8 → Safe C pos (Parameter.parse cfg fh)
      (fun m n => NameFits m.nameOffset m.name ∧ n = pos + 8) := by
    intro pos room
    refine safe_next (safe_u32 (room.part (by omega) (by omega) (by omega))) fun no => ?_
    refine safe_next (safe_u32 (room.part (by omega) (by omega) (by omega))) fun tid => ?_
    refine safe_seq (hname no) fun name hn => ?_
    refine (safe_pure _).mono fun m n h => ?_
    rw [h.1, h.2]; exact ⟨hn, by omega⟩
  have hlist : ∀ {α : Type} {item : P α} {size n : Nat} {Q : α → Prop}, Space cfg C pos (size * n) →
      (∀ pos, Space cfg C pos size → Safe C pos item (fun a m => Q a ∧ m = pos + size)) →
      4 ∣ size → Safe C pos (repeatP item n) (fun l m => (l.length = n ∧ ∀ a ∈ l, Q a) ∧ m = pos + size * n) := by
    intro α item size n Q room h hsize
    rw [Nat.mul_comm size n] at room ⊢
    refine safe_repeat n pos fun i hi => h _ (room.part (by omega) ?_ ?_)
    · have : (i + 1) * size ≤ n * size := Nat.mul_le_mul_right _ hi
      rw [Nat.add_mul] at this; omega
    · rw [Nat.add_sub_cancel_left]; exact Dvd.dvd.mul_left hsize i
  unfold parseType
  split <;> rename_i hk
  · refine safe_defineType hk hf hE hroom hpos hv fun room => ?_
    refine safe_next (safe_u32 room) fun w => safe_seq (hname _) fun name hn => (safe_pure _).mono fun d n h => ?_
    rw [h.1, h.2]
    refine ⟨⟨rfl, hk, hn, rfl, ?_, ?_⟩, rfl⟩
    · rw [int_offset]; exact Nat.mod_lt _ (by decide)
    · rw [int_bits]; exact Nat.mod_lt _ (by decide)
  · refine safe_defineType hk hf hE hroom hpos hv fun room => ?_
    refine safe_seq (hname _) fun name hn => (safe_pure _).mono fun d n h => ?_
    rw [h.1, h.2]
    exact ⟨⟨rfl, hk, hn, rfl⟩, rfl⟩
  · refine safe_defineType hk hf hE hroom hpos hv fun room => ?_
    refine safe_seq (hlist room (henum _) (by decide)) fun l hl => safe_seq (hname _) fun name hn => (safe_pure _).mono fun d n h => ?_
    rw [h.1, h.2]
    exact ⟨⟨rfl, hk, hn, rfl, rfl, hl.1, hl.2⟩, rfl⟩
  · refine safe_defineType hk hf hE hroom hpos hv fun room => (safe_pure _).mono fun d n h => ?_
    rw [h.1, h.2]
    exact ⟨⟨rfl, hk, rfl⟩, rfl⟩
  · refine safe_defineType hk hf hE hroom hpos hv fun room => (safe_pure _).mono fun d n h => ?_
    rw [h.1, h.2]
    exact ⟨⟨rfl, hk, rfl⟩, rfl⟩
  · refine safe_defineType hk hf hE hroom hpos hv fun room => (safe_pure _).mono fun d n h => ?_
    rw [h.1, h.2]
    exact ⟨⟨rfl, hk, rfl⟩, rfl⟩
  · refine safe_defineType hk hf hE hroom hpos hv fun (room : Space cfg C pos 12) => ?_
    refine safe_next (safe_u32 (room.part (by omega) (by omega) (by omega))) fun no => ?_
    refine safe_next (safe_u32 (room.part (by omega) (by omega) (by omega))) fun tid => ?_
    refine safe_next (safe_u32 (room.part (by omega) (by omega) (by omega))) fun raw => (safe_pure _).mono fun d n h => ?_
    rw [h.2]
    exact ⟨⟨rfl, hk⟩, rfl⟩
  · refine safe_defineType hk hf hE hroom hpos hv fun room => ?_
    refine safe_seq (hlist room hparam (by decide)) fun l hl => (safe_pure _).mono fun d n h => ?_
    rw [h.1, h.2]
    exact ⟨⟨rfl, hk, rfl, hl.1, hl.2⟩, rfl⟩
  · refine safe_defineType hk hf hE hroom hpos hv fun room => ?_
    refine safe_seq (hlist room (hmember _) (by decide)) fun l hl => safe_seq (hname _) fun name hn => (safe_pure _).mono fun d n h => ?_
    rw [h.1, h.2]
    exact ⟨⟨rfl, hk, hn, rfl, hl.1, hl.2⟩, rfl⟩
  · refine safe_defineType hk hf hE hroom hpos hv fun room => ?_
    refine safe_seq (hlist room (hmember _) (by decide)) fun l hl => safe_seq (hname _) fun name hn => (safe_pure _).mono fun d n h => ?_
    rw [h.1, h.2]
    exact ⟨⟨rfl, hk, hn, rfl, hl.1, hl.2⟩, rfl⟩
  · refine safe_defineType hk hf hE hroom hpos hv fun room => ?_
    refine safe_seq (hname _) fun name hn => (safe_pure _).mono fun d n h => ?_
    rw [h.1, h.2]
    exact ⟨⟨rfl, hk, hn, rfl⟩, rfl⟩
  · refine safe_defineType hk hf hE hroom hpos hv fun room => ?_
    refine safe_next (safe_u32 room) fun w => safe_seq (hname _) fun name hn => (safe_pure _).mono fun d n h => ?_
    rw [h.1, h.2]
    refine ⟨⟨rfl, hk, hn, rfl, ?_⟩, rfl⟩
    simp only []
    split <;> simp [*]
  · refine safe_defineType hk hf hE hroom hpos hv fun room => ?_
    refine safe_seq (hlist room (henum64 _) (by decide)) fun l hl => safe_seq (hname _) fun name hn => (safe_pure _).mono fun d n h => ?_
    rw [h.1, h.2]
    exact ⟨⟨rfl, hk, hn, rfl, rfl, hl.1, hl.2⟩, rfl⟩
  · refine safe_defineType hk hf hE hroom hpos hv fun room => ?_
    refine safe_seq (hname _) fun name hn => (safe_pure _).mono fun d n h => ?_
    rw [h.1, h.2]
    exact ⟨⟨rfl, hk, hn, rfl⟩, rfl⟩
  · refine safe_defineType hk hf hE hroom hpos hv fun room => ?_
    refine safe_seq (hname _) fun name hn => (safe_pure _).mono fun d n h => ?_
    rw [h.1, h.2]
    exact ⟨⟨rfl, hk, hn, rfl⟩, rfl⟩
  · refine safe_defineType hk hf hE hroom hpos hv fun room => (safe_pure _).mono fun d n h => ?_
    rw [h.1, h.2]
    exact ⟨⟨rfl, hk, rfl⟩, rfl⟩
  · refine safe_defineType hk hf hE hroom hpos hv fun room => ?_
    refine safe_seq (hlist room hvar (by decide)) fun l hl => safe_seq (hname _) fun name hn => (safe_pure _).mono fun d n h => ?_
    rw [h.1, h.2]
    exact ⟨⟨rfl, hk, hn, rfl, hl.1⟩, rfl⟩
  · refine safe_defineType hk hf hE hroom hpos hv fun room => ?_
    refine safe_seq (hname _) fun name hn => (safe_pure _).mono fun d n h => ?_
    rw [h.1, h.2]
    exact ⟨⟨rfl, hk, hn, rfl⟩, rfl⟩
  · refine safe_defineType hk hf hE hroom hpos hv fun room => ?_
    refine safe_next (safe_u32 room) fun w => safe_seq (hname _) fun name hn => (safe_pure _).mono fun d n h => ?_
    rw [h.1, h.2]
    exact ⟨⟨rfl, hk, hn, rfl⟩, rfl⟩

theorem safe_parseType {th : Header} (hf : Fits cfg fh) (hC : ∀ ev, InSections fh ev → C ev) (hE : typeEnd fh < 2 ^ 32)
    (hs : typeStart fh ≤ pos) (hal : 4 ∣ pos - typeStart fh) (hpos : pos ≤ typeEnd fh) (hv : th.vlen < 2 ^ 16) :
    Safe C pos (parseType cfg fh th) (fun v n => Shape th v ∧ n = pos + bodySize th.kind th.vlen ∧
      pos + boundedSize .crate th.kind th.vlen ≤ typeEnd fh) := by
  have hfit := hf.type hE
  have hb := bodySize_le th.kind th.vlen
  refine safe_parseType_body hf (fun ev h h' => hC ev (.inr ⟨h, h'⟩)) hE (fun h => ?_) hpos hv
  refine ⟨fun a len k h1 h2 h3 h4 => hC _ (.inl ⟨⟨?_, ?_⟩, ?_, h4⟩), by omega⟩
  · simp only []; omega
  · simp only []; omega
  · simp only []; omega

theorem safe_loop (hf : Fits cfg fh) (hC : ∀ ev, InSections fh ev → C ev) (hE : typeEnd fh < 2 ^ 32) (fuel : Nat) :
    ∀ pos tid ti, typeStart fh ≤ pos → 4 ∣ pos - typeStart fh → 12 * tid.toNat ≤ pos - typeStart fh + 12 → typeEnd fh - pos < fuel →
      0 < tid.toNat →
      Safe C pos (parseLoop cfg fh (typeEnd fh) fuel tid ti)
        (fun ti' _ => ∃ vs : List TypeVariant, ti' = build tid ti vs ∧ (vs = [] ∨ pos + 12 * vs.length ≤ typeEnd fh) ∧
          ∀ v ∈ vs, Sane v) := by
  induction fuel with
  | zero =>
    intro pos tid ti hs hal hn hfuel ht
    omega
  | succ fuel ih =>
    intro pos tid ti hs hal hn hfuel ht
    unfold parseLoop
    refine safe_step pos (fun r hr => by rw [getOffset, hr]) ?_
    refine safe_ite (fun hpos => ?_) fun _ => ?_
    · refine safe_bind (safe_header hf hC hE hs hal (by omega)) fun th _ h => ?_
      obtain ⟨hv, rfl, hle⟩ := h
      refine safe_bind (safe_parseType hf hC hE (by omega) (by omega) hle hv) fun v mid h => ?_
      obtain ⟨hsh, hmid', -⟩ := h
      have hmid : pos + 12 ≤ mid := by omega
      have hdv : 4 ∣ mid - (pos + 12) := by rw [hmid', Nat.add_sub_cancel_left]; exact bodySize_dvd _ _
      have hlen : typeEnd fh = typeStart fh + fh.typeLen.toNat := rfl
      have htl := fh.typeLen.toNat_lt
      have hlt : tid.toNat + 1 < 2 ^ 32 := by omega
      refine safe_step (tid + 1) (fun r hr => by rw [P.lift, u32_succ hlt]) ?_
      refine (ih mid (tid + 1) _ (by omega) (by omega) (by rw [u32_succ_toNat hlt]; omega) (by omega)
        (by rw [u32_succ_toNat hlt]; omega)).mono ?_
      rintro ti' n ⟨vs, rfl, h1, h2⟩
      refine ⟨v :: vs, rfl, .inr ?_, ?_⟩
      · rw [List.length_cons]
        rcases h1 with rfl | h1
        · simpa using hle
        · omega
      · intro x hx
        rcases List.mem_cons.1 hx with rfl | hx
        · exact ⟨th, hv, hsh⟩
        · exact h2 x hx
    · refine (safe_pure _).mono ?_
      rintro ti' n ⟨rfl, -⟩
      exact ⟨[], rfl, .inl rfl, fun v h => by cases h⟩

end

end Btf

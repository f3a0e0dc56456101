import Verif.Proofs.FileRead
import Verif.Spec.Flaws

/-!
# Strings and names of a file
-/

namespace Btf

open Spec Reader

/-- The bytes from `pos` to the first NUL, which is before `stop`, are `bs`. -/
def CStr (f : List UInt8) (stop pos : Nat) (bs : List UInt8) : Prop :=
  pos + bs.length < stop ∧ (0 : UInt8) ∉ bs ∧ (f.drop pos).take (bs.length + 1) = bs ++ [0]

theorem drop_of_get {f : List UInt8} {pos : Nat} {b : UInt8} (h : f[pos]? = some b) :
    f.drop pos = b :: f.drop (pos + 1) := by
  obtain ⟨hlt, rfl⟩ := List.getElem?_eq_some_iff.1 h
  exact List.drop_eq_getElem_cons hlt

theorem cstr_zero {f : List UInt8} {stop pos : Nat} (h : f[pos]? = some 0) (hp : pos < stop) {bs : List UInt8} :
    CStr f stop pos bs ↔ bs = [] := by
  unfold CStr
  rw [drop_of_get h]
  constructor
  · rintro ⟨-, hn, he⟩
    cases bs with
    | nil => rfl
    | cons b bs =>
      simp only [List.length_cons, List.take_succ_cons, List.cons_append, List.cons.injEq] at he
      exact absurd (by simp [he.1]) hn
  · rintro rfl
    exact ⟨by simpa using hp, by simp, by simp⟩

theorem cstr_cons {f : List UInt8} {stop pos : Nat} {b : UInt8} (h : f[pos]? = some b) (hb : b ≠ 0) {bs : List UInt8} :
    CStr f stop pos bs ↔ ∃ bs', bs = b :: bs' ∧ CStr f stop (pos + 1) bs' := by
  unfold CStr
  rw [drop_of_get h]
  constructor
  · rintro ⟨hp, hn, he⟩
    cases bs with
    | nil => simp at he; exact absurd he hb
    | cons c bs =>
      simp only [List.length_cons, List.take_succ_cons, List.cons_append, List.cons.injEq] at he
      obtain ⟨rfl, he⟩ := he
      refine ⟨bs, rfl, by simp at hp; omega, fun hm => hn (by simp [hm]), he⟩
  · rintro ⟨bs, rfl, hp, hn, he⟩
    refine ⟨by simp; omega, ?_, ?_⟩
    · simp only [List.mem_cons, not_or]; exact ⟨hb.symm, hn⟩
    · simp only [List.length_cons, List.take_succ_cons, List.cons_append, he]

theorem cstr_none {f : List UInt8} {stop pos : Nat} (h : f[pos]? = none ∨ stop ≤ pos) {bs : List UInt8} :
    ¬ CStr f stop pos bs := by
  rintro ⟨hp, -, he⟩
  rcases h with h | h
  · rw [List.getElem?_eq_none_iff] at h
    rw [List.drop_eq_nil_of_le h] at he
    simp at he
  · omega

theorem latin1_nil : latin1 [] = [] := by simp [latin1, str]

theorem latin1_cons (b : UInt8) (bs : List UInt8) :
    latin1 (b :: bs) = String.utf8EncodeChar (Char.ofNat b.toNat) ++ latin1 bs := by
  simp [latin1, str]

theorem cstr_unique {f : List UInt8} {stop pos : Nat} {bs bs' : List UInt8} (h : CStr f stop pos bs)
    (h' : CStr f stop pos bs') : bs = bs' := by
  induction bs generalizing pos bs' with
  | nil =>
    have h0 : f[pos]? = some 0 := by
      have := h.2.2
      cases hf : f[pos]? with
      | none => exact absurd h (cstr_none (.inl hf))
      | some b => rw [drop_of_get hf] at this; simpa using this
    exact ((cstr_zero h0 (by have := h.1; simpa using this)).1 h').symm
  | cons b bs ih =>
    have hb : b ≠ 0 := fun hb => h.2.1 (by simp [hb])
    have h0 : f[pos]? = some b := by
      have := h.2.2
      cases hf : f[pos]? with
      | none => exact absurd h (cstr_none (.inl hf))
      | some c => rw [drop_of_get hf] at this; simp at this; rw [this.1]
    obtain ⟨x, he, hx⟩ := (cstr_cons h0 hb).1 h
    cases he
    obtain ⟨y, rfl, hy⟩ := (cstr_cons h0 hb).1 h'
    rw [ih hx hy]

section
variable {f : List UInt8} {e : Endianness} {cfg : Cfg}

theorem u8_file {pos : Nat} (hfit : pos + 1 < cfg.usizeMod) {r : Reader} (hr : At cfg f e pos r) :
    (∃ b r', u8 cfg r = (.ok b, r') ∧ At cfg f e (pos + 1) r' ∧ f[pos]? = some b) ∨
    (∃ k r', u8 cfg r = (.err (.source k), r') ∧ f[pos]? = none) := by
  unfold u8
  change (∃ b r', P.bind _ _ r = _ ∧ _) ∨ ∃ k r', P.bind _ _ r = _ ∧ _
  unfold P.bind
  rcases read_file (by decide) hfit hr with ⟨hle, b, r', he, hat, hb⟩ | ⟨hle, k, r', he⟩
  · rw [he]
    exact .inl ⟨b 0, r', rfl, hat, (hb 0 (by decide)).symm⟩
  · rw [he]
    exact .inr ⟨k, r', rfl, List.getElem?_eq_none (by omega)⟩

theorem correct_u8 {pos : Nat} (hfit : pos + 1 < cfg.usizeMod) :
    Correct cfg f e pos (u8 cfg) (fun b n => f[pos]? = some b ∧ n = pos + 1) (Cut f (pos + 1)) := by
  constructor
  · intro r hr
    rcases u8_file hfit hr with ⟨b, r', h1, h2, h3⟩ | ⟨k, r', h1, h2⟩
    · exact .inl ⟨b, r', pos + 1, h1, ⟨h3, rfl⟩, h2⟩
    · refine .inr ⟨_, r', h1, ?_, ⟨k, rfl⟩, ?_⟩
      · rintro b n ⟨h, -⟩; rw [h2] at h; cases h
      · rw [List.getElem?_eq_none_iff] at h2; omega
  · rintro b n b' n' ⟨h, rfl⟩ ⟨h', rfl⟩
    rw [h] at h'
    exact ⟨Option.some.inj h', rfl⟩

/-- Why there is no string at `pos`. -/
def LoopFlaw (f : List UInt8) (start : UInt32) (stop pos : Nat) (k : LoadReason) : Prop :=
  (k = .unterminated start ∧ ∀ i, pos ≤ i → i < stop → ∃ b, f[i]? = some b ∧ b ≠ 0) ∨
  (Cut f stop k ∧ ∀ i, pos ≤ i → f[i]? ≠ some 0)

theorem LoopFlaw.step {start : UInt32} {stop pos : Nat} {k : LoadReason} {b : UInt8} (hb : f[pos]? = some b) (hb0 : b ≠ 0)
    (h : LoopFlaw f start stop (pos + 1) k) : LoopFlaw f start stop pos k := by
  rcases h with ⟨hk, h⟩ | ⟨hl, h⟩
  · refine .inl ⟨hk, fun i h1 h2 => ?_⟩
    by_cases hi : i = pos
    · exact ⟨b, by rw [hi]; exact hb, hb0⟩
    · exact h i (by omega) h2
  · refine .inr ⟨hl, fun i h1 => ?_⟩
    by_cases hi : i = pos
    · rw [hi, hb]; intro h'; exact hb0 (Option.some.inj h')
    · exact h i (by omega)

theorem correct_stringLoop (start : UInt32) {stop : Nat} (hfit : stop + 1 < cfg.usizeMod) (orig : Nat) (fuel : Nat) :
    ∀ (pos : Nat) (acc : Str), pos ≤ stop → stop - pos < fuel →
      Correct cfg f e pos (parseStringLoop cfg start stop orig fuel acc)
        (fun s next => ∃ bs, CStr f stop pos bs ∧ s = acc ++ latin1 bs ∧ next = pos + bs.length + 1)
        (LoopFlaw f start stop pos) := by
  have huniq : ∀ (pos : Nat) (acc : Str), ∀ a n a' n',
      (∃ bs, CStr f stop pos bs ∧ a = acc ++ latin1 bs ∧ n = pos + bs.length + 1) →
      (∃ bs, CStr f stop pos bs ∧ a' = acc ++ latin1 bs ∧ n' = pos + bs.length + 1) → a = a' ∧ n = n' := by
    rintro pos acc a n a' n' ⟨bs, h, rfl, rfl⟩ ⟨bs', h', rfl, rfl⟩
    rw [cstr_unique h h']
    exact ⟨rfl, rfl⟩
  induction fuel with
  | zero => intro pos acc _ h; omega
  | succ fuel ih =>
    intro pos acc hp hf
    refine ⟨fun r hr => ?_, huniq pos acc⟩
    rw [parseStringLoop]
    beta_reduce
    rw [hr.offset, usizeAdd_lt (show pos + 1 < cfg.usizeMod by omega)]
    simp only []
    by_cases hstop : pos + 1 > stop
    · rw [if_pos hstop]
      refine .inr ⟨_, r, rfl, ?_, .inl ⟨rfl, fun i h1 h2 => by omega⟩⟩
      rintro a n ⟨bs, h, -⟩
      exact cstr_none (.inr (by omega)) h
    · rw [if_neg hstop]
      rcases u8_file (cfg := cfg) (by omega) hr with ⟨b, r', he, hat, hb⟩ | ⟨k, r', he, hb⟩
      · rw [he]
        simp only []
        by_cases hb0 : b = 0
        · rw [if_pos hb0]
          subst hb0
          refine .inl ⟨acc, r', pos + 1, rfl, ⟨[], ?_, ?_, rfl⟩, hat⟩
          · exact (cstr_zero hb (by omega)).2 rfl
          · rw [latin1_nil, List.append_nil]
        · rw [if_neg hb0]
          rcases (ih (pos + 1) (pushLatin1 acc b) (by omega) (by omega)).run r' hat with
            ⟨s, r'', n, he', ⟨bs, hbs, rfl, rfl⟩, hat'⟩ | ⟨k, r'', he', hno, hE⟩
          · refine .inl ⟨_, r'', _, he', ⟨b :: bs, (cstr_cons hb hb0).2 ⟨bs, rfl, hbs⟩, ?_, ?_⟩, hat'⟩
            · rw [latin1_cons, pushLatin1, List.append_assoc]
            · simp only [List.length_cons]; omega
          · refine .inr ⟨k, r'', he', ?_, hE.step hb hb0⟩
            rintro a n ⟨bs, h, -⟩
            obtain ⟨bs', rfl, h'⟩ := (cstr_cons hb hb0).1 h
            exact hno _ _ ⟨bs', h', rfl, rfl⟩
      · rw [he]
        refine .inr ⟨_, _, rfl, ?_, .inr ?_⟩
        · rintro a n ⟨bs, h, -⟩
          exact cstr_none (.inl hb) h
        · rw [List.getElem?_eq_none_iff] at hb
          refine ⟨⟨⟨k, rfl⟩, by omega⟩, fun i hi => ?_⟩
          rw [List.getElem?_eq_none (by omega)]
          simp

/-- The sections are far enough from the end of the address space (always the case on 64-bit
targets). -/
structure Fits (cfg : Cfg) (fh : FileHeader) : Prop where
  type : typeEnd fh < 2 ^ 32 → typeEnd fh + 2 ^ 20 < cfg.usizeMod
  str : strEnd fh < 2 ^ 32 → strEnd fh + 1 < cfg.usizeMod

theorem fits_64 (h : cfg.width = .w64) (fh : FileHeader) : Fits cfg fh := by
  have : cfg.usizeMod = 2 ^ 64 := by unfold Cfg.usizeMod; rw [h]
  constructor <;> intros <;> omega

theorem stringAt_iff {fh : FileHeader} {off : UInt32} {s : Str} :
    StringAt f fh off s ↔ strEnd fh < 2 ^ 32 ∧ ∃ bs, CStr f (strEnd fh) (strStart fh + off.toNat) bs ∧ s = latin1 bs := by
  unfold StringAt CStr
  constructor
  · rintro ⟨h, bs, h1, h2, h3, rfl⟩; exact ⟨h, bs, ⟨h1, h2, h3⟩, rfl⟩
  · rintro ⟨h, bs, ⟨h1, h2, h3⟩, rfl⟩; exact ⟨h, bs, h1, h2, h3, rfl⟩

theorem stringAt_unique {fh : FileHeader} {off : UInt32} {s s' : Str} (h : StringAt f fh off s)
    (h' : StringAt f fh off s') : s = s' := by
  obtain ⟨-, bs, hc, hs⟩ := stringAt_iff.1 h
  obtain ⟨-, bs', hc', hs'⟩ := stringAt_iff.1 h'
  rw [hs, hs', cstr_unique hc hc']

theorem correct_parseString {fh : FileHeader} (hfit : Fits cfg fh) (pos : Nat) (off : UInt32) :
    Correct cfg f e pos (parseString cfg fh off) (fun s n => StringAt f fh off s ∧ n = pos)
      (StringFlaw f fh off) := by
  refine ⟨fun r hr => ?_, ?_⟩
  swap
  · rintro a n a' n' ⟨h, rfl⟩ ⟨h', rfl⟩
    exact ⟨stringAt_unique h h', rfl⟩
  have hnone : strEnd fh ≥ 2 ^ 32 ∨ strStart fh + off.toNat ≥ strEnd fh → ∀ s n, ¬ (StringAt f fh off s ∧ n = pos) := by
    rintro h s n ⟨h', -⟩
    obtain ⟨h1, bs, h2, -⟩ := stringAt_iff.1 h'
    rcases h with h | h
    · omega
    · exact cstr_none (.inr h) h2
  unfold parseString
  change (∃ b r' n', P.bind _ _ r = _ ∧ _) ∨ ∃ k r', P.bind _ _ r = _ ∧ _
  unfold P.bind P.lift
  cases h1 : u32CheckedAdd fh.hdrLen fh.strOff with
  | none =>
    rw [u32CheckedAdd_eq_none] at h1
    have hb : strEnd fh ≥ 2 ^ 32 := by unfold strEnd strStart; omega
    exact .inr ⟨_, r, rfl, hnone (.inl hb), .sectionStart h1⟩
  | some ss =>
    rw [u32CheckedAdd_eq_some] at h1
    simp only [okOr]
    change (∃ b r' n', P.bind _ _ r = _ ∧ _) ∨ ∃ k r', P.bind _ _ r = _ ∧ _
    unfold P.bind
    cases h2 : u32CheckedAdd ss fh.strLen with
    | none =>
      rw [u32CheckedAdd_eq_none] at h2
      have hb : strEnd fh ≥ 2 ^ 32 := by unfold strEnd strStart; omega
      exact .inr ⟨_, r, rfl, hnone (.inl hb), .sectionEnd (by have := ss.toNat_lt; unfold strStart; omega) hb⟩
    | some se =>
      rw [u32CheckedAdd_eq_some] at h2
      have hse : strEnd fh = se.toNat := by unfold strEnd strStart; omega
      have hss : strStart fh = ss.toNat := by unfold strStart; omega
      have hlt := se.toNat_lt
      simp only []
      change (∃ b r' n', P.bind _ _ r = _ ∧ _) ∨ ∃ k r', P.bind _ _ r = _ ∧ _
      unfold P.bind
      cases h3 : u32CheckedAdd ss off with
      | none =>
        rw [u32CheckedAdd_eq_none] at h3
        exact .inr ⟨_, r, rfl, hnone (.inr (by omega)), .overflow (by omega) (by omega)⟩
      | some st =>
        rw [u32CheckedAdd_eq_some] at h3
        simp only []
        by_cases hge : st ≥ se
        · rw [if_pos hge]
          have : se.toNat ≤ st.toNat := hge
          exact .inr ⟨_, r, rfl, hnone (.inr (by omega)), .outside (by omega) (by omega) (by omega)⟩
        · rw [if_neg hge]
          have hlt' : st.toNat < se.toNat := by
            have : ¬ se.toNat ≤ st.toNat := hge
            omega
          have hloop := correct_stringLoop st (f := f) (e := e) (cfg := cfg) (stop := se.toNat)
            (by rw [← hse]; exact hfit.str (by omega)) r.offset (se.toNat - st.toNat + 1) st.toNat [] (by omega) (by omega)
          change (∃ b r' n', P.bind getOffset _ r = _ ∧ _) ∨ ∃ k r', P.bind getOffset _ r = _ ∧ _
          unfold P.bind getOffset
          simp only []
          change (∃ b r' n', P.bind (setOffset _) _ r = _ ∧ _) ∨ ∃ k r', P.bind (setOffset _) _ r = _ ∧ _
          unfold P.bind setOffset
          simp only []
          change (∃ b r' n', P.bind (parseStringLoop _ _ _ _ _ _) _ _ = _ ∧ _) ∨ ∃ k r', P.bind (parseStringLoop _ _ _ _ _ _) _ _ = _ ∧ _
          unfold P.bind
          rcases hloop.run { r with offset := st.toNat } ⟨hr.serves, hr.endianness, rfl⟩ with
            ⟨s, r', n, he, ⟨bs, hbs, rfl, rfl⟩, hat⟩ | ⟨k, r', he, hno, hE⟩
          · rw [he]
            refine .inl ⟨latin1 bs, { r' with offset := r.offset }, pos, rfl, ⟨?_, rfl⟩, ⟨hat.serves, hat.endianness, hr.offset⟩⟩
            refine stringAt_iff.2 ⟨by omega, bs, ?_, rfl⟩
            rw [hse, hss, ← h3]; exact hbs
          · rw [he]
            refine .inr ⟨k, r', rfl, ?_, ?_⟩
            · rintro s n ⟨h, -⟩
              obtain ⟨-, bs, hbs, rfl⟩ := stringAt_iff.1 h
              rw [hse, hss, ← h3] at hbs
              exact hno _ _ ⟨bs, hbs, rfl, rfl⟩
            · rw [← hse] at hE
              rcases hE with ⟨rfl, hE⟩ | ⟨⟨⟨err, rfl⟩, hl⟩, hE⟩
              · exact .unterminated (by omega) (by omega) (by omega) hE
              · exact .truncated (by omega) (by omega) hl (by rw [hss, ← h3]; exact hE)

theorem nameAt_unique {fh : FileHeader} {off : UInt32} {s s' : Option Str} (h : NameAt f fh off s)
    (h' : NameAt f fh off s') : s = s' := by
  cases s <;> cases s' <;> simp only [NameAt] at h h'
  · rfl
  · exact absurd h h'.1
  · exact absurd h' h.1
  · rw [stringAt_unique h.2 h'.2]

theorem correct_parseName {fh : FileHeader} (hfit : Fits cfg fh) (pos : Nat) (off : UInt32) :
    Correct cfg f e pos (parseName cfg fh off) (fun s n => NameAt f fh off s ∧ n = pos)
      (fun k => off ≠ 0 ∧ StringFlaw f fh off k) := by
  unfold parseName
  by_cases h : off = 0
  · subst h
    refine (correct_pure none).congr ?_ (fun _ h => h.elim)
    rintro a n
    constructor
    · rintro ⟨rfl, rfl⟩; exact ⟨rfl, rfl⟩
    · rintro ⟨h, rfl⟩
      cases a with
      | none => exact ⟨rfl, rfl⟩
      | some s => exact absurd rfl h.1
  · rw [if_pos (by simpa using h)]
    refine (correct_bind (correct_parseString hfit pos off) (fun s mid _ => correct_pure (some s))).congr ?_ ?_
    swap
    · rintro k (h' | ⟨_, _, _, h'⟩)
      · exact ⟨h, h'⟩
      · exact h'.elim
    intro a n
    constructor
    · rintro ⟨s, mid, ⟨h1, rfl⟩, rfl, rfl⟩; exact ⟨⟨h, h1⟩, rfl⟩
    · rintro ⟨h1, rfl⟩
      cases a with
      | none => exact absurd h1 h
      | some s => exact ⟨s, n, ⟨h1.2, rfl⟩, rfl, rfl⟩

end

end Btf

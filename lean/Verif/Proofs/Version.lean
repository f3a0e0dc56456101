import Verif.Proofs.Ints
import Verif.Proofs.Buffer
import Verif.Proofs.FileFlaw

/-!
# Buffers that differ only in the version and flags bytes
-/

namespace Btf

open Spec Reader

section
variable {cfg : Cfg} {f f' : List UInt8} {e : Endianness} {fh : FileHeader}

/-- Whether, and how, a request to a buffer fails depends only on the length of the buffer. -/
theorem buffer_status (hl : f'.length = f.length) (history : List ReadEvent) {offset len : Nat}
    (ho : offset < cfg.usizeMod) :
    (offset + len ≤ f.length ∧ (∃ b b', (readableBuffer cfg f).read history offset len = .ok b ∧ (readableBuffer cfg f').read history offset len = .ok b')) ∨
    (∃ k, (readableBuffer cfg f).read history offset len = .error k ∧ (readableBuffer cfg f').read history offset len = .error k) := by
  unfold readableBuffer
  simp only []
  rw [buffer_read_eq cfg f ho, buffer_read_eq cfg f' ho, hl]
  by_cases h1 : offset = f.length
  · rw [if_pos h1, if_pos h1]; exact .inr ⟨_, rfl, rfl⟩
  · rw [if_neg h1, if_neg h1]
    by_cases h2 : offset + len < cfg.usizeMod ∧ offset + len ≤ f.length
    · rw [if_pos h2, if_pos h2]; exact .inl ⟨h2.2, _, _, rfl, rfl⟩
    · rw [if_neg h2, if_neg h2]
      by_cases h3 : offset + len < cfg.usizeMod
      · rw [if_pos h3]; exact .inr ⟨_, rfl, rfl⟩
      · rw [if_neg h3]; exact .inr ⟨_, rfl, rfl⟩

/-- Requests for bytes that are the same get the same answer. -/
theorem buffer_same (hl : f'.length = f.length) (history : List ReadEvent) {offset len : Nat}
    (ho : offset < cfg.usizeMod) (hb : ∀ i, offset ≤ i → i < offset + len → f'[i]? = f[i]?) :
    SameAnswer len ((readableBuffer cfg f).read history offset len) ((readableBuffer cfg f').read history offset len) := by
  unfold readableBuffer
  simp only []
  rw [buffer_read_eq cfg f ho, buffer_read_eq cfg f' ho, hl]
  by_cases h1 : offset = f.length
  · rw [if_pos h1, if_pos h1]; rfl
  · rw [if_neg h1, if_neg h1]
    by_cases h2 : offset + len < cfg.usizeMod ∧ offset + len ≤ f.length
    · rw [if_pos h2, if_pos h2]
      intro i hi
      simp only []
      rw [List.getD_eq_getElem?_getD, List.getD_eq_getElem?_getD, List.getElem?_take_of_lt hi, List.getElem?_take_of_lt hi,
        List.getElem?_drop, List.getElem?_drop, hb _ (by omega) (by omega)]
    · rw [if_neg h2, if_neg h2]
      by_cases h3 : offset + len < cfg.usizeMod
      · rw [if_pos h3]; rfl
      · rw [if_neg h3]; rfl

theorem sameInt_of_sameAnswer {n : Nat} {a a' : Except Error (Nat → UInt8)} (h : SameAnswer n a a') : SameInt e e n a a' := by
  cases a with
  | ok b =>
    cases a' with
    | ok b' =>
      change intOf e _ = intOf e _
      congr 1
      exact List.map_congr_left fun i hi => h i (List.mem_range.1 hi)
    | error k => exact h
  | error k =>
    cases a' with
    | ok b' => exact h
    | error k' => exact h

theorem preamble_other (hl : f'.length = f.length) (hb : ∀ i, i ≠ 2 → i ≠ 3 → f'[i]? = f[i]?) (h : Preamble f e fh) :
    ∃ v w, Preamble f' e { fh with version := v, flags := w } := by
  have hlen := h.strLen.1
  have hw : ∀ pos w, 4 ≤ pos → Word f e pos w → Word f' e pos w := by
    rintro pos w hp ⟨h1, h2⟩
    refine ⟨by omega, ?_⟩
    rw [h2]
    congr 1
    apply List.ext_getElem?
    intro i
    rw [List.getElem?_take, List.getElem?_take, List.getElem?_drop, List.getElem?_drop, hb _ (by omega) (by omega)]
  refine ⟨f'[2]'(by omega), f'[3]'(by omega), ?_, List.getElem?_eq_getElem _, List.getElem?_eq_getElem _,
    hw _ _ (by decide) h.hdrLen, hw _ _ (by decide) h.typeOff, hw _ _ (by decide) h.typeLen, hw _ _ (by decide) h.strOff,
    hw _ _ (by decide) h.strLen⟩
  rw [← h.magic]
  apply List.ext_getElem?
  intro i
  rw [List.getElem?_take, List.getElem?_take]
  split
  · rw [hb _ (by omega) (by omega)]
  · rfl

/-- A run that fails in the header. -/
theorem header_stuck {R : Readable} (hno : ∀ e fh, ¬ Announces R e fh) :
    ∃ q, TypeInformation.newT cfg R = .err q ∧
      ((∃ k, q = .source k ∧ HeaderFailed R (TypeInformation.newTrace cfg R) k ∧ ¬ BadMagic R) ∨
        (∃ v, q = .invalidMagic v ∧ TypeInformation.newTrace cfg R = headerRequests 1 ∧ FirstBytes R v ∧ BadMagic R)) := by
  rcases header_any (cfg := cfg) (R := R) with ⟨e, fh, r', h1, h2, h3⟩ | ⟨k, r', h1, h2, h3⟩
  · exact absurd h2 (hno _ _)
  · have hrun : TypeInformation.newP cfg (Reader.new R) = (.err k, r') := by
      rw [newP_eq]; change P.bind _ _ _ = _; unfold P.bind; rw [h1]
    unfold TypeInformation.newT TypeInformation.newTrace
    rw [hrun]
    exact ⟨k, rfl, h3⟩

/-- The requests before a failed one succeeded. -/
theorem faithful_earlier {R : Readable} {i j : Nat} {place : Nat × Nat} (h : Faithful R (headerRequests i)) (hj : j < i)
    (hpl : headerFields[j]? = some place) : ∃ b, R.read (headerRequests j) place.1 place.2 = .ok b := by
  induction i with
  | zero => omega
  | succ i ih =>
    cases hi : headerFields[i]? with
    | none =>
      have hlt := List.getElem?_eq_none_iff.1 hi
      have : headerRequests (i + 1) = headerRequests i := by
        unfold headerRequests
        rw [List.take_of_length_le hlt, List.take_of_length_le (by omega)]
      rw [this] at h
      by_cases hji : j = i
      · subst hji; rw [hi] at hpl; cases hpl
      · exact ih h (by omega)
    | some p =>
      rw [headerRequests_succ hi] at h
      cases h with
      | done h1 h2 =>
        by_cases hji : j = i
        · subst hji; rw [hi] at hpl; cases hpl; exact ⟨_, h1⟩
        · exact ih h2 (by omega)

theorem headerFields_lt {i : Nat} {place : Nat × Nat} (h : headerFields[i]? = some place) : place.1 < 24 := by
  have := List.mem_of_getElem? h
  simp only [headerFields, List.mem_cons, List.not_mem_nil, or_false] at this
  rcases this with rfl | rfl | rfl | rfl | rfl | rfl | rfl | rfl <;> decide

theorem new_version (hl : f'.length = f.length) (hf : f.length < cfg.usizeMod) (hb : ∀ i, i ≠ 2 → i ≠ 3 → f'[i]? = f[i]?)
    (hfit : ∀ e fh, Preamble f e fh → Fits cfg fh)
    (hsec : ∀ e fh, Preamble f e fh → 4 ≤ typeStart fh ∧ 4 ≤ strStart fh ∧ typeEnd fh + 12 < cfg.usizeMod ∧ strEnd fh < cfg.usizeMod)
    (hfaith : ∀ R, Faithful R (TypeInformation.newTrace cfg R)) :
    TypeInformation.newT cfg (readableBuffer cfg f') = TypeInformation.newT cfg (readableBuffer cfg f) := by
  have hu := usizeMod_ge cfg
  have hS := serves_buffer cfg f hf
  have hS' := serves_buffer cfg f' (by omega)
  by_cases hp : ∃ e fh, Preamble f e fh
  · obtain ⟨e, fh, hp⟩ := hp
    obtain ⟨v, w, hp'⟩ := preamble_other hl hb hp
    have ha := (announces_iff hS).2 hp
    obtain ⟨new, h1, h2⟩ := new_body (cfg := cfg) ha (hfit e fh hp)
    obtain ⟨h3, h4, h5, h6⟩ := hsec e fh hp
    refine (new_twins ha ((announces_iff hS').2 hp') ⟨rfl, rfl, rfl, rfl, rfl⟩ h1 ?_).1
    rintro later ev earlier rfl
    apply sameInt_of_sameAnswer
    rcases h2 ev (by simp) with ⟨⟨h7, h8⟩, -, h9⟩ | ⟨⟨h7, h8⟩, h9⟩
    · exact buffer_same hl _ (by omega) fun i hi _ => hb i (by omega) (by omega)
    · exact buffer_same hl _ (by omega) fun i hi _ => hb i (by omega) (by omega)
  · have hno : ∀ e fh, ¬ Announces (readableBuffer cfg f) e fh := fun e fh h => hp ⟨e, fh, (announces_iff hS).1 h⟩
    have hno' : ∀ e fh, ¬ Announces (readableBuffer cfg f') e fh := fun e fh h => by
      obtain ⟨v, w, h⟩ := preamble_other hl.symm (fun i h1 h2 => (hb i h1 h2).symm) ((announces_iff hS').1 h)
      exact hp ⟨_, _, h⟩
    obtain ⟨k, h1, h2⟩ := header_stuck (cfg := cfg) hno
    obtain ⟨k', h1', h2'⟩ := header_stuck (cfg := cfg) hno'
    rw [h1, h1']
    have hmagic := buffer_same (cfg := cfg) hl [] (offset := 0) (len := 2) (by omega) (fun i h1 h2 => hb i (by omega) (by omega))
    have hbad : BadMagic (readableBuffer cfg f) ↔ BadMagic (readableBuffer cfg f') := by
      unfold BadMagic
      cases ha : (readableBuffer cfg f).read [] 0 2 with
      | error k =>
        cases ha' : (readableBuffer cfg f').read [] 0 2 with
        | error k' => constructor <;> (rintro ⟨b, h, -⟩; cases h)
        | ok b => rw [ha, ha'] at hmagic; exact hmagic.elim
      | ok b =>
        cases ha' : (readableBuffer cfg f').read [] 0 2 with
        | error k' => rw [ha, ha'] at hmagic; exact hmagic.elim
        | ok b' =>
          rw [ha, ha'] at hmagic
          have e0 : b 0 = b' 0 := hmagic 0 (by decide)
          have e1 : b 1 = b' 1 := hmagic 1 (by decide)
          constructor
          · rintro ⟨_, h, hm⟩; cases h; exact ⟨_, rfl, by rw [← e0, ← e1]; exact hm⟩
          · rintro ⟨_, h, hm⟩; cases h; exact ⟨_, rfl, by rw [e0, e1]; exact hm⟩
    rcases h2 with ⟨k, rfl, h2, h3⟩ | ⟨v, rfl, -, hv, h3⟩
    · rcases h2' with ⟨k', rfl, h2', -⟩ | ⟨v', -, -, -, h3'⟩
      · obtain ⟨i, place, h4, h5, h6, -⟩ := h2
        obtain ⟨i', place', h4', h5', h6', -⟩ := h2'
        have hfa := hfaith (readableBuffer cfg f)
        have hfa' := hfaith (readableBuffer cfg f')
        rw [h6] at hfa
        rw [h6'] at hfa'
        have hfa : Faithful (readableBuffer cfg f) (headerRequests i) := by cases hfa; assumption
        have hfa' : Faithful (readableBuffer cfg f') (headerRequests i') := by cases hfa'; assumption
        have hst := fun (place : Nat × Nat) history => buffer_status (cfg := cfg) hl history (offset := place.1) (len := place.2)
        rcases Nat.lt_trichotomy i i' with hlt | heq | hlt
        · obtain ⟨b, hb⟩ := faithful_earlier hfa' hlt h4
          rcases hst place (headerRequests i) (by have := headerFields_lt h4; omega) with ⟨-, b1, b2, h7, h8⟩ | ⟨k, h7, h8⟩
          · rw [h5] at h7; cases h7
          · rw [hb] at h8; cases h8
        · subst heq
          rw [h4] at h4'; cases h4'
          rcases hst place (headerRequests i) (by have := headerFields_lt h4; omega) with ⟨-, b1, b2, h7, h8⟩ | ⟨k, h7, h8⟩
          · rw [h5] at h7; cases h7
          · rw [h5] at h7; cases h7; rw [h5'] at h8; cases h8; rfl
        · obtain ⟨b, hb⟩ := faithful_earlier hfa hlt h4'
          rcases hst place' (headerRequests i') (by have := headerFields_lt h4'; omega) with ⟨-, b1, b2, h7, h8⟩ | ⟨k, h7, h8⟩
          · rw [h5'] at h8; cases h8
          · rw [hb] at h7; cases h7
      · exact absurd (hbad.2 h3') h3
    · rcases h2' with ⟨k', rfl, -, h3'⟩ | ⟨v', rfl, -, hv', h3'⟩
      · exact absurd (hbad.1 h3) h3'
      · obtain ⟨b, hb, hv⟩ := hv
        obtain ⟨b', hb', hv'⟩ := hv'
        rw [hb, hb'] at hmagic
        have e0 : b 0 = b' 0 := hmagic 0 (by decide)
        have e1 : b 1 = b' 1 := hmagic 1 (by decide)
        have : v = v' := UInt16.toNat_inj.1 (by rw [hv, hv', e0, e1])
        rw [this]

end

end Btf

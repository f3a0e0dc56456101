import Verif.Spec.FirstFlaw
import Verif.Proofs.FileFlaw
import Verif.Proofs.Prog

/-!
# The parser reports the first flaw
-/

namespace Btf

open Spec Reader

theorem first_append {N : Type} {unmet : N → LoadReason → Prop} {ns ns' : List N} {q : LoadReason} (h : First unmet ns q) :
    First unmet (ns ++ ns') q := by
  obtain ⟨a, n, b, rfl, h1, h2⟩ := h
  exact ⟨a, n, b ++ ns', by simp, h1, h2⟩

theorem first_prepend {N : Type} {unmet : N → LoadReason → Prop} {ns ns' : List N} {q : LoadReason} (h : First unmet ns' q)
    (hm : ∀ n ∈ ns, ∀ q, ¬ unmet n q) : First unmet (ns ++ ns') q := by
  obtain ⟨a, n, b, rfl, h1, h2⟩ := h
  refine ⟨ns ++ a, n, b, by simp, fun m hmem => ?_, h2⟩
  rcases List.mem_append.1 hmem with h | h
  · exact hm m h
  · exact h1 m h

theorem first_one {N : Type} {unmet : N → LoadReason → Prop} {n : N} {q : LoadReason} (h : unmet n q) : First unmet [n] q :=
  ⟨[], n, [], rfl, by simp, h⟩

/-- `p`, run at `pos`, asks for `ns`, in this order: if all needs are met it returns a value in `Q` and stops at `next`; otherwise
it reports the first one that is not met. -/
def Meets {α N : Type} (cfg : Cfg) (R : Readable) (f : List UInt8) (e : Endianness) (unmet : N → LoadReason → Prop) (pos : Nat)
    (p : P α) (ns : List N) (next : Nat) (Q : α → Prop) : Prop :=
  ∀ r, r.readable = R → At cfg f e pos r →
    (∃ a r', p r = (.ok a, r') ∧ r'.readable = R ∧ At cfg f e next r' ∧ Q a ∧ ∀ n ∈ ns, ∀ q, ¬ unmet n q) ∨
    (∃ q r', p r = (.err q, r') ∧ First unmet ns q)

section
variable {α β N : Type} {cfg : Cfg} {R : Readable} {f : List UInt8} {e : Endianness} {unmet : N → LoadReason → Prop}
  {fh : FileHeader} {pos : Nat}

theorem meets_pure {Q : α → Prop} {a : α} (h : Q a) : Meets cfg R f e unmet pos (Pure.pure a : P α) [] pos Q :=
  fun r hR hat => .inl ⟨a, r, rfl, hR, hat, h, by simp⟩

theorem meets_bind {p : P α} {q : α → P β} {ns ns' : List N} {mid next : Nat} {Q : α → Prop} {S : β → Prop}
    (hp : Meets cfg R f e unmet pos p ns mid Q) (hq : ∀ a, Q a → Meets cfg R f e unmet mid (q a) ns' next S) :
    Meets cfg R f e unmet pos (p >>= q) (ns ++ ns') next S := by
  intro r hR hat
  change (∃ a r', P.bind p q r = _ ∧ _) ∨ ∃ k r', P.bind p q r = _ ∧ _
  unfold P.bind
  rcases hp r hR hat with ⟨a, r', h1, h2, h3, h4, h5⟩ | ⟨k, r', h1, h2⟩
  · rw [h1]
    simp only []
    rcases hq a h4 r' h2 h3 with ⟨b, r'', g1, g2, g3, g4, g5⟩ | ⟨k, r'', g1, g2⟩
    · refine .inl ⟨b, r'', g1, g2, g3, g4, fun n hn => ?_⟩
      rcases List.mem_append.1 hn with hn | hn
      · exact h5 n hn
      · exact g5 n hn
    · exact .inr ⟨k, r'', g1, first_prepend g2 h5⟩
  · rw [h1]
    exact .inr ⟨k, r', rfl, first_append h2⟩

/-- A step that cannot fail. -/
theorem meets_step {p : P α} {q : α → P β} {ns : List N} {next : Nat} {S : β → Prop} {a : α}
    (hp : ∀ r, At cfg f e pos r → p r = (.ok a, r)) (hq : Meets cfg R f e unmet pos (q a) ns next S) :
    Meets cfg R f e unmet pos (p >>= q) ns next S := by
  intro r hR hat
  change (∃ a r', P.bind p q r = _ ∧ _) ∨ ∃ k r', P.bind p q r = _ ∧ _
  unfold P.bind
  rw [hp r hat]
  exact hq r hR hat

theorem meets_weaken {p : P α} {ns : List N} {next : Nat} {Q S : α → Prop} (h : Meets cfg R f e unmet pos p ns next Q)
    (hQ : ∀ a, Q a → S a) : Meets cfg R f e unmet pos p ns next S := by
  intro r hR hat
  rcases h r hR hat with ⟨a, r', h1, h2, h3, h4, h5⟩ | h
  · exact .inl ⟨a, r', h1, h2, h3, hQ a h4, h5⟩
  · exact .inr h

/-- What a `Correct` triple says, if the error is known to be the first flaw. -/
theorem meets_of_correct {p : P α} {A : α → Nat → Prop} {E : LoadReason → Prop} {ns : List N} {next : Nat} {Q : α → Prop}
    (h : Correct cfg f e pos p A E) (hprog : ∀ r, (p r).2.readable = r.readable)
    (hok : ∀ a n, A a n → n = next ∧ Q a ∧ ∀ m ∈ ns, ∀ q, ¬ unmet m q)
    (herr : ∀ r, r.readable = R → At cfg f e pos r → ∀ q r', p r = (.err q, r') → E q → First unmet ns q) :
    Meets cfg R f e unmet pos p ns next Q := by
  intro r hR hat
  rcases h.run r hat with ⟨a, r', n, h1, h2, h3⟩ | ⟨q, r', h1, -, h2⟩
  · obtain ⟨rfl, h4, h5⟩ := hok a n h2
    refine .inl ⟨a, r', h1, ?_, h3, h4, h5⟩
    have := hprog r
    rw [h1] at this
    exact this.trans hR
  · exact .inr ⟨q, r', h1, herr r hR hat q r' h1 h2⟩

/-- A request. -/
theorem read_missing {n : Nat} (hn : 0 < n) (hfit : pos + n < cfg.usizeMod) {r : Reader} (hR : r.readable = R) (hr : At cfg f e pos r) {q : LoadReason}
    {r' : Reader} (h : Reader.read cfg n r = (.err q, r')) : Missing R f pos n q := by
  have hs := hr.serves r.trace r.offset n hn (by rw [hr.offset]; omega)
  rw [hr.offset] at hs
  unfold Reader.read at h
  rw [hr.offset] at h
  cases hread : r.readable.read r.trace pos n with
  | error x =>
    rw [hread] at h
    cases h
    refine ⟨?_, r.trace, x, by rw [← hR]; exact hread, rfl⟩
    by_contra hle
    rw [if_pos (by omega)] at hs
    obtain ⟨b, hb, -⟩ := hs
    rw [hread] at hb; cases hb
  | ok b =>
    rw [hread, usizeAdd_lt hfit] at h
    cases h

theorem not_missing {n : Nat} (h : pos + n ≤ f.length) (q : LoadReason) : ¬ Missing R f pos n q := fun hm => by have := hm.1; omega

/-- Reading an integer. -/
theorem meets_int {n : Nat} {need : N} (hneed : ∀ q, unmet need q ↔ Missing R f pos n q) (hn : 0 < n)
    (hfit : pos + n < cfg.usizeMod) (mk : Nat → α) :
    Meets cfg R f e unmet pos (read cfg n >>= fun b => getEndianness >>= fun e => (Pure.pure (mk (decodeNat e b n)) : P α))
      [need] (pos + n) (fun a => ∃ v, IntAt f e n pos v ∧ a = mk v) := by
  refine meets_of_correct (correct_int hn hfit mk) (fun r => (Prog.discipline (cfg := cfg) (cfg' := cfg)
    (.bind (.read n) fun b => .bind .getEndianness fun e => .pure _) r).readable) ?_ ?_
  · rintro a m ⟨⟨v, hv, rfl⟩, rfl⟩
    refine ⟨rfl, ⟨v, hv, rfl⟩, fun m hm q hq => ?_⟩
    obtain rfl := List.mem_singleton.1 hm
    exact not_missing hv.1 q ((hneed q).1 hq)
  · intro r hR hat q r' h _
    refine first_one ((hneed q).2 ?_)
    change P.bind (read cfg n) _ r = _ at h
    unfold P.bind at h
    cases hr : read cfg n r with
    | mk o r1 =>
      rw [hr] at h
      cases o with
      | ok b => cases h
      | err k => cases h; exact read_missing hn hfit hR hat hr
      | panic => cases h
      | nofuel => cases h

theorem meets_u32' {need : N} (hneed : ∀ q, unmet need q ↔ Missing R f pos 4 q) (hfit : pos + 4 < cfg.usizeMod) :
    Meets cfg R f e unmet pos (u32 cfg) [need] (pos + 4) (fun w => Word f e pos w) := by
  refine meets_weaken (meets_int hneed (by decide) hfit UInt32.ofNat) ?_
  rintro a ⟨v, hv, rfl⟩
  have := intAt_lt hv
  unfold Word
  rw [ofNat_toNat_lt (by omega)]
  exact hv

theorem meets_u8' {need : N} (hneed : ∀ q, unmet need q ↔ Missing R f pos 1 q) (hfit : pos + 1 < cfg.usizeMod) :
    Meets cfg R f e unmet pos (u8 cfg) [need] (pos + 1) (fun b => f[pos]? = some b) := by
  refine meets_of_correct (correct_u8 hfit) (fun r => (Prog.discipline (cfg := cfg) (cfg' := cfg) (.bind (.read 1) fun b => .pure _) r).readable) ?_ ?_
  · rintro a m ⟨h, rfl⟩
    refine ⟨rfl, h, fun m hm q hq => ?_⟩
    obtain rfl := List.mem_singleton.1 hm
    refine not_missing ?_ q ((hneed q).1 hq)
    have := (List.getElem?_eq_some_iff.1 h).1
    omega
  · intro r hR hat q r' h _
    refine first_one ((hneed q).2 ?_)
    change P.bind (read cfg 1) _ r = _ at h
    unfold P.bind at h
    cases hr : read cfg 1 r with
    | mk o r1 =>
      rw [hr] at h
      cases o with
      | ok b => cases h
      | err k => cases h; exact read_missing (by decide) hfit hR hat hr
      | panic => cases h
      | nofuel => cases h

/-! ### Records -/

local notation "ask" => Need.unmet R f e fh

theorem meets_u32 (hfit : pos + 4 < cfg.usizeMod) :
    Meets cfg R f e ask pos (u32 cfg) [.bytes pos 4] (pos + 4) (fun w => Word f e pos w) := meets_u32' (fun _ => Iff.rfl) hfit

theorem meets_u64 (hfit : pos + 8 < cfg.usizeMod) :
    Meets cfg R f e ask pos (u64 cfg) [.bytes pos 8] (pos + 8) (fun _ => True) :=
  meets_weaken (meets_int (N := Need) (need := .bytes pos 8) (fun _ => Iff.rfl) (by decide) hfit UInt64.ofNat) (fun _ _ => trivial)

theorem stringLoop_source (start : UInt32) {stop : Nat} (hfit : stop + 1 < cfg.usizeMod) (orig fuel : Nat) :
    ∀ (pos : Nat) (acc : Str) (r r' : Reader) (x : Error), pos ≤ stop → r.readable = R → At cfg f e pos r →
      parseStringLoop cfg start stop orig fuel acc r = (.err (.source x), r') → Missing R f (max f.length pos) 1 (.source x) := by
  induction fuel with
  | zero => intro pos acc r r' x _ _ _ h; cases h
  | succ fuel ih =>
    intro pos acc r r' x hp hR hat h
    rw [parseStringLoop] at h
    beta_reduce at h
    rw [hat.offset, usizeAdd_lt (show pos + 1 < cfg.usizeMod by omega)] at h
    simp only [] at h
    by_cases hstop : pos + 1 > stop
    · rw [if_pos hstop] at h; cases h
    rw [if_neg hstop] at h
    have hu := meets_u8' (cfg := cfg) (R := R) (f := f) (e := e) (unmet := fun (_ : Unit) q => Missing R f pos 1 q) (need := ()) (fun _ => Iff.rfl)
      (show pos + 1 < cfg.usizeMod by omega) r hR hat
    rcases hu with ⟨b, r1, h1, h2, h3, h4, -⟩ | ⟨q, r1, h1, a, n, b, h2, h3, h4⟩
    · rw [h1] at h
      simp only [] at h
      split at h
      · cases h
      · have := ih (pos + 1) _ r1 r' x (by omega) h2 h3 h
        have hlt := (List.getElem?_eq_some_iff.1 h4).1
        rwa [show max f.length (pos + 1) = max f.length pos by omega] at this
    · rw [h1] at h
      cases h
      have := h4.1
      rwa [show max f.length pos = pos by omega]

theorem parseString_source (hf : Fits cfg fh) {off : UInt32} {r r' : Reader} {x : Error} (hR : r.readable = R) (hat : At cfg f e pos r)
    (h : parseString cfg fh off r = (.err (.source x), r')) : Missing R f (max f.length (strStart fh + off.toNat)) 1 (.source x) := by
  unfold parseString at h
  change P.bind _ _ r = _ at h
  unfold P.bind P.lift at h
  cases h1 : u32CheckedAdd fh.hdrLen fh.strOff with
  | none => rw [h1] at h; cases h
  | some ss =>
    rw [h1] at h
    rw [u32CheckedAdd_eq_some] at h1
    simp only [okOr] at h
    change P.bind _ _ r = _ at h
    unfold P.bind at h
    cases h2 : u32CheckedAdd ss fh.strLen with
    | none => rw [h2] at h; cases h
    | some se =>
      rw [h2] at h
      rw [u32CheckedAdd_eq_some] at h2
      simp only [] at h
      change P.bind _ _ r = _ at h
      unfold P.bind at h
      cases h3 : u32CheckedAdd ss off with
      | none => rw [h3] at h; cases h
      | some st =>
        rw [h3] at h
        rw [u32CheckedAdd_eq_some] at h3
        simp only [] at h
        by_cases hge : st ≥ se
        · rw [if_pos hge] at h; cases h
        · rw [if_neg hge] at h
          have hlt : st.toNat < se.toNat := by
            have : ¬ se.toNat ≤ st.toNat := hge
            omega
          have hse : strEnd fh = se.toNat := by unfold strEnd strStart; omega
          have hss : strStart fh = ss.toNat := by unfold strStart; omega
          have hse' := se.toNat_lt
          change P.bind getOffset _ r = _ at h
          unfold P.bind getOffset at h
          simp only [] at h
          change P.bind (setOffset _) _ r = _ at h
          unfold P.bind setOffset at h
          simp only [] at h
          change P.bind (parseStringLoop _ _ _ _ _ _) _ _ = _ at h
          unfold P.bind at h
          cases hl : parseStringLoop cfg st se.toNat r.offset (se.toNat - st.toNat + 1) [] { r with offset := st.toNat } with
          | mk o r1 =>
            rw [hl] at h
            cases o with
            | ok s => cases h
            | panic => cases h
            | nofuel => cases h
            | err k =>
              cases h
              have := stringLoop_source (R := R) (f := f) (e := e) st (stop := se.toNat) (by rw [← hse]; exact hf.str (by omega)) r.offset _ st.toNat [] { r with offset := st.toNat } _ x (by omega)
                (by exact hR) ⟨hat.serves, hat.endianness, rfl⟩ hl
              rwa [hss, ← h3]

theorem meets_string (hf : Fits cfg fh) {p : Nat} {off : UInt32} (hw : Word f e p off) :
    Meets cfg R f e ask pos (parseString cfg fh off) [.string p] pos (fun _ => True) := by
  refine meets_of_correct (correct_parseString hf pos off) (fun r => (Prog.discipline (prog_string (⟨Nat.le_refl _, .inr rfl⟩ : Stricter cfg cfg) fh off) r).readable) ?_ ?_
  · rintro s n ⟨h, rfl⟩
    refine ⟨rfl, trivial, fun m hm q => ?_⟩
    obtain rfl := List.mem_singleton.1 hm
    rintro ⟨off', hw', h', -⟩
    rw [word_unique hw' hw] at h'
    exact stringFlaw_not h' h
  · intro r hR hat q r' h hE
    refine first_one ⟨off, hw, hE, ?_⟩
    rintro x rfl
    exact parseString_source hf hR hat h

theorem meets_name (hf : Fits cfg fh) {p : Nat} {off : UInt32} (hw : Word f e p off) :
    Meets cfg R f e ask pos (parseName cfg fh off) [.name p] pos (fun _ => True) := by
  unfold parseName
  by_cases h0 : off = 0
  · subst h0
    intro r hR hat
    refine .inl ⟨none, r, rfl, hR, hat, trivial, fun m hm q => ?_⟩
    obtain rfl := List.mem_singleton.1 hm
    rintro ⟨off', hw', h', -⟩
    exact h' (word_unique hw' hw)
  · rw [if_pos (by simpa using h0)]
    refine meets_of_correct (correct_bind (correct_parseString hf pos off) fun s mid h => correct_pure (some s))
      (fun r => (Prog.discipline (cfg := cfg) (cfg' := cfg) (.bind (prog_string (⟨Nat.le_refl _, .inr rfl⟩ : Stricter cfg cfg) fh off) fun s => .pure _) r).readable) ?_ ?_
    · rintro s n ⟨s', mid, ⟨h, rfl⟩, -, rfl⟩
      refine ⟨rfl, trivial, fun m hm q => ?_⟩
      obtain rfl := List.mem_singleton.1 hm
      rintro ⟨off', hw', -, h', -⟩
      rw [word_unique hw' hw] at h'
      exact stringFlaw_not h' h
    · rintro r hR hat q r' h (hE | ⟨_, _, _, hE⟩)
      · refine first_one ⟨off, hw, h0, hE, ?_⟩
        rintro x rfl
        change P.bind (parseString cfg fh off) _ r = _ at h
        unfold P.bind at h
        cases hp : parseString cfg fh off r with
        | mk o r1 =>
          rw [hp] at h
          cases o with
          | ok s => cases h
          | panic => cases h
          | nofuel => cases h
          | err k => cases h; exact parseString_source hf hR hat hp
      · exact hE.elim

theorem meets_items {item : P α} {needs : Nat → List Need} {size : Nat} :
    ∀ (n pos : Nat), (∀ p, pos ≤ p → p + size ≤ pos + size * n → Meets cfg R f e ask p item (needs p) (p + size) (fun _ => True)) →
      Meets cfg R f e ask pos (repeatP item n) (itemNeeds n size pos needs) (pos + size * n) (fun _ => True)
  | 0, pos, _ => meets_pure trivial
  | n + 1, pos, h => by
    have hs : size * (n + 1) = size + size * n := by rw [Nat.mul_add, Nat.mul_one, Nat.add_comm]
    have hneeds : itemNeeds (n + 1) size pos needs = needs pos ++ itemNeeds n size (pos + size) needs := by
      unfold itemNeeds
      rw [List.range_succ_eq_map, List.flatMap_cons, List.flatMap_map, Nat.zero_mul, Nat.add_zero]
      congr 2
      funext i
      rw [Nat.succ_mul, Nat.add_comm (i * size), ← Nat.add_assoc]
    rw [hneeds, repeatP, hs, ← Nat.add_assoc]
    refine meets_bind (h pos (Nat.le_refl _) (by rw [hs]; omega)) fun a _ => ?_
    rw [← List.append_nil (itemNeeds _ _ _ _)]
    exact meets_bind (meets_items n (pos + size) fun p h1 h2 => h p (by omega) (by rw [hs]; omega)) fun _ _ => meets_pure trivial

theorem ask_aligned {w : UInt32} {p : Nat} (hw : Word f e p w) {kf : Bool} :
    Meets cfg R f e ask pos (P.lift (memberOffset kf w)) (if kf then [] else [.aligned p]) pos (fun _ => True) := by
  intro r hR hat
  cases kf with
  | true =>
    refine .inl ?_
    unfold memberOffset P.lift
    simp only []
    split
    · exact ⟨_, r, rfl, hR, hat, trivial, by simp⟩
    · exact ⟨_, r, rfl, hR, hat, trivial, by simp⟩
  | false =>
    have hmod : (w % 8).toNat = w.toNat % 8 := by rw [UInt32.toNat_mod]; rfl
    unfold memberOffset P.lift
    simp only [if_neg (show ¬ (false = true) by decide)]
    by_cases h : w % 8 = 0
    · rw [if_pos h]
      refine .inl ⟨_, r, rfl, hR, hat, trivial, fun m hm q => ?_⟩
      obtain rfl := List.mem_singleton.1 hm
      rintro ⟨-, w', hw', hd⟩
      rw [word_unique hw' hw] at hd
      exact hd (Nat.dvd_of_mod_eq_zero (by rw [← hmod, h]; rfl))
    · rw [if_neg h]
      refine .inr ⟨_, r, rfl, first_one ⟨rfl, w, hw, fun hd => h ?_⟩⟩
      rw [← UInt32.toNat_inj, hmod]
      exact Nat.mod_eq_zero_of_dvd hd

theorem meets_member (hf : Fits cfg fh) {kf : Bool} (hfit : pos + 12 < cfg.usizeMod) :
    Meets cfg R f e ask pos (Member.parse cfg fh kf) (memberNeeds kf pos) (pos + 12) (fun _ => True) := by
  unfold Member.parse memberNeeds
  refine meets_bind (ns := [_]) (ns' := [_, _, _] ++ _) (meets_u32 (cfg := cfg) (pos := pos) (by omega)) fun a ha => ?_
  refine meets_bind (ns := [_]) (ns' := [_, _] ++ _) (meets_u32 (cfg := cfg) (pos := pos + 4) (by omega)) fun b hb => ?_
  refine meets_bind (ns := [_]) (ns' := [_] ++ _) (meets_u32 (cfg := cfg) (pos := pos + 8) (by omega)) fun c hc => ?_
  refine meets_bind (ns := [_]) (meets_name hf ha) fun n _ => ?_
  rw [← List.append_nil (ite _ _ _)]
  exact meets_bind (ask_aligned hc) fun _ _ => meets_pure trivial

theorem meets_value32 (hf : Fits cfg fh) {signed : Bool} (hfit : pos + 8 < cfg.usizeMod) :
    Meets cfg R f e ask pos (NamedValue32.parse cfg fh signed) [.bytes pos 4, .string pos, .bytes (pos + 4) 4] (pos + 8) (fun _ => True) := by
  refine meets_bind (ns := [_]) (ns' := [_, _]) (meets_u32 (by omega)) fun a ha => ?_
  refine meets_bind (ns := [_]) (ns' := [_]) (meets_string hf ha) fun n _ => ?_
  cases signed with
  | true =>
    refine meets_bind (ns := [_]) (ns' := []) (Q := fun _ => True) ?_ fun _ _ => meets_pure trivial
    exact meets_bind (ns := [_]) (ns' := []) (meets_u32 (by omega)) fun _ _ => meets_pure trivial
  | false => exact meets_bind (ns := [_]) (ns' := []) (meets_u32 (by omega)) fun _ _ => meets_pure trivial

theorem meets_value64 (hf : Fits cfg fh) {signed : Bool} (hfit : pos + 12 < cfg.usizeMod) :
    Meets cfg R f e ask pos (NamedValue64.parse cfg fh signed) [.bytes pos 4, .string pos, .bytes (pos + 4) 8] (pos + 12) (fun _ => True) := by
  refine meets_bind (ns := [_]) (ns' := [_, _]) (meets_u32 (by omega)) fun a ha => ?_
  refine meets_bind (ns := [_]) (ns' := [_]) (meets_string hf ha) fun n _ => ?_
  cases signed with
  | true =>
    refine meets_bind (ns := [_]) (ns' := []) (Q := fun _ => True) ?_ fun _ _ => meets_pure trivial
    exact meets_bind (ns := [_]) (ns' := []) (meets_u64 (by omega)) fun _ _ => meets_pure trivial
  | false => exact meets_bind (ns := [_]) (ns' := []) (meets_u64 (by omega)) fun _ _ => meets_pure trivial

theorem meets_parameter (hf : Fits cfg fh) (hfit : pos + 8 < cfg.usizeMod) :
    Meets cfg R f e ask pos (Parameter.parse cfg fh) [.bytes pos 4, .bytes (pos + 4) 4, .name pos] (pos + 8) (fun _ => True) := by
  refine meets_bind (ns := [_]) (ns' := [_, _]) (meets_u32 (by omega)) fun a ha => ?_
  refine meets_bind (ns := [_]) (ns' := [_]) (meets_u32 (by omega)) fun b hb => ?_
  exact meets_bind (ns := [_]) (ns' := []) (meets_name hf ha) fun n _ => meets_pure trivial

theorem meets_variable (hfit : pos + 12 < cfg.usizeMod) :
    Meets cfg R f e ask pos (Variable.parse cfg) [.bytes pos 4, .bytes (pos + 4) 4, .bytes (pos + 8) 4] (pos + 12) (fun _ => True) := by
  refine meets_bind (ns := [_]) (ns' := [_, _]) (meets_u32 (by omega)) fun a ha => ?_
  refine meets_bind (ns := [_]) (ns' := [_]) (meets_u32 (by omega)) fun b hb => ?_
  exact meets_bind (ns := [_]) (ns' := []) (meets_u32 (by omega)) fun n _ => meets_pure trivial

theorem meets_checkExtra {th : Header} (hf : Fits cfg fh) (hE : typeEnd fh < 2 ^ 32)
    (hpos : pos ≤ typeEnd fh) (hs : typeStart fh ≤ pos) (hv : th.vlen < 2 ^ 16) :
    Meets cfg R f e ask pos (checkExtra cfg fh th.kind th) [.inside (pos + boundedSize .crate th.kind th.vlen)] pos
      (fun _ => pos + boundedSize .crate th.kind th.vlen ≤ typeEnd fh) := by
  refine meets_of_correct (correct_checkExtra hf hE hpos hs hv)
    (fun r => (Prog.discipline (prog_checkExtra (⟨Nat.le_refl _, .inr rfl⟩ : Stricter cfg cfg) fh th.kind th) r).readable) ?_ ?_
  · rintro a n ⟨h, rfl⟩
    refine ⟨rfl, h, fun m hm q => ?_⟩
    obtain rfl := List.mem_singleton.1 hm
    rintro ⟨-, h'⟩; omega
  · rintro r hR hat q r' h ⟨hE, rfl⟩
    exact first_one ⟨rfl, hE⟩

theorem meets_defineType {D : Type} {th : Header} {data : P D} {mk : Header → D → TypeVariant} {K : Kind} (hK : th.kind = K)
    (hf : Fits cfg fh) (hE : typeEnd fh < 2 ^ 32)
    (hpos : pos ≤ typeEnd fh) (hs : typeStart fh ≤ pos) (hv : th.vlen < 2 ^ 16) {ns : List Need}
    (hdata : pos + boundedSize .crate th.kind th.vlen + 12 < cfg.usizeMod →
      Meets cfg R f e ask pos data ns (pos + bodySize th.kind th.vlen) (fun _ => True)) :
    Meets cfg R f e ask pos (defineTypeNew cfg fh K th data mk) (.inside (pos + boundedSize .crate th.kind th.vlen) :: ns)
      (pos + bodySize th.kind th.vlen) (fun _ => True) := by
  subst hK
  have hfit := hf.type hE
  refine meets_bind (ns := [_]) (ns' := ns) (meets_checkExtra hf hE hpos hs hv) fun _ h => ?_
  rw [← List.append_nil ns]
  exact meets_bind (hdata (by omega)) fun _ _ => meets_pure trivial

theorem meets_parseType {th : Header} (hf : Fits cfg fh) (hE : typeEnd fh < 2 ^ 32)
    (hpos : pos + 12 ≤ typeEnd fh) (hs : typeStart fh ≤ pos) (hh : HeaderAt f e pos th) :
    Meets cfg R f e ask (pos + 12) (parseType cfg fh th) (bodyNeeds th pos) (pos + 12 + bodySize th.kind th.vlen) (fun _ => True) := by
  have hv := headerAt_vlen hh
  have hn := hh.1
  have name : ∀ {p : Nat}, Meets cfg R f e ask p (parseName cfg fh th.nameOffset) [.name pos] p (fun _ => True) := fun {p} => meets_name hf hn
  have named : ∀ {D : Type} {p : Nat} (g : Option Str → D), Meets cfg R f e ask p (do let n ← parseName cfg fh th.nameOffset; return g n) [.name pos] p
      (fun _ => True) := fun g => meets_bind (ns := [_]) (ns' := []) name fun _ _ => meets_pure trivial
  have listed : ∀ {A D : Type} {p q : Nat} {ns : List Need} {l : P A} (g : A → Option Str → D), Meets cfg R f e ask p l ns q (fun _ => True) →
      Meets cfg R f e ask p (do let xs ← l; let n ← parseName cfg fh th.nameOffset; return g xs n) (ns ++ [.name pos]) q (fun _ => True) :=
    fun g hl => meets_bind hl fun _ _ => named _
  unfold parseType bodyNeeds
  cases hk : th.kind with
  | Int =>
    have := meets_defineType (R := R) (e := e) (f := f) (mk := .int) (ns := [.bytes (pos + 12) 4, .name pos]) (data := IntData.new cfg fh th) hk hf hE hpos (by omega) hv
      (fun hfit => by
        rw [hk] at hfit ⊢
        exact meets_bind (ns := [_]) (ns' := [_]) (meets_u32 (by simp only [boundedSize, bodySize] at hfit; omega)) fun _ _ => named _)
    rw [hk] at this; exact this
  | Var =>
    have := meets_defineType (R := R) (e := e) (f := f) (mk := .var) (ns := [.bytes (pos + 12) 4, .name pos]) (data := VarData.new cfg fh th) hk hf hE hpos (by omega) hv
      (fun hfit => by
        rw [hk] at hfit ⊢
        exact meets_bind (ns := [_]) (ns' := [_]) (meets_u32 (by simp only [boundedSize, bodySize] at hfit; omega)) fun _ _ => named _)
    rw [hk] at this; exact this
  | DeclTag =>
    have := meets_defineType (R := R) (e := e) (f := f) (mk := .declTag) (ns := [.bytes (pos + 12) 4, .name pos]) (data := DeclTagData.new cfg fh th) hk hf hE hpos (by omega) hv
      (fun hfit => by
        rw [hk] at hfit ⊢
        exact meets_bind (ns := [_]) (ns' := [_]) (meets_u32 (by simp only [boundedSize, bodySize] at hfit; omega)) fun _ _ => named _)
    rw [hk] at this; exact this
  | Ptr =>
    have := meets_defineType (R := R) (e := e) (f := f) (mk := .ptr) (ns := []) (data := TidData.new th) hk hf hE hpos (by omega) hv
      (fun hfit => by rw [hk]; exact meets_pure trivial)
    rw [hk] at this; exact this
  | Volatile =>
    have := meets_defineType (R := R) (e := e) (f := f) (mk := .volatile) (ns := []) (data := TidData.new th) hk hf hE hpos (by omega) hv
      (fun hfit => by rw [hk]; exact meets_pure trivial)
    rw [hk] at this; exact this
  | Const =>
    have := meets_defineType (R := R) (e := e) (f := f) (mk := .const) (ns := []) (data := TidData.new th) hk hf hE hpos (by omega) hv
      (fun hfit => by rw [hk]; exact meets_pure trivial)
    rw [hk] at this; exact this
  | Restrict =>
    have := meets_defineType (R := R) (e := e) (f := f) (mk := .restrict) (ns := []) (data := TidData.new th) hk hf hE hpos (by omega) hv
      (fun hfit => by rw [hk]; exact meets_pure trivial)
    rw [hk] at this; exact this
  | Fwd =>
    have := meets_defineType (R := R) (e := e) (f := f) (mk := .fwd) (ns := [.name pos]) (data := NamedTidData.new cfg fh th) hk hf hE hpos (by omega) hv
      (fun hfit => by rw [hk]; exact named _)
    rw [hk] at this; exact this
  | Typedef =>
    have := meets_defineType (R := R) (e := e) (f := f) (mk := .typedef) (ns := [.name pos]) (data := NamedTidData.new cfg fh th) hk hf hE hpos (by omega) hv
      (fun hfit => by rw [hk]; exact named _)
    rw [hk] at this; exact this
  | TypeTag =>
    have := meets_defineType (R := R) (e := e) (f := f) (mk := .typeTag) (ns := [.name pos]) (data := NamedTidData.new cfg fh th) hk hf hE hpos (by omega) hv
      (fun hfit => by rw [hk]; exact named _)
    rw [hk] at this; exact this
  | Func =>
    have := meets_defineType (R := R) (e := e) (f := f) (mk := .func) (ns := [.name pos]) (data := FuncData.new cfg fh th) hk hf hE hpos (by omega) hv
      (fun hfit => by rw [hk]; exact named _)
    rw [hk] at this; exact this
  | Float =>
    have := meets_defineType (R := R) (e := e) (f := f) (mk := .float) (ns := [.name pos]) (data := FloatData.new cfg fh th) hk hf hE hpos (by omega) hv
      (fun hfit => by rw [hk]; exact named _)
    rw [hk] at this; exact this
  | Array =>
    have := meets_defineType (R := R) (e := e) (f := f) (mk := .array) (ns := [.bytes (pos + 12) 4, .bytes (pos + 12 + 4) 4, .bytes (pos + 12 + 4 + 4) 4]) (data := ArrayData.new cfg) hk hf hE hpos (by omega) hv
      (fun hfit => by
        rw [hk]
        refine meets_bind (ns := [_]) (ns' := [_, _]) (meets_u32 (by omega)) fun _ _ => ?_
        refine meets_bind (ns := [_]) (ns' := [_]) (meets_u32 (by omega)) fun _ _ => ?_
        exact meets_bind (ns := [_]) (ns' := []) (meets_u32 (by omega)) fun _ _ => meets_pure trivial)
    rw [hk] at this; exact this
  | Struct =>
    have := meets_defineType (R := R) (e := e) (f := f) (mk := .struct) (data := StructData.new cfg fh th) hk hf hE hpos (by omega) hv
      (fun hfit => by
        rw [hk] at hfit ⊢
        simp only [boundedSize, bodySize] at hfit ⊢
        exact listed _ (meets_items th.vlen (pos + 12) fun p h1 h2 => meets_member hf (by omega)))
    rw [hk] at this; exact this
  | Union =>
    have := meets_defineType (R := R) (e := e) (f := f) (mk := .union) (data := StructData.new cfg fh th) hk hf hE hpos (by omega) hv
      (fun hfit => by
        rw [hk] at hfit ⊢
        simp only [boundedSize, bodySize] at hfit ⊢
        exact listed _ (meets_items th.vlen (pos + 12) fun p h1 h2 => meets_member hf (by omega)))
    rw [hk] at this; exact this
  | Enum =>
    have := meets_defineType (R := R) (e := e) (f := f) (mk := .enum) (data := EnumData.new cfg fh th) hk hf hE hpos (by omega) hv
      (fun hfit => by
        rw [hk] at hfit ⊢
        simp only [boundedSize, bodySize] at hfit ⊢
        exact listed _ (meets_items th.vlen (pos + 12) fun p h1 h2 => meets_value32 hf (by omega)))
    rw [hk] at this; exact this
  | Enum64 =>
    have := meets_defineType (R := R) (e := e) (f := f) (mk := .enum64) (data := Enum64Data.new cfg fh th) hk hf hE hpos (by omega) hv
      (fun hfit => by
        rw [hk] at hfit ⊢
        simp only [boundedSize, bodySize] at hfit ⊢
        exact listed _ (meets_items th.vlen (pos + 12) fun p h1 h2 => meets_value64 hf (by omega)))
    rw [hk] at this; exact this
  | DataSec =>
    have := meets_defineType (R := R) (e := e) (f := f) (mk := .dataSec) (data := DataSecData.new cfg fh th) hk hf hE hpos (by omega) hv
      (fun hfit => by
        rw [hk] at hfit ⊢
        simp only [boundedSize, bodySize] at hfit ⊢
        exact listed _ (meets_items th.vlen (pos + 12) fun p h1 h2 => meets_variable (by omega)))
    rw [hk] at this; exact this
  | FuncProto =>
    have := meets_defineType (R := R) (e := e) (f := f) (mk := .funcProto) (data := FuncProtoData.new cfg fh th) hk hf hE hpos (by omega) hv
      (fun hfit => by
        rw [hk] at hfit ⊢
        simp only [boundedSize, bodySize] at hfit ⊢
        exact meets_bind (ns' := []) (meets_items th.vlen (pos + 12) fun p h1 h2 => meets_parameter hf (by omega)) fun _ _ => meets_pure trivial)
    rw [hk, List.append_nil] at this; exact this

theorem meets_header (hf : Fits cfg fh) (hE : typeEnd fh < 2 ^ 32) (hpos : pos ≤ typeEnd fh) :
    Meets cfg R f e ask pos (Header.new cfg fh) (recordNeeds pos) (pos + 12) (fun th => HeaderAt f e pos th ∧ pos + 12 ≤ typeEnd fh) := by
  obtain ⟨s, t, hs, ht, hs', ht'⟩ := section_ok hE
  have hfit := hf.type hE
  unfold Header.new recordNeeds
  refine meets_step (a := s) (fun r hr => by rw [P.lift, hs]; rfl) ?_
  refine meets_step (a := t) (fun r hr => by rw [P.lift, ht]; rfl) ?_
  refine meets_step (a := pos) (fun r hr => by rw [getOffset, hr.offset]) ?_
  refine meets_step (a := pos + 12) (fun r hr => by rw [P.lift, usizeAdd_lt (by unfold TYPE_HEADER_SIZE; omega)]; rfl) ?_
  by_cases hlen : pos + 12 ≤ typeEnd fh
  · rw [if_neg (by omega)]
    have hin : ∀ q, ¬ (ask (.inside (pos + 12))) q := by rintro q ⟨-, h⟩; omega
    intro r hR hat
    have key : Meets cfg R f e ask pos (do
        let nameOffset ← u32 cfg
        let infoFlags ← u32 cfg
        let vlen := (infoFlags &&& 0xFFFF).toNat
        let kind ← P.lift (Kind.new ((infoFlags &&& 0x1F000000) >>> 24))
        let kindFlag := (infoFlags &&& 0x80000000) != 0
        let sizeOrType ← u32 cfg
        return ({ kind, nameOffset, vlen, kindFlag, sizeOrType } : Header))
        [.bytes pos 4, .bytes (pos + 4) 4, .kind (pos + 4), .bytes (pos + 8) 4] (pos + 12)
        (fun th => HeaderAt f e pos th ∧ pos + 12 ≤ typeEnd fh) := by
      refine meets_bind (ns := [_]) (ns' := [_, _, _]) (meets_u32 (by omega)) fun w hw => ?_
      refine meets_bind (ns := [_]) (ns' := [_, _]) (meets_u32 (by omega)) fun info hi => ?_
      refine meets_bind (ns := [_]) (ns' := [_]) (mid := pos + 4 + 4) (Q := fun k => kindCode k = info.toNat / 2 ^ 24 % 32) ?_ fun k hk => ?_
      · intro r hR hat
        unfold P.lift
        rcases kind_new_returns ((info &&& 0x1F000000) >>> 24) with ⟨k, h⟩ | h
        · rw [h]
          have hk := kind_new_ok.1 h
          rw [info_kind] at hk
          refine .inl ⟨k, r, rfl, hR, hat, hk, fun m hm q => ?_⟩
          obtain rfl := List.mem_singleton.1 hm
          rintro ⟨info', value, -, hw', hv, hno⟩
          rw [word_unique hw' hi] at hv
          exact hno k (hk.trans hv.symm)
        · rw [h]
          refine .inr ⟨_, r, rfl, first_one ⟨info, _, rfl, hi, info_kind info, fun k hk => ?_⟩⟩
          rw [← kind_new_ok, h] at hk
          cases hk
      · refine meets_bind (ns := [_]) (ns' := []) (meets_u32 (by omega)) fun sz hsz => meets_pure ⟨⟨hw, hsz, info, hi, hk, info_vlen info, info_flag info⟩, hlen⟩
    rcases key r hR hat with ⟨a, r', h1, h2, h3, h4, h5⟩ | ⟨q, r', h1, h2⟩
    · refine .inl ⟨a, r', h1, h2, h3, h4, fun n hn => ?_⟩
      rcases List.mem_cons.1 hn with rfl | hn
      · exact hin
      · exact h5 n hn
    · refine .inr ⟨q, r', h1, first_prepend (ns := [_]) h2 fun n hn => ?_⟩
      obtain rfl := List.mem_singleton.1 hn
      exact hin
  · rw [if_pos (by omega)]
    intro r hR hat
    exact .inr ⟨_, r, rfl, [], _, _, rfl, by simp, rfl, by omega⟩

/-- The first flaw of the record at `pos`. -/
def RecFirst (R : Readable) (f : List UInt8) (e : Endianness) (fh : FileHeader) (pos : Nat) (q : LoadReason) : Prop :=
  First (Need.unmet R f e fh) (recordNeeds pos) q ∨
  pos + 12 ≤ typeEnd fh ∧ ∃ th, HeaderAt f e pos th ∧ First (Need.unmet R f e fh) (bodyNeeds th pos) q

theorem record_err (hf : Fits cfg fh) (hE : typeEnd fh < 2 ^ 32) (hpos : pos ≤ typeEnd fh) (hs : typeStart fh ≤ pos)
    {r r' : Reader} (hR : r.readable = R) (hat : At cfg f e pos r) {q : LoadReason}
    (h : (Header.new cfg fh >>= fun th => parseType cfg fh th) r = (.err q, r')) : RecFirst R f e fh pos q := by
  change P.bind _ _ r = _ at h
  unfold P.bind at h
  rcases meets_header hf hE hpos r hR hat with ⟨th, r1, h1, h2, h3, ⟨h4, h5⟩, -⟩ | ⟨q', r1, h1, h2⟩
  · rw [h1] at h
    simp only [] at h
    rcases meets_parseType hf hE h5 hs h4 r1 h2 h3 with ⟨v, r2, g1, -⟩ | ⟨q', r2, g1, g2⟩
    · rw [g1] at h; cases h
    · rw [g1] at h; cases h
      exact .inr ⟨h5, th, h4, g2⟩
  · rw [h1] at h; cases h
    exact .inl h2

theorem loop_err (hf : Fits cfg fh) (hE : typeEnd fh < 2 ^ 32) (fuel : Nat) :
    ∀ pos tid ti r r' q, typeStart fh ≤ pos → r.readable = R → At cfg f e pos r →
      parseLoop cfg fh (typeEnd fh) fuel tid ti r = (.err q, r') →
      ∃ vs p, Records .crate f e fh pos vs p ∧ p < typeEnd fh ∧ RecFirst R f e fh p q := by
  induction fuel with
  | zero => intro pos tid ti r r' q _ _ _ h; cases h
  | succ fuel ih =>
    intro pos tid ti r r' q hs hR hat h
    unfold parseLoop at h
    change P.bind getOffset _ r = _ at h
    unfold P.bind getOffset at h
    simp only [] at h
    rw [hat.offset] at h
    by_cases hpos : pos < typeEnd fh
    · rw [if_pos hpos, bind_assoc'] at h
      change P.bind _ _ r = _ at h
      unfold P.bind at h
      have hrd := ((Prog.bind (prog_header (⟨Nat.le_refl _, .inr rfl⟩ : Stricter cfg cfg) fh) fun th =>
        prog_parseType (⟨Nat.le_refl _, .inr rfl⟩ : Stricter cfg cfg) fh th).discipline r).readable
      rcases (correct_record (f := f) (e := e) hf hE (show pos ≤ typeEnd fh by omega) hs).run r hat with ⟨v, r1, n, h1, h2, h3⟩ | ⟨k, r1, h1, -, -⟩
      · rw [h1] at h hrd
        simp only [] at h hrd
        change P.bind _ _ _ = _ at h
        unfold P.bind P.lift at h
        have hn := record_next h2
        cases hu : cfg.u32Add (ε := LoadReason) tid 1 with
        | ok t =>
          rw [hu] at h
          obtain ⟨vs, p, g1, g2, g3⟩ := ih n t _ r1 r' q (by omega) (hrd.trans hR) h3 h
          exact ⟨v :: vs, p, .cons h2 g1, g2, g3⟩
        | err x =>
          exfalso
          unfold Cfg.u32Add Cfg.wrapOr at hu
          by_cases h1 : tid.toNat + UInt32.toNat 1 < 2 ^ 32
          · rw [if_pos h1] at hu; cases hu
          · rw [if_neg h1] at hu
            cases hc : cfg.overflowChecks <;> rw [hc] at hu <;> cases hu
        | panic => rw [hu] at h; cases h
        | nofuel => rw [hu] at h; cases h
      · have hr := h1
        rw [h1] at h
        cases h
        exact ⟨[], pos, .nil, hpos, record_err hf hE (by omega) hs hR hat hr⟩
    · rw [if_neg hpos] at h; cases h

/-! ### The file header -/

theorem meets_fields (e : Endianness) :
    Meets cfg R f e (HeaderNeed.unmet R f) 2 (do
      let version ← u8 cfg
      let flags ← u8 cfg
      let hdrLen ← u32 cfg
      let typeOff ← u32 cfg
      let typeLen ← u32 cfg
      let strOff ← u32 cfg
      let strLen ← u32 cfg
      return ({ version, flags, hdrLen, typeOff, typeLen, strOff, strLen } : FileHeader))
      [.bytes 2 1, .bytes 3 1, .bytes 4 4, .bytes 8 4, .bytes 12 4, .bytes 16 4, .bytes 20 4] 24 (fun _ => True) := by
  have hu := usizeMod_ge cfg
  refine meets_bind (ns := [_]) (ns' := [_, _, _, _, _, _]) (meets_u8' (fun _ => Iff.rfl) (by omega)) fun _ _ => ?_
  refine meets_bind (ns := [_]) (ns' := [_, _, _, _, _]) (meets_u8' (fun _ => Iff.rfl) (by omega)) fun _ _ => ?_
  refine meets_bind (ns := [_]) (ns' := [_, _, _, _]) (meets_u32' (fun _ => Iff.rfl) (by omega)) fun _ _ => ?_
  refine meets_bind (ns := [_]) (ns' := [_, _, _]) (meets_u32' (fun _ => Iff.rfl) (by omega)) fun _ _ => ?_
  refine meets_bind (ns := [_]) (ns' := [_, _]) (meets_u32' (fun _ => Iff.rfl) (by omega)) fun _ _ => ?_
  refine meets_bind (ns := [_]) (ns' := [_]) (meets_u32' (fun _ => Iff.rfl) (by omega)) fun _ _ => ?_
  refine meets_bind (ns := [_]) (ns' := []) (meets_u32' (fun _ => Iff.rfl) (by omega)) fun _ _ => ?_
  exact meets_pure trivial

theorem header_err {r r' : Reader} (hR : r.readable = R) (hr : At cfg f .little 0 r) {q : LoadReason}
    (h : FileHeader.new cfg r = (.err q, r')) : First (HeaderNeed.unmet R f) headerNeeds q := by
  have hu := usizeMod_ge cfg
  unfold FileHeader.new at h
  change P.bind _ _ r = _ at h
  unfold P.bind setOffset at h
  simp only [] at h
  have hr0 : At cfg f .little 0 { r with offset := 0 } := ⟨hr.serves, hr.endianness, rfl⟩
  have hR0 : ({ r with offset := 0 } : Reader).readable = R := hR
  generalize { r with offset := 0 } = r0 at hr0 hR0 h
  change P.bind _ _ r0 = _ at h
  unfold P.bind at h
  rcases meets_int (N := HeaderNeed) (unmet := HeaderNeed.unmet R f) (need := .bytes 0 2) (n := 2) (pos := 0) (cfg := cfg)
      (fun _ => Iff.rfl) (by decide) (by omega) UInt16.ofNat r0 hR0 hr0 with
    ⟨m, r1, h1, hR1, hat, ⟨v, hv, rfl⟩, hmet⟩ | ⟨q', r1, h1, h2⟩
  · have hrun : FileHeader.detectEndianness cfg r0 =
        (if UInt16.ofNat v = 0xEB9F then setEndianness .little
         else if UInt16.ofNat v = 0x9FEB then setEndianness .big else P.fail (.invalidMagic (UInt16.ofNat v)) : P Unit) r1 := by
      unfold FileHeader.detectEndianness
      change P.bind (u16 cfg) _ r0 = _
      unfold P.bind
      have : u16 cfg r0 = (.ok (UInt16.ofNat v), r1) := h1
      rw [this]
    rw [hrun] at h
    have hlt := intAt_lt hv
    obtain ⟨hl, hv⟩ := hv
    have hend : ∀ e (r2 : Reader), r2.readable = R → At cfg f e 2 r2 → f.take 2 = magic e → (do
      let version ← u8 cfg
      let flags ← u8 cfg
      let hdrLen ← u32 cfg
      let typeOff ← u32 cfg
      let typeLen ← u32 cfg
      let strOff ← u32 cfg
      let strLen ← u32 cfg
      return ({ version, flags, hdrLen, typeOff, typeLen, strOff, strLen } : FileHeader) : P FileHeader) r2 = (.err q, r') →
        First (HeaderNeed.unmet R f) headerNeeds q := by
      intro e r2 hR2 hat2 hm hrun2
      rcases meets_fields (cfg := cfg) (R := R) (f := f) e r2 hR2 hat2 with ⟨a, r3, g1, -⟩ | ⟨q', r3, g1, g2⟩
      · rw [hrun2] at g1; cases g1
      · rw [hrun2] at g1; cases g1
        refine first_append (ns' := [.typeStart, .typeEnd]) (first_prepend (ns := [.bytes 0 2, .magic]) g2 fun n hn => ?_)
        rcases List.mem_cons.1 hn with rfl | hn
        · exact hmet _ (by simp)
        · obtain rfl := List.mem_singleton.1 hn
          rintro q' ⟨v', -, hno, -⟩
          exact hno e hm
    match f, hl with
    | b0 :: b1 :: rest, _ =>
      have hv' : v = b0.toNat + 256 * b1.toNat := by simpa [intOf] using hv
      have h0 := b0.toNat_lt
      have h1' := b1.toNat_lt
      have hvn : (UInt16.ofNat v).toNat = v := by simp [UInt16.toNat_ofNat']; omega
      have key : ∀ (c : UInt16) (x0 x1 : UInt8), c.toNat = x0.toNat + 256 * x1.toNat →
          (UInt16.ofNat v = c ↔ (b0 :: b1 :: rest).take 2 = [x0, x1]) := by
        intro c x0 x1 hc
        have hx0 := x0.toNat_lt
        have hx1 := x1.toNat_lt
        rw [← UInt16.toNat_inj, hvn, hc]
        simp only [List.take_succ_cons, List.take_zero, List.cons.injEq, and_true]
        rw [← UInt8.toNat_inj, ← UInt8.toNat_inj]
        omega
      have kl := key 0xEB9F 0x9F 0xEB (by decide)
      have kb := key 0x9FEB 0xEB 0x9F (by decide)
      by_cases hl : UInt16.ofNat v = 0xEB9F
      · rw [if_pos hl] at h
        exact hend .little { r1 with endianness := .little } hR1 ⟨hat.serves, rfl, hat.offset⟩ (kl.1 hl) h
      · rw [if_neg hl] at h
        by_cases hb : UInt16.ofNat v = 0x9FEB
        · rw [if_pos hb] at h
          exact hend .big { r1 with endianness := .big } hR1 ⟨hat.serves, rfl, hat.offset⟩ (kb.1 hb) h
        · rw [if_neg hb] at h
          have hno : ∀ e, (b0 :: b1 :: rest).take 2 ≠ magic e := by
            intro e he
            cases e with
            | little => exact hl (kl.2 he)
            | big => exact hb (kb.2 he)
          cases h
          refine ⟨[.bytes 0 2], .magic, _, rfl, hmet, _, rfl, hno, ?_, ?_⟩
          · rw [hvn, hv', show (b0.toNat + 256 * b1.toNat) % 256 = b0.toNat by omega]; simp
          · rw [hvn, hv', show (b0.toNat + 256 * b1.toNat) / 256 = b1.toNat by omega]; simp
  · have hrun : FileHeader.detectEndianness cfg r0 = (.err q', r1) := by
      unfold FileHeader.detectEndianness
      change P.bind (u16 cfg) _ r0 = _
      unfold P.bind
      have : u16 cfg r0 = (.err q', r1) := h1
      rw [this]
    rw [hrun] at h
    cases h
    exact first_append h2

/-- With a header that decodes, only the place of the type section can be wrong. -/
theorem header_met {e : Endianness} {fh : FileHeader} (hp : Preamble f e fh) :
    ∀ n ∈ [HeaderNeed.bytes 0 2, .magic, .bytes 2 1, .bytes 3 1, .bytes 4 4, .bytes 8 4, .bytes 12 4, .bytes 16 4, .bytes 20 4],
      ∀ q, ¬ n.unmet R f q := by
  have hlen : 24 ≤ f.length := hp.strLen.1
  intro n hn q
  simp only [List.mem_cons, List.not_mem_nil, or_false] at hn
  rcases hn with rfl | rfl | rfl | rfl | rfl | rfl | rfl | rfl | rfl
  case inr.inl => rintro ⟨v, -, h, -⟩; exact h e hp.magic
  all_goals rintro ⟨h, -⟩; omega

/-- The error is the first flaw. -/
theorem newT_first {R : Readable} (hS : Serves cfg R f) (hfit : ∀ e fh, Preamble f e fh → Fits cfg fh) {q : LoadReason}
    (h : TypeInformation.newT cfg R = .err q) : FirstFlaw R f q := by
  unfold TypeInformation.newT TypeInformation.newP at h
  change (P.bind _ _ _).1 = _ at h
  have hr : At cfg f .little 0 (Reader.new R) := ⟨hS, rfl, rfl⟩
  have hR : (Reader.new R).readable = R := rfl
  have hrd := ((prog_fileHeader (⟨Nat.le_refl _, .inr rfl⟩ : Stricter cfg cfg)).discipline (Reader.new R)).readable
  rw [hR] at hrd
  generalize Reader.new R = r at hr hR h hrd
  unfold P.bind at h
  rcases header_file (cfg := cfg) hr with ⟨e, fh, r1, h1, hp, hat⟩ | ⟨k, r1, h1, hno, hk⟩
  · rw [h1] at h hrd
    simp only [] at h hrd
    have hf := hfit e fh hp
    have hu := usizeMod_ge cfg
    change (P.bind _ _ _).1 = _ at h
    unfold P.bind P.lift at h
    cases hs : u32CheckedAdd fh.hdrLen fh.typeOff with
    | none =>
      rw [hs] at h
      rw [u32CheckedAdd_eq_none] at hs
      cases h
      exact .header ⟨_, .typeStart, [.typeEnd], rfl, header_met hp, rfl, e, fh, hp, hs⟩
    | some s =>
      rw [hs] at h
      rw [u32CheckedAdd_eq_some] at hs
      have hst : s.toNat = typeStart fh := hs
      have hslt := s.toNat_lt
      have hend : 2 ^ 32 ≤ typeEnd fh → FirstFlaw R f .typeSectionEnd := fun hE =>
        .header ⟨[.bytes 0 2, .magic, .bytes 2 1, .bytes 3 1, .bytes 4 4, .bytes 8 4, .bytes 12 4, .bytes 16 4, .bytes 20 4] ++ [.typeStart],
          .typeEnd, [], rfl, fun n hn => by
            rcases List.mem_append.1 hn with hn | hn
            · exact header_met hp n hn
            · obtain rfl := List.mem_singleton.1 hn
              rintro q' ⟨-, e', fh', hp', h'⟩
              obtain ⟨rfl, rfl⟩ := preamble_unique hp hp'
              omega, rfl, e, fh, hp, hE⟩
      simp only [okOr] at h
      change (P.bind _ _ _).1 = _ at h
      unfold P.bind at h
      rw [hst] at h
      unfold Cfg.usizeCheckedAdd at h
      by_cases hadd : typeStart fh + fh.typeLen.toNat < cfg.usizeMod
      · rw [if_pos hadd] at h
        simp only [] at h
        change (P.bind (setOffset _) _ _).1 = _ at h
        unfold P.bind setOffset at h
        simp only [] at h
        change (parseLoop cfg fh (typeEnd fh) _ _ _ _).1 = _ at h
        have hat' : At cfg f e (typeStart fh) { r1 with offset := typeStart fh } := ⟨hat.serves, hat.endianness, rfl⟩
        by_cases hE : typeEnd fh < 2 ^ 32
        · generalize hrun : parseLoop cfg fh (typeEnd fh) _ _ _ _ = res at h
          obtain ⟨o, r2⟩ := res
          cases h
          obtain ⟨vs, p, g1, g2, g3⟩ := loop_err hf hE _ _ _ _ _ _ _ (Nat.le_refl _) (by exact hrd) hat' hrun
          rcases g3 with g3 | ⟨g4, th, g5, g6⟩
          · exact .record hp hE g1 g2 g3
          · exact .body hp hE g1 g4 g5 g6
        · have hE' : 2 ^ 32 ≤ typeEnd fh := by omega
          rw [loop_overflow hE' (by omega) _ _ _ (by show typeStart fh < typeEnd fh; omega)] at h
          cases h
          exact hend hE'
      · rw [if_neg hadd] at h
        cases h
        exact hend (by unfold typeEnd; omega)
  · rw [h1] at h
    cases h
    exact .header (header_err hR hr h1)

/-! ### There is only one first flaw -/

theorem missing_unique (hd : SameWords R) {pos n : Nat} {q q' : LoadReason} (h : Missing R f pos n q) (h' : Missing R f pos n q') :
    q = q' := by
  obtain ⟨-, _, x, hx, rfl⟩ := h
  obtain ⟨-, _, x', hx', rfl⟩ := h'
  rw [hd _ _ _ _ _ _ hx hx']

theorem first_unique {N : Type} {unmet : N → LoadReason → Prop} (hu : ∀ n q q', unmet n q → unmet n q' → q = q') {ns : List N}
    {q q' : LoadReason} (h : First unmet ns q) (h' : First unmet ns q') : q = q' := by
  obtain ⟨a, n, b, rfl, h1, h2⟩ := h
  obtain ⟨a', n', b', he, h1', h2'⟩ := h'
  have key : ∀ (a a' : List N), a ++ n :: b = a' ++ n' :: b' → (∀ m ∈ a, ∀ q, ¬ unmet m q) → (∀ m ∈ a', ∀ q, ¬ unmet m q) → n = n' := by
    intro a
    induction a with
    | nil =>
      intro a' he _ ha'
      cases a' with
      | nil => exact (List.cons.inj he).1
      | cons x a' =>
        obtain ⟨rfl, -⟩ := List.cons.inj he
        exact absurd h2 (ha' _ (by simp) _)
    | cons y a ih =>
      intro a' he ha ha'
      cases a' with
      | nil =>
        obtain ⟨rfl, -⟩ := List.cons.inj he
        exact absurd h2' (ha _ (by simp) _)
      | cons x a' =>
        exact ih a' (List.cons.inj he).2 (fun m hm => ha m (by simp [hm])) (fun m hm => ha' m (by simp [hm]))
  obtain rfl := key a a' he h1 h1'
  exact hu _ _ _ h2 h2'

theorem first_some {N : Type} {unmet : N → LoadReason → Prop} {ns : List N} {q : LoadReason} (h : First unmet ns q)
    (hm : ∀ n ∈ ns, ∀ q, ¬ unmet n q) : False := by
  obtain ⟨a, n, b, rfl, -, h2⟩ := h
  exact hm n (by simp) q h2

theorem headerUnmet_unique (hd : SameWords R) (n : HeaderNeed) (q q' : LoadReason) (h : n.unmet R f q) (h' : n.unmet R f q') : q = q' := by
  cases n with
  | bytes pos n => exact missing_unique hd h h'
  | magic =>
    obtain ⟨v, rfl, -, h1, h2⟩ := h
    obtain ⟨v', rfl, -, h1', h2'⟩ := h'
    have e1 := congrArg UInt8.toNat (Option.some.inj (h1.symm.trans h1'))
    have e2 := congrArg UInt8.toNat (Option.some.inj (h2.symm.trans h2'))
    have := v.toNat_lt
    have := v'.toNat_lt
    simp only [UInt8.toNat_ofNat'] at e1 e2
    congr 1
    rw [← UInt16.toNat_inj]
    omega
  | typeStart => rw [h.1, h'.1]
  | typeEnd => rw [h.1, h'.1]

theorem badString_unique (hd : SameWords R) {off : UInt32} {q q' : LoadReason} (h : BadString R f fh off q) (h' : BadString R f fh off q') :
    q = q' := by
  have huniq : ∀ x y : UInt32, x.toNat = y.toNat → x = y := fun x y h => UInt32.toNat_inj.1 h
  obtain ⟨h, hm⟩ := h
  obtain ⟨h', hm'⟩ := h'
  have hse : strStart fh ≤ strEnd fh := by unfold strEnd; omega
  rcases h with h1 | ⟨h1, h2⟩ | ⟨h1, h2⟩ | @⟨p, h1, h2, h3⟩ | @⟨p, h1, h2, h3, h4⟩ | ⟨h1, h2, h3, h4⟩ <;>
    rcases h' with g1 | ⟨g1, g2⟩ | ⟨g1, g2⟩ | @⟨p', g1, g2, g3⟩ | @⟨p', g1, g2, g3, g4⟩ | ⟨g1, g2, g3, g4⟩ <;>
    (try have hp := p.toNat_lt) <;> (try have hp' := p'.toNat_lt) <;> try first | rfl | (exfalso; omega)
  · congr 1; exact huniq _ _ (by omega)
  · congr 1; exact huniq _ _ (by omega)
  · obtain ⟨b, hb, -⟩ := h4 (max f.length p.toNat) (by omega) (by omega)
    have := (List.getElem?_eq_some_iff.1 hb).1
    omega
  · obtain ⟨b, hb, -⟩ := g4 (max f.length p'.toNat) (by omega) (by omega)
    have := (List.getElem?_eq_some_iff.1 hb).1
    omega
  · exact missing_unique hd (hm _ rfl) (hm' _ rfl)

theorem unmet_unique (hd : SameWords R) (n : Need) (q q' : LoadReason) (h : n.unmet R f e fh q) (h' : n.unmet R f e fh q') : q = q' := by
  cases n with
  | bytes pos n => exact missing_unique hd h h'
  | inside pos => rw [h.1, h'.1]
  | kind pos =>
    obtain ⟨i, v, rfl, h1, h2, -⟩ := h
    obtain ⟨i', v', rfl, h1', h2', -⟩ := h'
    obtain rfl := word_unique h1 h1'
    congr 1
    rw [← UInt32.toNat_inj]
    omega
  | string pos =>
    obtain ⟨o, h1, h2⟩ := h
    obtain ⟨o', h1', h2'⟩ := h'
    obtain rfl := word_unique h1 h1'
    exact badString_unique hd h2 h2'
  | name pos =>
    obtain ⟨o, h1, -, h2⟩ := h
    obtain ⟨o', h1', -, h2'⟩ := h'
    obtain rfl := word_unique h1 h1'
    exact badString_unique hd h2 h2'
  | aligned pos => rw [h.1, h'.1]

/-- A record whose header decodes meets the needs of the header. -/
theorem record_met {th : Header} (h : HeaderAt f e pos th) (hlen : pos + 12 ≤ typeEnd fh) :
    ∀ n ∈ recordNeeds pos, ∀ q, ¬ n.unmet R f e fh q := by
  obtain ⟨h1, h2, info, h3, h4, -⟩ := h
  have hl : pos + 12 ≤ f.length := h2.1
  intro n hn q
  simp only [recordNeeds, List.mem_cons, List.not_mem_nil, or_false] at hn
  rcases hn with rfl | rfl | rfl | rfl | rfl
  · rintro ⟨-, h⟩; omega
  · rintro ⟨h, -⟩; omega
  · rintro ⟨h, -⟩; omega
  · rintro ⟨i, v, -, g1, g2, g3⟩
    obtain rfl := word_unique h3 g1
    exact g3 _ (h4.trans g2.symm)
  · rintro ⟨h, -⟩; omega

/-- A record with a first flaw does not decode. -/
theorem recFirst_none (hS : Serves cfg R f) (hf : Fits cfg fh) (hE : typeEnd fh < 2 ^ 32) (hpos : pos ≤ typeEnd fh) (hs : typeStart fh ≤ pos)
    {q : LoadReason} (h : RecFirst R f e fh pos q) (v : TypeVariant) (n : Nat) : ¬ RecordAt .crate f e fh pos v n := by
  have hat : At cfg f e pos { Reader.new R with offset := pos, endianness := e } := ⟨hS, rfl, rfl⟩
  have hR : ({ Reader.new R with offset := pos, endianness := e } : Reader).readable = R := rfl
  generalize ({ Reader.new R with offset := pos, endianness := e } : Reader) = r at hat hR
  have : ∃ q' r', (Header.new cfg fh >>= fun th => parseType cfg fh th) r = (.err q', r') := by
    change ∃ q' r', P.bind _ _ r = _
    unfold P.bind
    rcases meets_header hf hE hpos r hR hat with ⟨th, r1, h1, h2, h3, ⟨h4, h5⟩, h6⟩ | ⟨q', r1, h1, h2⟩
    · rw [h1]
      simp only []
      rcases meets_parseType hf hE h5 hs h4 r1 h2 h3 with ⟨v, r2, g1, -, -, -, g2⟩ | ⟨q', r2, g1, -⟩
      · rcases h with h | ⟨-, th', hth, h⟩
        · exact (first_some h h6).elim
        · cases headerAt_unique h4 hth
          exact (first_some h g2).elim
      · exact ⟨q', r2, g1⟩
    · rw [h1]
      exact ⟨q', r1, rfl⟩
  obtain ⟨q', r', hq⟩ := this
  rcases (correct_record (f := f) (e := e) hf hE hpos hs).run r hat with ⟨v, r1, n, h1, -⟩ | ⟨k, r1, h1, h2, -⟩
  · rw [hq] at h1; cases h1
  · exact h2 v n

theorem records_stop (hE : typeEnd fh < 2 ^ 32) {vs vs' : List TypeVariant} {pos n n' : Nat} (hs : typeStart fh ≤ pos)
    (h : Records .crate f e fh pos vs n) (h' : Records .crate f e fh pos vs' n') (hn : ∀ v m, ¬ RecordAt .crate f e fh n v m)
    (hn' : ∀ v m, ¬ RecordAt .crate f e fh n' v m) : n = n' := by
  induction h generalizing vs' with
  | nil =>
    cases h' with
    | nil => rfl
    | cons h1 _ => exact absurd h1 (hn _ _)
  | cons h1 h2 ih =>
    cases h' with
    | nil => exact absurd h1 (hn' _ _)
    | cons h1' h2' =>
      obtain ⟨rfl, rfl⟩ := record_unique hE hs h1 h1'
      have := record_next h1
      exact ih (by omega) h2' hn

theorem records_le {vs : List TypeVariant} {pos n : Nat} (h : Records .crate f e fh pos vs n) : pos ≤ n := by
  induction h with
  | nil => omega
  | cons h1 _ ih => have := record_next h1; omega

/-- The file has a first flaw in at most one way. -/
theorem firstFlaw_unique (hS : Serves cfg R f) (hfit : ∀ e fh, Preamble f e fh → Fits cfg fh) (hd : SameWords R) {q q' : LoadReason}
    (h : FirstFlaw R f q) (h' : FirstFlaw R f q') : q = q' := by
  have split : ∀ {q}, FirstFlaw R f q → First (HeaderNeed.unmet R f) headerNeeds q ∨ ∃ e fh vs pos, Preamble f e fh ∧ typeEnd fh < 2 ^ 32 ∧
      Records .crate f e fh (typeStart fh) vs pos ∧ pos < typeEnd fh ∧ RecFirst R f e fh pos q := by
    intro q h
    rcases h with h | ⟨hp, hE, h1, h2, h3⟩ | ⟨hp, hE, h1, h2, h3, h4⟩
    · exact .inl h
    · exact .inr ⟨_, _, _, _, hp, hE, h1, h2, .inl h3⟩
    · exact .inr ⟨_, _, _, _, hp, hE, h1, by omega, .inr ⟨h2, _, h3, h4⟩⟩
  have nohead : ∀ {q e fh}, First (HeaderNeed.unmet R f) headerNeeds q → Preamble f e fh → typeEnd fh < 2 ^ 32 → False := by
    intro q e fh h hp hE
    refine first_some h fun n hn => ?_
    have : n ∈ [HeaderNeed.bytes 0 2, .magic, .bytes 2 1, .bytes 3 1, .bytes 4 4, .bytes 8 4, .bytes 12 4, .bytes 16 4, .bytes 20 4] ∨
        n = .typeStart ∨ n = .typeEnd := by
      simpa [headerNeeds, or_assoc] using hn
    rcases this with h | rfl | rfl
    · exact header_met hp n h
    · rintro q ⟨-, e', fh', hp', h⟩
      obtain ⟨rfl, rfl⟩ := preamble_unique hp hp'
      have : typeStart fh ≤ typeEnd fh := by unfold typeEnd; omega
      omega
    · rintro q ⟨-, e', fh', hp', h⟩
      obtain ⟨rfl, rfl⟩ := preamble_unique hp hp'
      omega
  rcases split h with h | ⟨e, fh, vs, pos, hp, hE, h1, h2, h3⟩
  · rcases split h' with h' | ⟨e', fh', vs', pos', hp', hE', -⟩
    · exact first_unique (headerUnmet_unique hd) h h'
    · exact (nohead h hp' hE').elim
  · rcases split h' with h' | ⟨e', fh', vs', pos', hp', hE', h1', h2', h3'⟩
    · exact (nohead h' hp hE).elim
    · obtain ⟨rfl, rfl⟩ := preamble_unique hp hp'
      have hf := hfit _ _ hp
      have hle := records_le h1
      have hle' := records_le h1'
      obtain rfl := records_stop hE (Nat.le_refl _) h1 h1' (recFirst_none hS hf hE (by omega) hle h3) (recFirst_none hS hf hE (by omega) hle' h3')
      rcases h3 with h3 | ⟨h4, th, h5, h6⟩
      · rcases h3' with h3' | ⟨h4', th', h5', h6'⟩
        · exact first_unique (unmet_unique hd) h3 h3'
        · exact (first_some h3 (record_met h5' h4')).elim
      · rcases h3' with h3' | ⟨h4', th', h5', h6'⟩
        · exact (first_some h3' (record_met h5 h4)).elim
        · cases headerAt_unique h5 h5'
          exact first_unique (unmet_unique hd) h6 h6'

/-- A file with a first flaw does not decode. -/
theorem firstFlaw_none (hS : Serves cfg R f) (hfit : ∀ e fh, Preamble f e fh → Fits cfg fh) {q : LoadReason}
    (h : FirstFlaw R f q) (vs : List TypeVariant) : ¬ Decodes .crate f vs := by
  rintro ⟨e, fh, n, hp, hE, hr, hn⟩
  have main : ∀ {e fh vs' pos q}, Preamble f e fh → typeEnd fh < 2 ^ 32 → Records .crate f e fh (typeStart fh) vs pos → typeEnd fh ≤ pos →
      ∀ p, Records .crate f e fh (typeStart fh) vs' p → p < typeEnd fh → RecFirst R f e fh p q → False := by
    intro e fh vs' n q hp hE hr hn p h1 h2 h3
    have hle := records_le h1
    have := records_stop hE (Nat.le_refl _) hr h1 (fun v m hrec => by have := record_next hrec; omega)
      (recFirst_none hS (hfit _ _ hp) hE (by omega) hle h3)
    omega
  rcases h with h | ⟨hp', hE', h1, h2, h3⟩ | ⟨hp', hE', h1, h2, h3, h4⟩
  · obtain ⟨a, m, b, he, -, hm⟩ := h
    have hmem : m ∈ headerNeeds := by rw [he]; simp
    have : m ∈ [HeaderNeed.bytes 0 2, .magic, .bytes 2 1, .bytes 3 1, .bytes 4 4, .bytes 8 4, .bytes 12 4, .bytes 16 4, .bytes 20 4] ∨
        m = .typeStart ∨ m = .typeEnd := by
      simpa [headerNeeds, or_assoc] using hmem
    rcases this with h | rfl | rfl
    · exact header_met hp m h q hm
    · obtain ⟨-, e', fh', hp', h⟩ := hm
      obtain ⟨rfl, rfl⟩ := preamble_unique hp hp'
      have : typeStart fh ≤ typeEnd fh := by unfold typeEnd; omega
      omega
    · obtain ⟨-, e', fh', hp', h⟩ := hm
      obtain ⟨rfl, rfl⟩ := preamble_unique hp hp'
      omega
  · obtain ⟨rfl, rfl⟩ := preamble_unique hp hp'
    exact main hp hE hr hn _ h1 h2 (.inl h3)
  · obtain ⟨rfl, rfl⟩ := preamble_unique hp hp'
    exact main hp hE hr hn _ h1 (by omega) (.inr ⟨h2, _, h3, h4⟩)

/-- The error of `new`, exactly. -/
theorem newT_first_iff (hS : Serves cfg R f) (hfit : ∀ e fh, Preamble f e fh → Fits cfg fh) (hd : SameWords R) {q : LoadReason} :
    TypeInformation.newT cfg R = .err q ↔ FirstFlaw R f q := by
  constructor
  · exact newT_first hS hfit
  · intro h
    rcases newT_file hS hfit with ⟨vs, h1, -⟩ | ⟨q', h1, -⟩
    · exact absurd h1 (firstFlaw_none hS hfit h vs)
    · rw [firstFlaw_unique hS hfit hd h (newT_first hS hfit h1)]
      exact h1

end

end Btf

import Verif.Spec.Trail
import Verif.Proofs.FirstFlaw
import Verif.Proofs.SafeNew
import Verif.Proofs.Buffer

/-!
# The requests of the parser, in order
-/

namespace Btf

open Spec Reader

/-- A request that was answered. -/
def granted (p : Nat × Nat) : ReadEvent := ⟨p.1, p.2, none⟩

/-- The place of a request. -/
def place (ev : ReadEvent) : Nat × Nat := (ev.offset, ev.len)

/-- If `p`, run at `pos`, returns `a`, then it stops at `next`, `Q a`, and it has made the requests for `ns`, in this order; if it fails,
it has made the requests up to the first of `ns` that is not met. -/
structure Trails {α : Type} (cfg : Cfg) (f : List UInt8) (e : Endianness) (fh : FileHeader) (pos : Nat)
    (p : P α) (ns : List Need) (next : Nat) (Q : α → Prop) : Prop where
  ok : ∀ r a r', At cfg f e pos r → p r = (.ok a, r') → At cfg f e next r' ∧ Q a ∧
    ∃ l, AsksAll f e fh ns l ∧ r'.trace = (l.map granted).reverse ++ r.trace
  err : ∀ r q r', At cfg f e pos r → p r = (.err q, r') →
    ∃ l, StopsAt f e fh ns l ∧ r'.trace.map place = l.reverse ++ r.trace.map place

theorem place_granted (l : List (Nat × Nat)) : (l.map granted).map place = l := by
  rw [List.map_map]
  exact List.map_id _

theorem stopsAt_append {f : List UInt8} {e : Endianness} {fh : FileHeader} {ns ns' : List Need} {l : List (Nat × Nat)}
    (h : StopsAt f e fh ns l) : StopsAt f e fh (ns ++ ns') l := by
  induction h with
  | here h => exact .here h
  | later h _ ih => exact .later h ih

theorem stopsAt_prepend {f : List UInt8} {e : Endianness} {fh : FileHeader} {ns ns' : List Need} {l l' : List (Nat × Nat)}
    (h : AsksAll f e fh ns l) (h' : StopsAt f e fh ns' l') : StopsAt f e fh (ns ++ ns') (l ++ l') := by
  induction h with
  | nil => exact h'
  | cons h1 _ ih => rw [List.append_assoc]; exact .later h1 ih

theorem asksAll_append {f : List UInt8} {e : Endianness} {fh : FileHeader} {ns ns' : List Need} {l l' : List (Nat × Nat)}
    (h : AsksAll f e fh ns l) (h' : AsksAll f e fh ns' l') : AsksAll f e fh (ns ++ ns') (l ++ l') := by
  induction h with
  | nil => exact h'
  | cons h1 _ ih => rw [List.append_assoc]; exact .cons h1 ih

theorem asksAll_one {f : List UInt8} {e : Endianness} {fh : FileHeader} {n : Need} {l : List (Nat × Nat)}
    (h : n.asks f e fh l) : AsksAll f e fh [n] l := by
  have := AsksAll.cons h .nil
  rwa [List.append_nil] at this

section
variable {α β : Type} {cfg : Cfg} {f : List UInt8} {e : Endianness} {fh : FileHeader} {pos : Nat}

theorem trails_pure {Q : α → Prop} {a : α} (h : Q a) : Trails cfg f e fh pos (Pure.pure a : P α) [] pos Q := by
  constructor
  · intro r b r' hat hr
    cases hr
    exact ⟨hat, h, [], .nil, rfl⟩
  · intro r q r' hat hr
    cases hr

theorem trails_bind {p : P α} {q : α → P β} {ns ns' : List Need} {mid next : Nat} {Q : α → Prop} {S : β → Prop}
    (hp : Trails cfg f e fh pos p ns mid Q) (hq : ∀ a, Q a → Trails cfg f e fh mid (q a) ns' next S) :
    Trails cfg f e fh pos (p >>= q) (ns ++ ns') next S := by
  constructor
  · intro r b r' hat hr
    change P.bind p q r = _ at hr
    unfold P.bind at hr
    cases hpr : p r with
    | mk o r1 =>
      rw [hpr] at hr
      cases o with
      | ok a =>
        obtain ⟨h1, h2, l, h3, h4⟩ := hp.ok r a r1 hat hpr
        obtain ⟨g1, g2, l', g3, g4⟩ := (hq a h2).ok r1 b r' h1 hr
        exact ⟨g1, g2, l ++ l', asksAll_append h3 g3, by rw [g4, h4]; simp⟩
      | _ => cases hr
  · intro r x r' hat hr
    change P.bind p q r = _ at hr
    unfold P.bind at hr
    cases hpr : p r with
    | mk o r1 =>
      rw [hpr] at hr
      cases o with
      | ok a =>
        obtain ⟨h1, h2, l, h3, h4⟩ := hp.ok r a r1 hat hpr
        obtain ⟨l', g3, g4⟩ := (hq a h2).err r1 x r' h1 hr
        refine ⟨l ++ l', stopsAt_prepend h3 g3, ?_⟩
        rw [g4, h4, List.map_append, List.map_reverse, place_granted, List.reverse_append, List.append_assoc]
      | err y =>
        cases hr
        obtain ⟨l, h1, h2⟩ := hp.err r x r' hat hpr
        exact ⟨l, stopsAt_append h1, h2⟩
      | _ => cases hr

theorem trails_step {p : P α} {q : α → P β} {ns : List Need} {next : Nat} {S : β → Prop} {a : α}
    (hp : ∀ r, At cfg f e pos r → p r = (.ok a, r)) (hq : Trails cfg f e fh pos (q a) ns next S) :
    Trails cfg f e fh pos (p >>= q) ns next S := by
  constructor
  · intro r b r' hat hr
    change P.bind p q r = _ at hr
    unfold P.bind at hr
    rw [hp r hat] at hr
    exact hq.ok r b r' hat hr
  · intro r b r' hat hr
    change P.bind p q r = _ at hr
    unfold P.bind at hr
    rw [hp r hat] at hr
    exact hq.err r b r' hat hr

/-- A need that takes no requests. -/
theorem trails_cons {p : P α} {n : Need} {ns : List Need} {next : Nat} {Q : α → Prop} (hn : n.asks f e fh [])
    (h : Trails cfg f e fh pos p ns next Q) : Trails cfg f e fh pos p (n :: ns) next Q := by
  constructor
  · intro r a r' hat hr
    obtain ⟨h1, h2, l, h3, h4⟩ := h.ok r a r' hat hr
    exact ⟨h1, h2, l, .cons hn h3, h4⟩
  · intro r a r' hat hr
    obtain ⟨l, h3, h4⟩ := h.err r a r' hat hr
    exact ⟨l, .later hn h3, h4⟩

/-- A step that makes no requests, and checks one need. -/
theorem trails_quiet {p : P α} {n : Need} {A : α → Nat → Prop} {E : LoadReason → Prop} {Q : α → Prop}
    (h : Correct cfg f e pos p A E) (hq : ∀ r, (p r).2.trace = r.trace) (hA : ∀ a k, A a k → k = pos ∧ Q a ∧ n.asks f e fh [])
    (hE : ∀ q, E q → n.stops f e fh []) : Trails cfg f e fh pos p [n] pos Q := by
  constructor
  · intro r a r' hat hr
    rcases h.run r hat with ⟨a', r1, k, h1, h2, h3⟩ | ⟨k, r1, h1, -⟩
    · rw [hr] at h1
      cases h1
      obtain ⟨rfl, h5, h6⟩ := hA a k h2
      have := hq r
      rw [hr] at this
      exact ⟨h3, h5, [], asksAll_one h6, this⟩
    · rw [hr] at h1; cases h1
  · intro r q r' hat hr
    rcases h.run r hat with ⟨a', r1, k, h1, h2, h3⟩ | ⟨k, r1, h1, -, h2⟩
    · rw [hr] at h1; cases h1
    · rw [hr] at h1
      cases h1
      have := hq r
      rw [hr] at this
      exact ⟨[], .here (hE _ h2), by rw [this]; rfl⟩

theorem read_granted {n : Nat} {r r' : Reader} {b : Nat → UInt8} (hr : At cfg f e pos r) (h : Reader.read cfg n r = (.ok b, r')) :
    r'.trace = granted (pos, n) :: r.trace := by
  unfold Reader.read at h
  rw [hr.offset] at h
  cases hread : r.readable.read r.trace pos n with
  | error x => rw [hread] at h; cases h
  | ok b =>
    rw [hread] at h
    simp only [] at h
    split at h <;> cases h
    rfl

theorem request_missing {n : Nat} {r r' : Reader} {q : LoadReason} (hr : At cfg f e pos r) (h : Reader.read cfg n r = (.err q, r')) :
    r'.trace.map place = (pos, n) :: r.trace.map place := by
  unfold Reader.read at h
  rw [hr.offset] at h
  cases hread : r.readable.read r.trace pos n with
  | error x => rw [hread] at h; cases h; rfl
  | ok b =>
    rw [hread] at h
    simp only [] at h
    split at h <;> cases h
    rfl

theorem int_missing {n : Nat} {mk : Endianness → (Nat → UInt8) → α} {r r' : Reader} {q : LoadReason} (hat : At cfg f e pos r)
    (hr : (read cfg n >>= fun b => getEndianness >>= fun e => (Pure.pure (mk e b) : P α)) r = (.err q, r')) :
    r'.trace.map place = [(pos, n)].reverse ++ r.trace.map place := by
  change P.bind (read cfg n) _ r = _ at hr
  unfold P.bind at hr
  cases hrd : read cfg n r with
  | mk o r1 =>
    rw [hrd] at hr
    cases o with
    | err b =>
      cases hr
      exact request_missing hat hrd
    | _ => cases hr

theorem trails_int {n : Nat} (hn : 0 < n) (hfit : pos + n < cfg.usizeMod) (mk : Nat → α) :
    Trails cfg f e fh pos (read cfg n >>= fun b => getEndianness >>= fun e => (Pure.pure (mk (decodeNat e b n)) : P α))
      [.bytes pos n] (pos + n) (fun a => ∃ v, IntAt f e n pos v ∧ a = mk v) := by
  constructor
  · intro r a r' hat hr
    rcases (correct_int hn hfit mk).run r hat with ⟨a', r1, n', h1, ⟨h2, rfl⟩, h3⟩ | ⟨k, r1, h1, -⟩
    · rw [hr] at h1
      cases h1
      have hle : pos + n ≤ f.length := by obtain ⟨v, hv, -⟩ := h2; exact hv.1
      refine ⟨h3, h2, [(pos, n)], asksAll_one ⟨hle, rfl⟩, ?_⟩
      change P.bind (read cfg n) _ r = _ at hr
      unfold P.bind at hr
      cases hrd : read cfg n r with
      | mk o r1 =>
        rw [hrd] at hr
        cases o with
        | ok b =>
          cases hr
          exact read_granted hat hrd
        | _ => cases hr
    · rw [hr] at h1; cases h1
  · intro r q r' hat hr
    rcases (correct_int hn hfit mk).run r hat with ⟨a', r1, n', h1, ⟨h2, rfl⟩, h3⟩ | ⟨k, r1, h1, -, -, h2⟩
    · rw [hr] at h1; cases h1
    · exact ⟨[(pos, n)], .here ⟨h2, rfl⟩, int_missing (mk := fun e b => mk (decodeNat e b n)) hat hr⟩

theorem trails_u32 (hfit : pos + 4 < cfg.usizeMod) :
    Trails cfg f e fh pos (u32 cfg) [.bytes pos 4] (pos + 4) (fun w => Word f e pos w) := by
  have hT := trails_int (fh := fh) (f := f) (e := e) (by decide) hfit UInt32.ofNat
  constructor
  · intro r a r' hat hr
    obtain ⟨h1, ⟨v, hv, rfl⟩, h3⟩ := hT.ok r a r' hat hr
    refine ⟨h1, ?_, h3⟩
    have := intAt_lt hv
    show IntAt f e 4 pos (UInt32.ofNat v).toNat
    rw [ofNat_toNat_lt (by omega)]
    exact hv
  · exact hT.err

theorem trails_u64 (hfit : pos + 8 < cfg.usizeMod) :
    Trails cfg f e fh pos (u64 cfg) [.bytes pos 8] (pos + 8) (fun _ => True) := by
  have hT := trails_int (fh := fh) (f := f) (e := e) (by decide) hfit UInt64.ofNat
  constructor
  · intro r a r' hat hr
    obtain ⟨h1, -, h3⟩ := hT.ok r a r' hat hr
    exact ⟨h1, trivial, h3⟩
  · exact hT.err

/-- The requests for the bytes of a string. -/
theorem stringLoop_trace (start : UInt32) {stop : Nat} (hfit : stop + 1 < cfg.usizeMod) (orig fuel : Nat) :
    ∀ (pos : Nat) (acc : Str) (r r' : Reader) (s : Str), pos ≤ stop → At cfg f e pos r →
      parseStringLoop cfg start stop orig fuel acc r = (.ok s, r') →
      ∃ k, pos + k < stop ∧ (∀ i < k, f[pos + i]? ≠ some 0) ∧ f[pos + k]? = some 0 ∧
        r'.trace = (((List.range (k + 1)).map fun i => (pos + i, 1)).map granted).reverse ++ r.trace := by
  induction fuel with
  | zero => intro pos acc r r' s _ _ h; cases h
  | succ fuel ih =>
    intro pos acc r r' s hp hat h
    rw [parseStringLoop] at h
    beta_reduce at h
    rw [hat.offset, usizeAdd_lt (show pos + 1 < cfg.usizeMod by omega)] at h
    simp only [] at h
    by_cases hstop : pos + 1 > stop
    · rw [if_pos hstop] at h; cases h
    rw [if_neg hstop] at h
    rcases (correct_u8 (f := f) (e := e) (show pos + 1 < cfg.usizeMod by omega)).run r hat with ⟨b, r1, n, h1, ⟨h2, rfl⟩, h3⟩ | ⟨k, r1, h1, -⟩
    swap
    · rw [h1] at h; cases h
    have ht : r1.trace = granted (pos, 1) :: r.trace := by
      change P.bind (read cfg 1) _ r = _ at h1
      unfold P.bind at h1
      cases hrd : read cfg 1 r with
      | mk o r2 =>
        rw [hrd] at h1
        cases o with
        | ok b =>
          cases h1
          exact read_granted hat hrd
        | _ => cases h1
    rw [h1] at h
    simp only [] at h
    by_cases hb : b = 0
    · rw [if_pos hb] at h
      cases h
      subst hb
      exact ⟨0, by omega, by simp, by simpa using h2, by rw [ht]; rfl⟩
    · rw [if_neg hb] at h
      obtain ⟨k, g0, g1, g2, g3⟩ := ih (pos + 1) _ r1 r' s (by omega) h3 h
      refine ⟨k + 1, by omega, ?_, by rw [← g2]; congr 1; omega, ?_⟩
      · intro i hi
        cases i with
        | zero => rw [Nat.add_zero, h2]; simpa using hb
        | succ i => rw [show pos + (i + 1) = pos + 1 + i by omega]; exact g1 i (by omega)
      · rw [g3, ht]
        rw [List.range_succ_eq_map (n := k + 1), List.map_cons, List.map_cons, List.reverse_cons, List.append_assoc,
          List.map_map (f := Nat.succ)]
        have : (fun i => (pos + i, 1)) ∘ Nat.succ = fun i => (pos + 1 + i, 1) := by
          funext i
          simp only [Function.comp, Prod.mk.injEq, and_true]
          omega
        rw [this]
        rfl

/-- The requests for the bytes of a string that does not end. -/
theorem stringLoop_stops (start : UInt32) {stop : Nat} (hfit : stop + 1 < cfg.usizeMod) (orig fuel : Nat) :
    ∀ (pos : Nat) (acc : Str) (r r' : Reader) (q : LoadReason), pos ≤ stop → At cfg f e pos r →
      parseStringLoop cfg start stop orig fuel acc r = (.err q, r') →
      (∀ i, pos ≤ i → i < stop → f[i]? ≠ some 0) ∧
        ∃ last, (last = stop ∧ (stop ≤ f.length ∨ stop = pos) ∨ last = max f.length pos + 1 ∧ f.length < stop ∧ pos < stop) ∧
          r'.trace.map place = ((List.range (last - pos)).map fun i => (pos + i, 1)).reverse ++ r.trace.map place := by
  induction fuel with
  | zero => intro pos acc r r' s _ _ h; cases h
  | succ fuel ih =>
    intro pos acc r r' s hp hat h
    rw [parseStringLoop] at h
    beta_reduce at h
    rw [hat.offset, usizeAdd_lt (show pos + 1 < cfg.usizeMod by omega)] at h
    simp only [] at h
    by_cases hstop : pos + 1 > stop
    · rw [if_pos hstop] at h
      cases h
      refine ⟨fun i h1 h2 => by omega, stop, .inl ⟨rfl, .inr (by omega)⟩, ?_⟩
      rw [show stop - pos = 0 by omega]
      rfl
    rw [if_neg hstop] at h
    rcases (correct_u8 (f := f) (e := e) (show pos + 1 < cfg.usizeMod by omega)).run r hat with ⟨b, r1, n, h1, ⟨h2, rfl⟩, h3⟩ | ⟨k, r1, h1, -, -, h2⟩
    · have ht : r1.trace.map place = (pos, 1) :: r.trace.map place := by
        change P.bind (read cfg 1) _ r = _ at h1
        unfold P.bind at h1
        cases hrd : read cfg 1 r with
        | mk o r2 =>
          rw [hrd] at h1
          cases o with
          | ok b =>
            cases h1
            rw [read_granted hat hrd]
            rfl
          | _ => cases h1
      rw [h1] at h
      simp only [] at h
      by_cases hb : b = 0
      · rw [if_pos hb] at h
        cases h
      · rw [if_neg hb] at h
        have hlen : pos < f.length := (List.getElem?_eq_some_iff.1 h2).1
        obtain ⟨g1, last, g2, g3⟩ := ih (pos + 1) _ r1 r' s (by omega) h3 h
        refine ⟨fun i hi hi' => ?_, last, ?_, ?_⟩
        · rcases Nat.lt_or_ge pos i with hlt | hge
          · exact g1 i hlt hi'
          · obtain rfl : i = pos := by omega
            rw [h2]; simpa using hb
        · omega
        · rw [g3, ht, show last - pos = last - (pos + 1) + 1 by omega, List.range_succ_eq_map, List.map_cons, List.reverse_cons,
            List.append_assoc, List.map_map]
          have : (fun i => (pos + i, 1)) ∘ Nat.succ = fun i => (pos + 1 + i, 1) := by
            funext i
            simp only [Function.comp, Prod.mk.injEq, and_true]
            omega
          rw [this]
          rfl
    · have ht : r1.trace.map place = (pos, 1) :: r.trace.map place := by
        change P.bind (read cfg 1) _ r = _ at h1
        unfold P.bind at h1
        cases hrd : read cfg 1 r with
        | mk o r2 =>
          rw [hrd] at h1
          cases o with
          | err b =>
            cases h1
            exact request_missing hat hrd
          | _ => cases h1
      rw [h1] at h
      cases h
      refine ⟨fun i hi hi' h0 => ?_, max f.length pos + 1, .inr ⟨rfl, by omega, by omega⟩, ?_⟩
      · have := (List.getElem?_eq_some_iff.1 h0).1
        omega
      · rw [show max f.length pos + 1 - pos = 1 by omega]
        exact ht

theorem string_trace (hf : Fits cfg fh) {off : UInt32} {r r' : Reader} (hat : At cfg f e pos r) :
    (∀ s, parseString cfg fh off r = (.ok s, r') → ∃ l, StringAsks f fh off l ∧ r'.trace = (l.map granted).reverse ++ r.trace) ∧
    (∀ q, parseString cfg fh off r = (.err q, r') → ∃ l, StringStops f fh off l ∧ r'.trace.map place = l.reverse ++ r.trace.map place) := by
  have hnone : r' = r → (2 ^ 32 ≤ strEnd fh ∨ strEnd fh ≤ strStart fh + off.toNat) →
      ∃ l, StringStops f fh off l ∧ r'.trace.map place = l.reverse ++ r.trace.map place := by
    intro h hd
    cases h
    exact ⟨[], .inl ⟨hd, rfl⟩, rfl⟩
  unfold parseString
  change (∀ s, P.bind _ _ r = _ → _) ∧ (∀ s, P.bind _ _ r = _ → _)
  unfold P.bind P.lift
  cases h1 : u32CheckedAdd fh.hdrLen fh.strOff with
  | none =>
    rw [u32CheckedAdd_eq_none] at h1
    refine ⟨fun s h => (by cases h), fun q h => hnone (by cases h; rfl) (.inl ?_)⟩
    unfold strEnd strStart; omega
  | some ss =>
    rw [u32CheckedAdd_eq_some] at h1
    have hss : strStart fh = ss.toNat := by unfold strStart; omega
    simp only [okOr]
    change (∀ s, P.bind _ _ r = _ → _) ∧ (∀ s, P.bind _ _ r = _ → _)
    unfold P.bind
    cases h2 : u32CheckedAdd ss fh.strLen with
    | none =>
      rw [u32CheckedAdd_eq_none] at h2
      refine ⟨fun s h => (by cases h), fun q h => hnone (by cases h; rfl) (.inl ?_)⟩
      unfold strEnd; omega
    | some se =>
      rw [u32CheckedAdd_eq_some] at h2
      have hse : strEnd fh = se.toNat := by unfold strEnd; omega
      have hse' := se.toNat_lt
      simp only []
      change (∀ s, P.bind _ _ r = _ → _) ∧ (∀ s, P.bind _ _ r = _ → _)
      unfold P.bind
      cases h3 : u32CheckedAdd ss off with
      | none =>
        rw [u32CheckedAdd_eq_none] at h3
        exact ⟨fun s h => (by cases h), fun q h => hnone (by cases h; rfl) (.inr (by omega))⟩
      | some st =>
        rw [u32CheckedAdd_eq_some] at h3
        simp only []
        by_cases hge : st ≥ se
        · rw [if_pos hge]
          have hge : se.toNat ≤ st.toNat := hge
          exact ⟨fun s h => (by cases h), fun q h => hnone (by cases h; rfl) (.inr (by omega))⟩
        · rw [if_neg hge]
          have hlt : st.toNat < se.toNat := by
            have : ¬ se.toNat ≤ st.toNat := hge
            omega
          have hfit : se.toNat + 1 < cfg.usizeMod := by rw [← hse]; exact hf.str (by omega)
          change (∀ s, P.bind getOffset _ r = _ → _) ∧ (∀ s, P.bind getOffset _ r = _ → _)
          unfold P.bind getOffset
          simp only []
          change (∀ s, P.bind (setOffset _) _ r = _ → _) ∧ (∀ s, P.bind (setOffset _) _ r = _ → _)
          unfold P.bind setOffset
          simp only []
          change (∀ s, P.bind (parseStringLoop _ _ _ _ _ _) _ _ = _ → _) ∧ (∀ s, P.bind (parseStringLoop _ _ _ _ _ _) _ _ = _ → _)
          unfold P.bind
          have hat' : At cfg f e st.toNat { r with offset := st.toNat } := ⟨hat.serves, hat.endianness, rfl⟩
          cases hl : parseStringLoop cfg st se.toNat r.offset (se.toNat - st.toNat + 1) [] { r with offset := st.toNat } with
          | mk o r1 =>
            cases o with
            | ok s =>
              refine ⟨fun s' h => ?_, fun q h => by cases h⟩
              cases h
              obtain ⟨k, g0, g1, g2, g3⟩ := stringLoop_trace (f := f) (e := e) st hfit r.offset _ st.toNat [] _ _ s (by omega) hat' hl
              rw [h3] at g0 g1 g2 g3
              exact ⟨_, ⟨by omega, k, by rw [hss]; omega, by rw [hss]; exact g1, by rw [hss]; exact g2, rfl⟩, by rw [hss]; exact g3⟩
            | err q =>
              refine ⟨fun s' h => (by cases h), fun q' h => ?_⟩
              cases h
              obtain ⟨g1, last, g2, g3⟩ := stringLoop_stops (f := f) (e := e) st hfit r.offset _ st.toNat [] _ _ q (by omega) hat' hl
              rw [h3] at g1 g2 g3
              refine ⟨_, .inr ⟨by omega, by omega, ?_, last, ?_, rfl⟩, ?_⟩
              · rw [hss, hse]; exact g1
              · rw [hss, hse]; omega
              · rw [hss]; exact g3
            | panic => exact ⟨fun s h => (by cases h), fun q h => by cases h⟩
            | nofuel => exact ⟨fun s h => (by cases h), fun q h => by cases h⟩

theorem trails_string (hf : Fits cfg fh) {p : Nat} {off : UInt32} (hw : Word f e p off) :
    Trails cfg f e fh pos (parseString cfg fh off) [.string p] pos (fun _ => True) := by
  constructor
  · intro r s r' hat h
    rcases (correct_parseString (f := f) (e := e) hf pos off).run r hat with ⟨s', r1, n, h1, ⟨-, rfl⟩, hat'⟩ | ⟨k, r1, h1, -⟩
    swap
    · rw [h] at h1; cases h1
    rw [h] at h1
    cases h1
    obtain ⟨l, g1, g2⟩ := (string_trace hf hat).1 s h
    exact ⟨hat', trivial, l, asksAll_one ⟨off, hw, g1⟩, g2⟩
  · intro r q r' hat h
    obtain ⟨l, g1, g2⟩ := (string_trace hf hat).2 q h
    exact ⟨l, .here ⟨off, hw, g1⟩, g2⟩

theorem trails_name (hf : Fits cfg fh) {p : Nat} {off : UInt32} (hw : Word f e p off) :
    Trails cfg f e fh pos (parseName cfg fh off) [.name p] pos (fun _ => True) := by
  unfold parseName
  by_cases h0 : off = 0
  · subst h0
    constructor
    · intro r a r' hat hr
      cases hr
      exact ⟨hat, trivial, [], asksAll_one ⟨0, hw, if_pos rfl |>.mpr rfl⟩, rfl⟩
    · intro r a r' hat hr
      cases hr
  · rw [if_pos (by simpa using h0)]
    have hT := trails_bind (ns := [.string p]) (ns' := []) (trails_string (pos := pos) (fh := fh) hf hw)
      (fun s _ => trails_pure (a := some s) (Q := fun _ => True) trivial)
    constructor
    · intro r a r' hat hr
      obtain ⟨g1, -, l, g2, g3⟩ := hT.ok r a r' hat hr
      refine ⟨g1, trivial, l, ?_, g3⟩
      cases g2 with
      | cons h1 h2 =>
        cases h2
        obtain ⟨off', hw', h1⟩ := h1
        obtain rfl := word_unique hw' hw
        exact .cons ⟨off', hw, by rw [if_neg h0]; exact h1⟩ .nil
    · intro r q r' hat hr
      obtain ⟨l, g2, g3⟩ := hT.err r q r' hat hr
      refine ⟨l, ?_, g3⟩
      cases g2 with
      | here h1 =>
        obtain ⟨off', hw', h1⟩ := h1
        obtain rfl := word_unique hw' hw
        exact .here ⟨off', hw, h0, h1⟩
      | later _ h2 => cases h2

theorem trails_items {item : P α} {needs : Nat → List Need} {size : Nat} :
    ∀ (n pos : Nat), (∀ p, pos ≤ p → p + size ≤ pos + size * n → Trails cfg f e fh p item (needs p) (p + size) (fun _ => True)) →
      Trails cfg f e fh pos (repeatP item n) (itemNeeds n size pos needs) (pos + size * n) (fun _ => True)
  | 0, pos, _ => trails_pure trivial
  | n + 1, pos, h => by
    have hs : size * (n + 1) = size + size * n := by rw [Nat.mul_add, Nat.mul_one, Nat.add_comm]
    have hneeds : itemNeeds (n + 1) size pos needs = needs pos ++ itemNeeds n size (pos + size) needs := by
      unfold itemNeeds
      rw [List.range_succ_eq_map, List.flatMap_cons, List.flatMap_map, Nat.zero_mul, Nat.add_zero]
      congr 2
      funext i
      rw [Nat.succ_mul, Nat.add_comm (i * size), ← Nat.add_assoc]
    rw [hneeds, repeatP, hs, ← Nat.add_assoc]
    refine trails_bind (h pos (Nat.le_refl _) (by rw [hs]; omega)) fun a _ => ?_
    rw [← List.append_nil (itemNeeds _ _ _ _)]
    exact trails_bind (trails_items n (pos + size) fun p h1 h2 => h p (by omega) (by rw [hs]; omega)) fun _ _ => trails_pure trivial

theorem trails_aligned {w : UInt32} {p : Nat} (hw : Word f e p w) {kf : Bool} :
    Trails cfg f e fh pos (P.lift (memberOffset kf w)) (if kf then [] else [.aligned p]) pos (fun _ => True) := by
  have hmod : w % 8 = 0 ↔ 8 ∣ w.toNat := by
    rw [← UInt32.toNat_inj, UInt32.toNat_mod, Nat.dvd_iff_mod_eq_zero]; rfl
  cases kf with
  | true =>
    constructor
    · intro r a r' hat hr
      obtain ⟨-, rfl⟩ := Prod.mk.inj hr
      exact ⟨hat, trivial, [], .nil, rfl⟩
    · intro r q r' hat hr
      unfold memberOffset P.lift at hr
      simp only [] at hr
      split at hr <;> cases hr
  | false =>
    constructor
    · intro r a r' hat hr
      obtain ⟨h, rfl⟩ := Prod.mk.inj hr
      refine ⟨hat, trivial, [], asksAll_one ⟨⟨w, hw, hmod.1 ?_⟩, rfl⟩, rfl⟩
      unfold memberOffset at h
      simp only [if_neg (show ¬ (false = true) by decide)] at h
      by_cases h8 : w % 8 = 0
      · exact h8
      · rw [if_neg h8] at h; cases h
    · intro r q r' hat hr
      obtain ⟨h, rfl⟩ := Prod.mk.inj hr
      refine ⟨[], .here ⟨⟨w, hw, fun hd => ?_⟩, rfl⟩, rfl⟩
      unfold memberOffset at h
      simp only [if_neg (show ¬ (false = true) by decide)] at h
      rw [if_pos (hmod.2 hd)] at h
      cases h

theorem trails_member (hf : Fits cfg fh) {kf : Bool} (hfit : pos + 12 < cfg.usizeMod) :
    Trails cfg f e fh pos (Member.parse cfg fh kf) (memberNeeds kf pos) (pos + 12) (fun _ => True) := by
  unfold Member.parse memberNeeds
  refine trails_bind (ns := [_]) (ns' := [_, _, _] ++ _) (trails_u32 (cfg := cfg) (pos := pos) (by omega)) fun a ha => ?_
  refine trails_bind (ns := [_]) (ns' := [_, _] ++ _) (trails_u32 (cfg := cfg) (pos := pos + 4) (by omega)) fun b hb => ?_
  refine trails_bind (ns := [_]) (ns' := [_] ++ _) (trails_u32 (cfg := cfg) (pos := pos + 8) (by omega)) fun c hc => ?_
  refine trails_bind (ns := [_]) (trails_name hf ha) fun n _ => ?_
  rw [← List.append_nil (ite _ _ _)]
  exact trails_bind (trails_aligned hc) fun _ _ => trails_pure trivial

theorem trails_value32 (hf : Fits cfg fh) {signed : Bool} (hfit : pos + 8 < cfg.usizeMod) :
    Trails cfg f e fh pos (NamedValue32.parse cfg fh signed) [.bytes pos 4, .string pos, .bytes (pos + 4) 4] (pos + 8) (fun _ => True) := by
  refine trails_bind (ns := [_]) (ns' := [_, _]) (trails_u32 (by omega)) fun a ha => ?_
  refine trails_bind (ns := [_]) (ns' := [_]) (trails_string hf ha) fun n _ => ?_
  cases signed with
  | true =>
    refine trails_bind (ns := [_]) (ns' := []) (Q := fun _ => True) ?_ fun _ _ => trails_pure trivial
    exact trails_bind (ns := [_]) (ns' := []) (trails_u32 (by omega)) fun _ _ => trails_pure trivial
  | false => exact trails_bind (ns := [_]) (ns' := []) (trails_u32 (by omega)) fun _ _ => trails_pure trivial

theorem trails_value64 (hf : Fits cfg fh) {signed : Bool} (hfit : pos + 12 < cfg.usizeMod) :
    Trails cfg f e fh pos (NamedValue64.parse cfg fh signed) [.bytes pos 4, .string pos, .bytes (pos + 4) 8] (pos + 12) (fun _ => True) := by
  refine trails_bind (ns := [_]) (ns' := [_, _]) (trails_u32 (by omega)) fun a ha => ?_
  refine trails_bind (ns := [_]) (ns' := [_]) (trails_string hf ha) fun n _ => ?_
  cases signed with
  | true =>
    refine trails_bind (ns := [_]) (ns' := []) (Q := fun _ => True) ?_ fun _ _ => trails_pure trivial
    exact trails_bind (ns := [_]) (ns' := []) (trails_u64 (by omega)) fun _ _ => trails_pure trivial
  | false => exact trails_bind (ns := [_]) (ns' := []) (trails_u64 (by omega)) fun _ _ => trails_pure trivial

theorem trails_parameter (hf : Fits cfg fh) (hfit : pos + 8 < cfg.usizeMod) :
    Trails cfg f e fh pos (Parameter.parse cfg fh) [.bytes pos 4, .bytes (pos + 4) 4, .name pos] (pos + 8) (fun _ => True) := by
  refine trails_bind (ns := [_]) (ns' := [_, _]) (trails_u32 (by omega)) fun a ha => ?_
  refine trails_bind (ns := [_]) (ns' := [_]) (trails_u32 (by omega)) fun b hb => ?_
  exact trails_bind (ns := [_]) (ns' := []) (trails_name hf ha) fun n _ => trails_pure trivial

theorem trails_variable (hfit : pos + 12 < cfg.usizeMod) :
    Trails cfg f e fh pos (Variable.parse cfg) [.bytes pos 4, .bytes (pos + 4) 4, .bytes (pos + 8) 4] (pos + 12) (fun _ => True) := by
  refine trails_bind (ns := [_]) (ns' := [_, _]) (trails_u32 (by omega)) fun a ha => ?_
  refine trails_bind (ns := [_]) (ns' := [_]) (trails_u32 (by omega)) fun b hb => ?_
  exact trails_bind (ns := [_]) (ns' := []) (trails_u32 (by omega)) fun n _ => trails_pure trivial

theorem checkExtra_trace (K : Kind) (th : Header) (r : Reader) : (checkExtra cfg fh K th r).2.trace = r.trace := by
  unfold checkExtra
  split
  · rfl
  · change (P.bind (P.lift (extraSize cfg K th)) _ r).2.trace = _
    unfold P.bind P.lift
    cases extraSize cfg K th with
    | ok req =>
      simp only []
      split
      · change (P.bind (P.lift (cfg.u32Add fh.hdrLen fh.typeOff)) _ r).2.trace = _
        unfold P.bind P.lift
        cases cfg.u32Add (ε := LoadReason) fh.hdrLen fh.typeOff with
        | ok s =>
          simp only []
          change (P.bind (P.lift (cfg.u32Add s fh.typeLen)) _ r).2.trace = _
          unfold P.bind P.lift
          cases cfg.u32Add (ε := LoadReason) s fh.typeLen with
          | ok t =>
            simp only []
            change (P.bind getOffset _ r).2.trace = _
            unfold P.bind getOffset
            simp only []
            split
            · rfl
            · change (P.bind (P.lift (cfg.usizeAdd r.offset req)) _ r).2.trace = _
              unfold P.bind P.lift
              cases cfg.usizeAdd (ε := LoadReason) r.offset req with
              | ok x => simp only []; split <;> rfl
              | _ => rfl
          | _ => rfl
        | _ => rfl
      · rfl
    | _ => rfl

theorem trails_checkExtra {th : Header} (hf : Fits cfg fh) (hE : typeEnd fh < 2 ^ 32)
    (hpos : pos ≤ typeEnd fh) (hs : typeStart fh ≤ pos) (hv : th.vlen < 2 ^ 16) :
    Trails cfg f e fh pos (checkExtra cfg fh th.kind th) [.inside (pos + boundedSize .crate th.kind th.vlen)] pos
      (fun _ => pos + boundedSize .crate th.kind th.vlen ≤ typeEnd fh) :=
  trails_quiet (correct_checkExtra hf hE hpos hs hv) (checkExtra_trace _ _) (fun _ _ h => ⟨h.2, h.1, h.1, rfl⟩) (fun _ h => ⟨h.1, rfl⟩)

theorem trails_defineType {D : Type} {th : Header} {data : P D} {mk : Header → D → TypeVariant} {K : Kind} (hK : th.kind = K)
    (hf : Fits cfg fh) (hE : typeEnd fh < 2 ^ 32)
    (hpos : pos ≤ typeEnd fh) (hs : typeStart fh ≤ pos) (hv : th.vlen < 2 ^ 16) {ns : List Need}
    (hdata : pos + boundedSize .crate th.kind th.vlen + 12 < cfg.usizeMod →
      Trails cfg f e fh pos data ns (pos + bodySize th.kind th.vlen) (fun _ => True)) :
    Trails cfg f e fh pos (defineTypeNew cfg fh K th data mk) (.inside (pos + boundedSize .crate th.kind th.vlen) :: ns)
      (pos + bodySize th.kind th.vlen) (fun _ => True) := by
  subst hK
  have hfit := hf.type hE
  refine trails_bind (ns := [_]) (ns' := ns) (trails_checkExtra hf hE hpos hs hv) fun _ h => ?_
  rw [← List.append_nil ns]
  exact trails_bind (hdata (by omega)) fun _ _ => trails_pure trivial

theorem trails_parseType {th : Header} (hf : Fits cfg fh) (hE : typeEnd fh < 2 ^ 32)
    (hpos : pos + 12 ≤ typeEnd fh) (hs : typeStart fh ≤ pos) (hh : HeaderAt f e pos th) :
    Trails cfg f e fh (pos + 12) (parseType cfg fh th) (bodyNeeds th pos) (pos + 12 + bodySize th.kind th.vlen) (fun _ => True) := by
  have hv := headerAt_vlen hh
  have hn := hh.1
  have name : ∀ {p : Nat}, Trails cfg f e fh p (parseName cfg fh th.nameOffset) [.name pos] p (fun _ => True) := fun {p} => trails_name hf hn
  have named : ∀ {D : Type} {p : Nat} (g : Option Str → D), Trails cfg f e fh p (do let n ← parseName cfg fh th.nameOffset; return g n) [.name pos] p
      (fun _ => True) := fun g => trails_bind (ns := [_]) (ns' := []) name fun _ _ => trails_pure trivial
  have listed : ∀ {A D : Type} {p q : Nat} {ns : List Need} {l : P A} (g : A → Option Str → D), Trails cfg f e fh p l ns q (fun _ => True) →
      Trails cfg f e fh p (do let xs ← l; let n ← parseName cfg fh th.nameOffset; return g xs n) (ns ++ [.name pos]) q (fun _ => True) :=
    fun g hl => trails_bind hl fun _ _ => named _
  unfold parseType bodyNeeds
  cases hk : th.kind with
  | Int =>
    have := trails_defineType (e := e) (f := f) (mk := .int) (ns := [.bytes (pos + 12) 4, .name pos]) (data := IntData.new cfg fh th) hk hf hE hpos (by omega) hv
      (fun hfit => by
        rw [hk] at hfit ⊢
        exact trails_bind (ns := [_]) (ns' := [_]) (trails_u32 (by simp only [boundedSize, bodySize] at hfit; omega)) fun _ _ => named _)
    rw [hk] at this; exact this
  | Var =>
    have := trails_defineType (e := e) (f := f) (mk := .var) (ns := [.bytes (pos + 12) 4, .name pos]) (data := VarData.new cfg fh th) hk hf hE hpos (by omega) hv
      (fun hfit => by
        rw [hk] at hfit ⊢
        exact trails_bind (ns := [_]) (ns' := [_]) (trails_u32 (by simp only [boundedSize, bodySize] at hfit; omega)) fun _ _ => named _)
    rw [hk] at this; exact this
  | DeclTag =>
    have := trails_defineType (e := e) (f := f) (mk := .declTag) (ns := [.bytes (pos + 12) 4, .name pos]) (data := DeclTagData.new cfg fh th) hk hf hE hpos (by omega) hv
      (fun hfit => by
        rw [hk] at hfit ⊢
        exact trails_bind (ns := [_]) (ns' := [_]) (trails_u32 (by simp only [boundedSize, bodySize] at hfit; omega)) fun _ _ => named _)
    rw [hk] at this; exact this
  | Ptr =>
    have := trails_defineType (e := e) (f := f) (mk := .ptr) (ns := []) (data := TidData.new th) hk hf hE hpos (by omega) hv
      (fun hfit => by rw [hk]; exact trails_pure trivial)
    rw [hk] at this; exact this
  | Volatile =>
    have := trails_defineType (e := e) (f := f) (mk := .volatile) (ns := []) (data := TidData.new th) hk hf hE hpos (by omega) hv
      (fun hfit => by rw [hk]; exact trails_pure trivial)
    rw [hk] at this; exact this
  | Const =>
    have := trails_defineType (e := e) (f := f) (mk := .const) (ns := []) (data := TidData.new th) hk hf hE hpos (by omega) hv
      (fun hfit => by rw [hk]; exact trails_pure trivial)
    rw [hk] at this; exact this
  | Restrict =>
    have := trails_defineType (e := e) (f := f) (mk := .restrict) (ns := []) (data := TidData.new th) hk hf hE hpos (by omega) hv
      (fun hfit => by rw [hk]; exact trails_pure trivial)
    rw [hk] at this; exact this
  | Fwd =>
    have := trails_defineType (e := e) (f := f) (mk := .fwd) (ns := [.name pos]) (data := NamedTidData.new cfg fh th) hk hf hE hpos (by omega) hv
      (fun hfit => by rw [hk]; exact named _)
    rw [hk] at this; exact this
  | Typedef =>
    have := trails_defineType (e := e) (f := f) (mk := .typedef) (ns := [.name pos]) (data := NamedTidData.new cfg fh th) hk hf hE hpos (by omega) hv
      (fun hfit => by rw [hk]; exact named _)
    rw [hk] at this; exact this
  | TypeTag =>
    have := trails_defineType (e := e) (f := f) (mk := .typeTag) (ns := [.name pos]) (data := NamedTidData.new cfg fh th) hk hf hE hpos (by omega) hv
      (fun hfit => by rw [hk]; exact named _)
    rw [hk] at this; exact this
  | Func =>
    have := trails_defineType (e := e) (f := f) (mk := .func) (ns := [.name pos]) (data := FuncData.new cfg fh th) hk hf hE hpos (by omega) hv
      (fun hfit => by rw [hk]; exact named _)
    rw [hk] at this; exact this
  | Float =>
    have := trails_defineType (e := e) (f := f) (mk := .float) (ns := [.name pos]) (data := FloatData.new cfg fh th) hk hf hE hpos (by omega) hv
      (fun hfit => by rw [hk]; exact named _)
    rw [hk] at this; exact this
  | Array =>
    have := trails_defineType (e := e) (f := f) (mk := .array) (ns := [.bytes (pos + 12) 4, .bytes (pos + 12 + 4) 4, .bytes (pos + 12 + 4 + 4) 4]) (data := ArrayData.new cfg) hk hf hE hpos (by omega) hv
      (fun hfit => by
        rw [hk]
        refine trails_bind (ns := [_]) (ns' := [_, _]) (trails_u32 (by omega)) fun _ _ => ?_
        refine trails_bind (ns := [_]) (ns' := [_]) (trails_u32 (by omega)) fun _ _ => ?_
        exact trails_bind (ns := [_]) (ns' := []) (trails_u32 (by omega)) fun _ _ => trails_pure trivial)
    rw [hk] at this; exact this
  | Struct =>
    have := trails_defineType (e := e) (f := f) (mk := .struct) (data := StructData.new cfg fh th) hk hf hE hpos (by omega) hv
      (fun hfit => by
        rw [hk] at hfit ⊢
        simp only [boundedSize, bodySize] at hfit ⊢
        exact listed _ (trails_items th.vlen (pos + 12) fun p h1 h2 => trails_member hf (by omega)))
    rw [hk] at this; exact this
  | Union =>
    have := trails_defineType (e := e) (f := f) (mk := .union) (data := StructData.new cfg fh th) hk hf hE hpos (by omega) hv
      (fun hfit => by
        rw [hk] at hfit ⊢
        simp only [boundedSize, bodySize] at hfit ⊢
        exact listed _ (trails_items th.vlen (pos + 12) fun p h1 h2 => trails_member hf (by omega)))
    rw [hk] at this; exact this
  | Enum =>
    have := trails_defineType (e := e) (f := f) (mk := .enum) (data := EnumData.new cfg fh th) hk hf hE hpos (by omega) hv
      (fun hfit => by
        rw [hk] at hfit ⊢
        simp only [boundedSize, bodySize] at hfit ⊢
        exact listed _ (trails_items th.vlen (pos + 12) fun p h1 h2 => trails_value32 hf (by omega)))
    rw [hk] at this; exact this
  | Enum64 =>
    have := trails_defineType (e := e) (f := f) (mk := .enum64) (data := Enum64Data.new cfg fh th) hk hf hE hpos (by omega) hv
      (fun hfit => by
        rw [hk] at hfit ⊢
        simp only [boundedSize, bodySize] at hfit ⊢
        exact listed _ (trails_items th.vlen (pos + 12) fun p h1 h2 => trails_value64 hf (by omega)))
    rw [hk] at this; exact this
  | DataSec =>
    have := trails_defineType (e := e) (f := f) (mk := .dataSec) (data := DataSecData.new cfg fh th) hk hf hE hpos (by omega) hv
      (fun hfit => by
        rw [hk] at hfit ⊢
        simp only [boundedSize, bodySize] at hfit ⊢
        exact listed _ (trails_items th.vlen (pos + 12) fun p h1 h2 => trails_variable (by omega)))
    rw [hk] at this; exact this
  | FuncProto =>
    have := trails_defineType (e := e) (f := f) (mk := .funcProto) (data := FuncProtoData.new cfg fh th) hk hf hE hpos (by omega) hv
      (fun hfit => by
        rw [hk] at hfit ⊢
        simp only [boundedSize, bodySize] at hfit ⊢
        exact trails_bind (ns' := []) (trails_items th.vlen (pos + 12) fun p h1 h2 => trails_parameter hf (by omega)) fun _ _ => trails_pure trivial)
    rw [hk, List.append_nil] at this; exact this

theorem trails_header (hf : Fits cfg fh) (hE : typeEnd fh < 2 ^ 32) (hpos : pos ≤ typeEnd fh) :
    Trails cfg f e fh pos (Header.new cfg fh) (recordNeeds pos) (pos + 12) (fun th => HeaderAt f e pos th ∧ pos + 12 ≤ typeEnd fh) := by
  obtain ⟨s, t, hs, ht, hs', ht'⟩ := section_ok hE
  have hfit := hf.type hE
  unfold Header.new recordNeeds
  refine trails_step (a := s) (fun r hr => by rw [P.lift, hs]; rfl) ?_
  refine trails_step (a := t) (fun r hr => by rw [P.lift, ht]; rfl) ?_
  refine trails_step (a := pos) (fun r hr => by rw [getOffset, hr.offset]) ?_
  refine trails_step (a := pos + 12) (fun r hr => by rw [P.lift, usizeAdd_lt (by unfold TYPE_HEADER_SIZE; omega)]; rfl) ?_
  by_cases hlen : pos + 12 ≤ typeEnd fh
  · rw [if_neg (by omega)]
    refine trails_cons ⟨hlen, rfl⟩ ?_
    refine trails_bind (ns := [_]) (ns' := [_, _, _]) (trails_u32 (by omega)) fun w hw => ?_
    refine trails_bind (ns := [_]) (ns' := [_, _]) (trails_u32 (by omega)) fun info hi => ?_
    refine trails_bind (ns := [_]) (ns' := [_]) (mid := pos + 4 + 4) (Q := fun k => kindCode k = info.toNat / 2 ^ 24 % 32) ?_ fun k hk => ?_
    · constructor
      · intro r k r' hat hr
        obtain ⟨h, rfl⟩ := Prod.mk.inj hr
        have hk := kind_new_ok.1 h
        rw [info_kind] at hk
        exact ⟨hat, hk, [], asksAll_one ⟨⟨info, k, hi, hk⟩, rfl⟩, rfl⟩
      · intro r q r' hat hr
        obtain ⟨h, rfl⟩ := Prod.mk.inj hr
        refine ⟨[], .here ⟨⟨info, hi, fun k hk => ?_⟩, rfl⟩, rfl⟩
        rw [← info_kind] at hk
        rw [kind_new_ok.2 hk] at h
        cases h
    · exact trails_bind (ns := [_]) (ns' := []) (trails_u32 (by omega)) fun sz hsz => trails_pure ⟨⟨hw, hsz, info, hi, hk, info_vlen info, info_flag info⟩, hlen⟩
  · rw [if_pos (by omega)]
    constructor
    · intro r a r' hat hr
      cases hr
    · intro r a r' hat hr
      cases hr
      exact ⟨[], .here ⟨by omega, rfl⟩, rfl⟩

/-- The requests of the loop over the records. -/
theorem loop_trace (hf : Fits cfg fh) (hE : typeEnd fh < 2 ^ 32) (fuel : Nat) :
    ∀ pos tid ti r r' ti', typeStart fh ≤ pos → At cfg f e pos r →
      parseLoop cfg fh (typeEnd fh) fuel tid ti r = (.ok ti', r') →
      ∃ l, RecordAsks f e fh pos l ∧ r'.trace = (l.map granted).reverse ++ r.trace := by
  induction fuel with
  | zero => intro pos tid ti r r' ti' _ _ h; cases h
  | succ fuel ih =>
    intro pos tid ti r r' ti' hs hat h
    unfold parseLoop at h
    change P.bind getOffset _ r = _ at h
    unfold P.bind getOffset at h
    simp only [] at h
    rw [hat.offset] at h
    by_cases hpos : pos < typeEnd fh
    · rw [if_pos hpos] at h
      change P.bind _ _ r = _ at h
      unfold P.bind at h
      cases hh : Header.new cfg fh r with
      | mk o r1 =>
        rw [hh] at h
        cases o with
        | ok th =>
          simp only [] at h
          change P.bind _ _ r1 = _ at h
          unfold P.bind at h
          obtain ⟨g1, ⟨g2, g3⟩, l, g4, g5⟩ := (trails_header (fh := fh) hf hE (show pos ≤ typeEnd fh by omega)).ok r th r1 hat hh
          cases hb : parseType cfg fh th r1 with
          | mk o r2 =>
            rw [hb] at h
            cases o with
            | ok v =>
              simp only [] at h
              change P.bind _ _ r2 = _ at h
              unfold P.bind P.lift at h
              obtain ⟨k1, -, l2, k2, k3⟩ := (trails_parseType (fh := fh) hf hE g3 hs g2).ok r1 v r2 g1 hb
              cases hu : cfg.u32Add (ε := LoadReason) tid 1 with
              | ok t =>
                rw [hu] at h
                obtain ⟨l3, j1, j2⟩ := ih _ t _ r2 r' ti' (by omega) k1 h
                refine ⟨l ++ l2 ++ l3, .cons hpos g2 (asksAll_append g4 k2) j1, ?_⟩
                rw [j2, k3, g5]
                simp
              | err x => rw [hu] at h; cases h
              | panic => rw [hu] at h; cases h
              | nofuel => rw [hu] at h; cases h
            | _ => cases h
        | _ => cases h
    · rw [if_neg hpos] at h
      cases h
      exact ⟨[], .nil (by omega), rfl⟩

/-- The requests of `new`, if it succeeds. -/
theorem newP_trace {R : Readable} (hS : Serves cfg R f) (hfit : ∀ e fh, Preamble f e fh → Fits cfg fh) {ti : TypeInformation}
    (h : TypeInformation.newT cfg R = .ok ti) :
    ∃ l, FileAsks f l ∧ TypeInformation.newTrace cfg R = (l.map granted).reverse := by
  unfold TypeInformation.newTrace
  unfold TypeInformation.newT at h
  generalize hrun : TypeInformation.newP cfg (Reader.new R) = res at h ⊢
  obtain ⟨o, r'⟩ := res
  cases h
  show ∃ l, _ ∧ r'.trace = _
  unfold TypeInformation.newP at hrun
  change P.bind _ _ _ = _ at hrun
  unfold P.bind at hrun
  have hr : At cfg f .little 0 (Reader.new R) := ⟨hS, rfl, rfl⟩
  rcases header_file (cfg := cfg) hr with ⟨e, fh, r1, h1, hp, hat⟩ | ⟨k, r1, h1, -⟩
  swap
  · rw [h1] at hrun; cases hrun
  rw [h1] at hrun
  have htr : r1.trace = (headerFields.map granted).reverse := by
    obtain ⟨r2, h2, h3⟩ := header_announced (cfg := cfg) ((announces_iff hS).2 hp)
    rw [h1] at h2
    cases h2
    rw [h3.trace]
    rfl
  have hf := hfit e fh hp
  simp only [] at hrun
  change P.bind _ _ _ = _ at hrun
  unfold P.bind P.lift at hrun
  cases hs : u32CheckedAdd fh.hdrLen fh.typeOff with
  | none => rw [hs] at hrun; cases hrun
  | some s =>
    rw [hs] at hrun
    rw [u32CheckedAdd_eq_some] at hs
    have hst : s.toNat = typeStart fh := hs
    have hslt := s.toNat_lt
    simp only [okOr] at hrun
    change P.bind _ _ _ = _ at hrun
    unfold P.bind at hrun
    rw [hst] at hrun
    unfold Cfg.usizeCheckedAdd at hrun
    by_cases hadd : typeStart fh + fh.typeLen.toNat < cfg.usizeMod
    · rw [if_pos hadd] at hrun
      simp only [] at hrun
      change P.bind (setOffset _) _ _ = _ at hrun
      unfold P.bind setOffset at hrun
      simp only [] at hrun
      change parseLoop cfg fh (typeEnd fh) _ _ _ _ = _ at hrun
      have hat' : At cfg f e (typeStart fh) { r1 with offset := typeStart fh } := ⟨hat.serves, hat.endianness, rfl⟩
      by_cases hE : typeEnd fh < 2 ^ 32
      · obtain ⟨l, g1, g2⟩ := loop_trace hf hE _ _ _ _ _ _ _ (Nat.le_refl _) hat' hrun
        refine ⟨headerFields ++ l, ⟨e, fh, l, hp, hE, g1, rfl⟩, ?_⟩
        rw [g2]
        show _ ++ r1.trace = _
        rw [htr]
        simp
      · rw [loop_overflow (by omega) (by omega) _ _ _ (by show typeStart fh < typeEnd fh; omega)] at hrun
        cases hrun
    · rw [if_neg hadd] at hrun
      cases hrun

/-- The requests of the loop over the records, if one of them cannot be decoded. -/
theorem loop_stops (hf : Fits cfg fh) (hE : typeEnd fh < 2 ^ 32) (fuel : Nat) :
    ∀ pos tid ti r r' q, typeStart fh ≤ pos → At cfg f e pos r →
      parseLoop cfg fh (typeEnd fh) fuel tid ti r = (.err q, r') →
      ∃ l, RecordStops f e fh pos l ∧ r'.trace.map place = l.reverse ++ r.trace.map place := by
  induction fuel with
  | zero => intro pos tid ti r r' q _ _ h; cases h
  | succ fuel ih =>
    intro pos tid ti r r' q hs hat h
    unfold parseLoop at h
    change P.bind getOffset _ r = _ at h
    unfold P.bind getOffset at h
    simp only [] at h
    rw [hat.offset] at h
    by_cases hpos : pos < typeEnd fh
    · rw [if_pos hpos] at h
      change P.bind _ _ r = _ at h
      unfold P.bind at h
      cases hh : Header.new cfg fh r with
      | mk o r1 =>
        rw [hh] at h
        cases o with
        | ok th =>
          simp only [] at h
          change P.bind _ _ r1 = _ at h
          unfold P.bind at h
          obtain ⟨g1, ⟨g2, g3⟩, l, g4, g5⟩ := (trails_header (fh := fh) hf hE (show pos ≤ typeEnd fh by omega)).ok r th r1 hat hh
          cases hb : parseType cfg fh th r1 with
          | mk o r2 =>
            rw [hb] at h
            cases o with
            | ok v =>
              simp only [] at h
              change P.bind _ _ r2 = _ at h
              unfold P.bind P.lift at h
              obtain ⟨k1, -, l2, k2, k3⟩ := (trails_parseType (fh := fh) hf hE g3 hs g2).ok r1 v r2 g1 hb
              cases hu : cfg.u32Add (ε := LoadReason) tid 1 with
              | ok t =>
                rw [hu] at h
                obtain ⟨l3, j1, j2⟩ := ih _ t _ r2 r' q (by omega) k1 h
                refine ⟨l ++ l2 ++ l3, .later hpos g2 (asksAll_append g4 k2) j1, ?_⟩
                rw [j2, k3, g5]
                simp only [List.map_append, List.map_reverse, place_granted, List.reverse_append, List.append_assoc]
              | err x =>
                exfalso
                unfold Cfg.u32Add Cfg.wrapOr at hu
                by_cases h1 : tid.toNat + UInt32.toNat 1 < 2 ^ 32
                · rw [if_pos h1] at hu; cases hu
                · rw [if_neg h1] at hu
                  cases hc : cfg.overflowChecks <;> rw [hc] at hu <;> cases hu
              | panic => rw [hu] at h; cases h
              | nofuel => rw [hu] at h; cases h
            | err x =>
              cases h
              obtain ⟨l2, k2, k3⟩ := (trails_parseType (fh := fh) hf hE g3 hs g2).err r1 q r' g1 hb
              refine ⟨l ++ l2, .body hpos g2 (stopsAt_prepend g4 k2), ?_⟩
              rw [k3, g5]
              simp only [List.map_append, List.map_reverse, place_granted, List.reverse_append, List.append_assoc]
            | _ => cases h
        | err x =>
          cases h
          obtain ⟨l, k2, k3⟩ := (trails_header (fh := fh) hf hE (show pos ≤ typeEnd fh by omega)).err r q r' hat hh
          exact ⟨l, .header hpos k2, k3⟩
        | _ => cases h
    · rw [if_neg hpos] at h
      cases h

/-- The requests of `new`, if it fails. -/
theorem newP_stops {R : Readable} (hS : Serves cfg R f) (hfit : ∀ e fh, Preamble f e fh → Fits cfg fh) {q : LoadReason}
    (h : TypeInformation.newT cfg R = .err q) :
    ∃ l, FileStops f l ∧ (TypeInformation.newTrace cfg R).map place = l.reverse := by
  have hu := usizeMod_ge cfg
  unfold TypeInformation.newTrace
  unfold TypeInformation.newT at h
  generalize hrun : TypeInformation.newP cfg (Reader.new R) = res at h ⊢
  obtain ⟨o, r'⟩ := res
  cases h
  show ∃ l, _ ∧ r'.trace.map place = _
  unfold TypeInformation.newP at hrun
  change P.bind _ _ _ = _ at hrun
  unfold P.bind at hrun
  rcases header_any (cfg := cfg) (R := R) with ⟨e, fh, r1, h1, hann, hat0⟩ | ⟨q', r1, h1, -, h3⟩
  swap
  · rw [h1] at hrun
    cases hrun
    rcases h3 with ⟨k, -, ⟨i, pl, h4, h5, h6, h7⟩, hnb⟩ | ⟨v, -, h4, -, b, hb, hno⟩
    · have hmem := List.mem_of_getElem? h4
      have hsize : ∀ p ∈ headerFields, 0 < p.2 ∧ p.1 < 2 ^ 32 := by decide
      have hmiss : f.length < pl.1 + pl.2 := by
        have hs := hS (headerRequests i) pl.1 pl.2 (hsize _ hmem).1 (by have := (hsize _ hmem).2; omega)
        by_cases hle : pl.1 + pl.2 ≤ f.length
        · rw [if_pos hle] at hs
          obtain ⟨b, hb, -⟩ := hs
          rw [hb] at h5
          cases h5
        · omega
      refine ⟨headerFields.take (i + 1), .short (pos := pl.1) (n := pl.2) h4 hmiss (fun j hj p m hpm => ?_) (fun hi => ?_), ?_⟩
      · obtain ⟨pl', b, g1, g2⟩ := h7 j hj
        rw [hpm] at g1
        cases g1
        have hmem := List.mem_of_getElem? hpm
        have hs := hS (headerRequests j) p m (hsize _ hmem).1 (by have := (hsize _ hmem).2; omega)
        by_cases hle : p + m ≤ f.length
        · exact hle
        · rw [if_neg hle] at hs
          obtain ⟨x, hx⟩ := hs
          rw [g2] at hx
          cases hx
      · obtain ⟨pl', b, g1, g2⟩ := h7 0 hi
        cases g1
        by_contra hcon
        refine hnb ⟨b, g2, fun e he => hcon ⟨e, ?_⟩⟩
        cases e <;> exact (magic_iff hS).1 ⟨b, g2, he⟩
      · rw [h6, List.take_add_one, h4]
        unfold headerRequests
        rw [List.map_cons, List.map_reverse, List.map_map]
        simp only [Option.toList_some, List.reverse_append, List.reverse_singleton, List.singleton_append, List.cons.injEq]
        refine ⟨rfl, ?_⟩
        congr 1
        exact List.map_id _
    · refine ⟨[(0, 2)], .magic ?_ (fun e he => ?_), by rw [h4]; rfl⟩
      · have hs := hS [] 0 2 (by decide) (by omega)
        by_cases hle : 0 + 2 ≤ f.length
        · omega
        · rw [if_neg hle] at hs
          obtain ⟨x, hx⟩ := hs
          rw [hb] at hx
          cases hx
      · have : ∃ b, R.read [] 0 2 = .ok b ∧ [b 0, b 1] = magic e := by
          cases e <;> exact (magic_iff hS).2 he
        obtain ⟨b', hb', he'⟩ := this
        rw [hb] at hb'
        cases hb'
        exact hno e he'
  have hp := (announces_iff hS).1 hann
  have hat : At cfg f e 24 r1 := ⟨by rw [hat0.readable]; exact hS, hat0.endianness, hat0.last rfl⟩
  rw [h1] at hrun
  have htr : r1.trace.map place = headerFields.reverse := by rw [hat0.trace]; rfl
  have hf := hfit e fh hp
  simp only [] at hrun
  change P.bind _ _ _ = _ at hrun
  unfold P.bind P.lift at hrun
  cases hs : u32CheckedAdd fh.hdrLen fh.typeOff with
  | none =>
    rw [hs] at hrun
    rw [u32CheckedAdd_eq_none] at hs
    cases hrun
    exact ⟨_, .big hp (by unfold typeEnd typeStart; omega), htr⟩
  | some s =>
    rw [hs] at hrun
    rw [u32CheckedAdd_eq_some] at hs
    have hst : s.toNat = typeStart fh := hs
    have hslt := s.toNat_lt
    simp only [okOr] at hrun
    change P.bind _ _ _ = _ at hrun
    unfold P.bind at hrun
    rw [hst] at hrun
    unfold Cfg.usizeCheckedAdd at hrun
    by_cases hadd : typeStart fh + fh.typeLen.toNat < cfg.usizeMod
    · rw [if_pos hadd] at hrun
      simp only [] at hrun
      change P.bind (setOffset _) _ _ = _ at hrun
      unfold P.bind setOffset at hrun
      simp only [] at hrun
      change parseLoop cfg fh (typeEnd fh) _ _ _ _ = _ at hrun
      have hat' : At cfg f e (typeStart fh) { r1 with offset := typeStart fh } := ⟨hat.serves, hat.endianness, rfl⟩
      by_cases hE : typeEnd fh < 2 ^ 32
      · obtain ⟨l, g1, g2⟩ := loop_stops hf hE _ _ _ _ _ _ _ (Nat.le_refl _) hat' hrun
        refine ⟨headerFields ++ l, .record hp hE g1, ?_⟩
        rw [g2]
        show _ ++ r1.trace.map place = _
        rw [htr, List.reverse_append]
      · rw [loop_overflow (by omega) (by omega) _ _ _ (by show typeStart fh < typeEnd fh; omega)] at hrun
        cases hrun
        exact ⟨_, .big hp (by omega), htr⟩
    · rw [if_neg hadd] at hrun
      cases hrun
      exact ⟨_, .big hp (by unfold typeEnd; omega), htr⟩

/-! ### The requests are determined by the file -/

theorem stringAsks_unique {off : UInt32} {l l' : List (Nat × Nat)} (h : StringAsks f fh off l) (h' : StringAsks f fh off l') : l = l' := by
  obtain ⟨-, k, -, h1, h2, rfl⟩ := h
  obtain ⟨-, k', -, h1', h2', rfl⟩ := h'
  rcases Nat.lt_trichotomy k k' with hlt | rfl | hlt
  · exact absurd h2 (h1' k hlt)
  · rfl
  · exact absurd h2' (h1 k' hlt)

theorem stringStops_unique {off : UInt32} {l l' : List (Nat × Nat)} (h : StringStops f fh off l) (h' : StringStops f fh off l') : l = l' := by
  rcases h with ⟨h1, rfl⟩ | ⟨h1, h2, h3, last, h4, rfl⟩ <;> rcases h' with ⟨g1, rfl⟩ | ⟨g1, g2, g3, last', g4, rfl⟩
  · rfl
  · omega
  · omega
  · obtain rfl : last = last' := by omega
    rfl

theorem string_asks_stops {off : UInt32} {l l' : List (Nat × Nat)} (h : StringAsks f fh off l) (h' : StringStops f fh off l') : False := by
  obtain ⟨h0, k, h1, -, h2, -⟩ := h
  rcases h' with ⟨g1, -⟩ | ⟨-, -, g3, -⟩
  · omega
  · exact g3 _ (by omega) h1 h2

theorem asks_unique {n : Need} {l l' : List (Nat × Nat)} (h : n.asks f e fh l) (h' : n.asks f e fh l') : l = l' := by
  cases n with
  | string p =>
    obtain ⟨o, hw, h⟩ := h
    obtain ⟨o', hw', h'⟩ := h'
    obtain rfl := word_unique hw hw'
    exact stringAsks_unique h h'
  | name p =>
    obtain ⟨o, hw, h⟩ := h
    obtain ⟨o', hw', h'⟩ := h'
    obtain rfl := word_unique hw hw'
    split at h
    · rw [if_pos ‹_›] at h'; rw [h, h']
    · rw [if_neg ‹_›] at h'; exact stringAsks_unique h h'
  | _ => exact h.2.trans h'.2.symm

theorem stops_unique {n : Need} {l l' : List (Nat × Nat)} (h : n.stops f e fh l) (h' : n.stops f e fh l') : l = l' := by
  cases n with
  | string p =>
    obtain ⟨o, hw, h⟩ := h
    obtain ⟨o', hw', h'⟩ := h'
    obtain rfl := word_unique hw hw'
    exact stringStops_unique h h'
  | name p =>
    obtain ⟨o, hw, -, h⟩ := h
    obtain ⟨o', hw', -, h'⟩ := h'
    obtain rfl := word_unique hw hw'
    exact stringStops_unique h h'
  | _ => exact h.2.trans h'.2.symm

/-- A need cannot be both met and not met. -/
theorem asks_stops {n : Need} {l l' : List (Nat × Nat)} (h : n.asks f e fh l) (h' : n.stops f e fh l') : False := by
  cases n with
  | bytes p k => have := h.1; have := h'.1; omega
  | inside p => have := h.1; have := h'.1; omega
  | kind p =>
    obtain ⟨⟨w, k, hw, hk⟩, -⟩ := h
    obtain ⟨⟨w', hw', hk'⟩, -⟩ := h'
    obtain rfl := word_unique hw hw'
    exact hk' k hk
  | string p =>
    obtain ⟨o, hw, h⟩ := h
    obtain ⟨o', hw', h'⟩ := h'
    obtain rfl := word_unique hw hw'
    exact string_asks_stops h h'
  | name p =>
    obtain ⟨o, hw, h⟩ := h
    obtain ⟨o', hw', h0, h'⟩ := h'
    obtain rfl := word_unique hw hw'
    rw [if_neg h0] at h
    exact string_asks_stops h h'
  | aligned p =>
    obtain ⟨⟨w, hw, hk⟩, -⟩ := h
    obtain ⟨⟨w', hw', hk'⟩, -⟩ := h'
    obtain rfl := word_unique hw hw'
    exact hk' hk

theorem asksAll_unique {ns : List Need} {l l' : List (Nat × Nat)} (h : AsksAll f e fh ns l) (h' : AsksAll f e fh ns l') : l = l' := by
  induction h generalizing l' with
  | nil => cases h'; rfl
  | cons h1 _ ih =>
    cases h' with
    | cons g1 g2 => rw [asks_unique h1 g1, ih g2]

theorem stopsAt_unique {ns : List Need} {l l' : List (Nat × Nat)} (h : StopsAt f e fh ns l) (h' : StopsAt f e fh ns l') : l = l' := by
  induction h generalizing l' with
  | here h1 =>
    cases h' with
    | here g1 => exact stops_unique h1 g1
    | later g1 _ => exact absurd h1 (asks_stops g1)
  | later h1 _ ih =>
    cases h' with
    | here g1 => exact absurd g1 (asks_stops h1)
    | later g1 g2 => rw [asks_unique h1 g1, ih g2]

theorem asksAll_stopsAt {ns ns' : List Need} {l l' : List (Nat × Nat)} (h : AsksAll f e fh (ns ++ ns') l) (h' : StopsAt f e fh ns l') : False := by
  induction h' generalizing l with
  | here h1 => cases h with | cons g1 _ => exact asks_stops g1 h1
  | later _ _ ih => cases h with | cons _ g2 => exact ih g2

theorem recordAsks_unique {l l' : List (Nat × Nat)} (h : RecordAsks f e fh pos l) (h' : RecordAsks f e fh pos l') : l = l' := by
  induction h generalizing l' with
  | nil hle =>
    cases h' with
    | nil => rfl
    | cons hlt => omega
  | cons hlt h1 h2 _ ih =>
    cases h' with
    | nil => omega
    | cons _ g1 g2 g3 =>
      cases headerAt_unique h1 g1
      rw [asksAll_unique h2 g2, ih g3]

theorem recordStops_unique {l l' : List (Nat × Nat)} (h : RecordStops f e fh pos l) (h' : RecordStops f e fh pos l') : l = l' := by
  induction h generalizing l' with
  | header hlt h1 =>
    cases h' with
    | header _ g1 => exact stopsAt_unique h1 g1
    | body _ _ g1 => exact stopsAt_unique (stopsAt_append h1) g1
    | later _ _ g1 => exact absurd h1 (asksAll_stopsAt g1)
  | body hlt hh h1 =>
    cases h' with
    | header _ g1 => exact stopsAt_unique h1 (stopsAt_append g1)
    | body _ gh g1 =>
      cases headerAt_unique hh gh
      exact stopsAt_unique h1 g1
    | later _ gh g1 =>
      cases headerAt_unique hh gh
      exact absurd h1 (asksAll_stopsAt (ns' := []) (by rwa [List.append_nil]))
  | later hlt hh h1 _ ih =>
    cases h' with
    | header _ g1 => exact absurd g1 (asksAll_stopsAt h1)
    | body _ gh g1 =>
      cases headerAt_unique hh gh
      exact absurd g1 (asksAll_stopsAt (ns' := []) (by rwa [List.append_nil]))
    | later _ gh g1 g2 =>
      cases headerAt_unique hh gh
      rw [asksAll_unique h1 g1, ih g2]

theorem recordAsks_stops {l l' : List (Nat × Nat)} (h : RecordAsks f e fh pos l) (h' : RecordStops f e fh pos l') : False := by
  induction h generalizing l' with
  | nil hle => cases h' <;> omega
  | cons hlt hh h1 _ ih =>
    cases h' with
    | header _ g1 => exact asksAll_stopsAt h1 g1
    | body _ gh g1 =>
      cases headerAt_unique hh gh
      exact asksAll_stopsAt (ns' := []) (by rwa [List.append_nil]) g1
    | later _ gh g1 g2 =>
      cases headerAt_unique hh gh
      exact ih g2

theorem fileAsks_unique {l l' : List (Nat × Nat)} (h : FileAsks f l) (h' : FileAsks f l') : l = l' := by
  obtain ⟨e, fh, m, hp, -, h, rfl⟩ := h
  obtain ⟨e', fh', m', hp', -, h', rfl⟩ := h'
  obtain ⟨rfl, rfl⟩ := preamble_unique hp hp'
  rw [recordAsks_unique h h']

/-- A header that can be decoded is not too short. -/
theorem preamble_fields {fh : FileHeader} (hp : Preamble f e fh) {i p n : Nat} (h : headerFields[i]? = some (p, n)) : p + n ≤ f.length := by
  have hlen : 24 ≤ f.length := hp.strLen.1
  have hall : ∀ q ∈ headerFields, q.1 + q.2 ≤ 24 := by decide
  have := hall _ (List.mem_of_getElem? h)
  simp only [] at this
  omega

theorem fileStops_unique {l l' : List (Nat × Nat)} (h : FileStops f l) (h' : FileStops f l') : l = l' := by
  have hshort : ∀ {i p n}, headerFields[i]? = some (p, n) → f.length < p + n → 2 ≤ f.length → 0 < i := by
    intro i p n h1 h2 h3
    cases i with
    | zero => cases h1; omega
    | succ i => omega
  cases h with
  | magic h1 h2 =>
    cases h' with
    | magic => rfl
    | short g1 g2 g3 g4 =>
      obtain ⟨e, he⟩ := g4 (hshort g1 g2 h1)
      exact absurd he (h2 e)
    | big hp => exact absurd hp.magic (h2 _)
    | record hp => exact absurd hp.magic (h2 _)
  | @short i p n h1 h2 h3 h4 =>
    cases h' with
    | magic g1 g2 =>
      obtain ⟨e, he⟩ := h4 (hshort h1 h2 g1)
      exact absurd he (g2 e)
    | @short i' p' n' g1 g2 g3 g4 =>
      rcases Nat.lt_trichotomy i i' with hlt | rfl | hlt
      · have := g3 i hlt p n h1; omega
      · rfl
      · have := h3 i' hlt p' n' g1; omega
    | big hp => have := preamble_fields hp h1; omega
    | record hp => have := preamble_fields hp h1; omega
  | big hp hE =>
    cases h' with
    | magic g1 g2 => exact absurd hp.magic (g2 _)
    | short g1 g2 => have := preamble_fields hp g1; omega
    | big => rfl
    | record hp' hE' =>
      obtain ⟨rfl, rfl⟩ := preamble_unique hp hp'
      omega
  | record hp hE hr =>
    cases h' with
    | magic g1 g2 => exact absurd hp.magic (g2 _)
    | short g1 g2 => have := preamble_fields hp g1; omega
    | big hp' hE' =>
      obtain ⟨rfl, rfl⟩ := preamble_unique hp hp'
      omega
    | record hp' hE' hr' =>
      obtain ⟨rfl, rfl⟩ := preamble_unique hp hp'
      rw [recordStops_unique hr hr']

/-- No file is both accepted and refused. -/
theorem fileAsks_stops {l l' : List (Nat × Nat)} (h : FileAsks f l) (h' : FileStops f l') : False := by
  obtain ⟨e, fh, m, hp, hE, h, rfl⟩ := h
  cases h' with
  | magic g1 g2 => exact absurd hp.magic (g2 _)
  | short g1 g2 => have := preamble_fields hp g1; omega
  | big hp' hE' =>
    obtain ⟨rfl, rfl⟩ := preamble_unique hp hp'
    omega
  | record hp' hE' hr' =>
    obtain ⟨rfl, rfl⟩ := preamble_unique hp hp'
    exact recordAsks_stops h hr'

end

end Btf

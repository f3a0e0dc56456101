import Verif.Proofs.Trail
import Verif.Proofs.Ints
import Verif.Props.Parse
import Verif.SamplesFull

/-!
# Properties C99 and C101: the exact requests of `new`, for accepted and for refused files
-/

namespace Btf.Props

open Btf Spec Reader

variable {cfg : Cfg} {R : Readable} {f : List UInt8}

/-- C99: if `new` succeeds, it has made exactly the requests that are listed for the file, in this order (a trace lists the
latest request first), each once, and all were answered. -/
theorem new_requests_list (hS : Serves cfg R f) (ha : FitsTarget cfg f) {ti : TypeInformation}
    (h : TypeInformation.new cfg R = .ok ti) :
    ∃ l, FileAsks f l ∧ TypeInformation.newTrace cfg R = (l.map fun p => ⟨p.1, p.2, none⟩).reverse ∧ ∀ l', FileAsks f l' → l' = l := by
  rw [new_ok] at h
  obtain ⟨l, h1, h2⟩ := newP_trace hS (fits_of_target ha) h
  exact ⟨l, h1, h2, fun l' h' => fileAsks_unique h' h1⟩

/-- C99: so the requests depend on the file only, not on the source, nor on the build. -/
theorem new_requests_same {cfg' : Cfg} {R' : Readable} (hS : Serves cfg R f) (hS' : Serves cfg' R' f) (ha : FitsTarget cfg f) (ha' : FitsTarget cfg' f)
    {ti : TypeInformation} (h : TypeInformation.new cfg R = .ok ti) : TypeInformation.newTrace cfg' R' = TypeInformation.newTrace cfg R := by
  rw [new_ok] at h
  have h' : ∃ ti', TypeInformation.newT cfg' R' = .ok ti' := by
    rcases newT_file hS (fits_of_target ha) with ⟨vs, h1, -⟩ | ⟨k, h1, -⟩
    · rcases newT_file hS' (fits_of_target ha') with ⟨vs', -, h2⟩ | ⟨k, -, -, h2⟩
      · exact ⟨_, h2⟩
      · exact absurd h1 (h2 vs)
    · rw [h] at h1; cases h1
  obtain ⟨ti', h'⟩ := h'
  obtain ⟨l, h1, h2⟩ := newP_trace hS (fits_of_target ha) h
  obtain ⟨l', h1', h2'⟩ := newP_trace hS' (fits_of_target ha') h'
  rw [h2, h2', fileAsks_unique h1 h1']

/-- C101: if `new` refuses the file, it has asked for exactly the places that are listed for the file, in this order: up to the first
thing that cannot be decoded, and not beyond. -/
theorem refused_requests_list (hS : Serves cfg R f) (ha : FitsTarget cfg f) {k : ErrorKind}
    (h : TypeInformation.new cfg R = .err k) :
    ∃ l, FileStops f l ∧ (TypeInformation.newTrace cfg R).map (fun ev => (ev.offset, ev.len)) = l.reverse ∧ ∀ l', FileStops f l' → l' = l := by
  obtain ⟨q, h, -⟩ := new_err.1 h
  obtain ⟨l, h1, h2⟩ := newP_stops hS (fits_of_target ha) h
  exact ⟨l, h1, h2, fun l' h' => fileStops_unique h' h1⟩

/-- C101: every file is either accepted or refused, and the two lists tell which. -/
theorem requests_verdict (hS : Serves cfg R f) (ha : FitsTarget cfg f) :
    ((∃ ti, TypeInformation.new cfg R = .ok ti) ↔ ∃ l, FileAsks f l) ∧
    ((∃ k, TypeInformation.new cfg R = .err k) ↔ ∃ l, FileStops f l) ∧ ¬ ((∃ l, FileAsks f l) ∧ ∃ l, FileStops f l) := by
  have hdis : ¬ ((∃ l, FileAsks f l) ∧ ∃ l, FileStops f l) := fun ⟨⟨l, h⟩, l', h'⟩ => fileAsks_stops h h'
  rcases newT_file hS (fits_of_target ha) with ⟨vs, -, h1⟩ | ⟨q, h1, -⟩
  · obtain ⟨l, h2, -⟩ := newP_trace hS (fits_of_target ha) h1
    have hno : ¬ ∃ l, FileStops f l := fun h => hdis ⟨⟨l, h2⟩, h⟩
    refine ⟨⟨fun _ => ⟨l, h2⟩, fun _ => ⟨_, new_ok.2 h1⟩⟩, ⟨fun ⟨k, hk⟩ => ?_, fun h => absurd h hno⟩, hdis⟩
    rw [new_ok.2 h1] at hk
    cases hk
  · obtain ⟨l, h2, -⟩ := newP_stops hS (fits_of_target ha) h1
    have hno : ¬ ∃ l, FileAsks f l := fun h => hdis ⟨h, l, h2⟩
    refine ⟨⟨fun ⟨ti, hti⟩ => ?_, fun h => absurd h hno⟩, ⟨fun _ => ⟨l, h2⟩, fun _ => ⟨_, new_err.2 ⟨q, h1, rfl⟩⟩⟩, hdis⟩
    rw [new_ok, h1] at hti
    cases hti

/-- C101: the places that are asked for depend on the file only, also if it is refused. -/
theorem places_same {cfg' : Cfg} {R' : Readable} (hS : Serves cfg R f) (hS' : Serves cfg' R' f) (ha : FitsTarget cfg f) (ha' : FitsTarget cfg' f) :
    (TypeInformation.newTrace cfg' R').map (fun ev => (ev.offset, ev.len)) =
      (TypeInformation.newTrace cfg R).map (fun ev => (ev.offset, ev.len)) := by
  rcases newT_file hS (fits_of_target ha) with ⟨vs, -, h1⟩ | ⟨q, h1, -⟩
  · rw [new_requests_same hS hS' ha ha' (new_ok.2 h1)]
  · obtain ⟨l, h2, h3⟩ := newP_stops hS (fits_of_target ha) h1
    have h' := (requests_verdict hS' ha').2.1.2 ⟨l, h2⟩
    obtain ⟨k', h'⟩ := h'
    obtain ⟨l', g1, g2, -⟩ := refused_requests_list hS' ha' h'
    rw [g2, fileStops_unique g1 h2]
    exact h3.symm

theorem ints_sizes {α : Type} {p : P α} (h : IntProg cfg p) :
    ∀ r, ∃ new, (p r).2.trace = new ++ r.trace ∧ ∀ ev ∈ new, ev.len = 1 ∨ ev.len = 4 ∨ ev.len = 8 := by
  have hread : ∀ n r, ∃ new, (Reader.read cfg n r).2.trace = new ++ r.trace ∧ ∀ ev ∈ new, ev.len = n := by
    intro n r
    unfold Reader.read
    split
    · exact ⟨[_], rfl, by simp⟩
    · split <;> exact ⟨[_], rfl, by simp⟩
  induction h with
  | pure a => exact fun r => ⟨[], rfl, by simp⟩
  | lift o => exact fun r => ⟨[], rfl, by simp⟩
  | getOffset => exact fun r => ⟨[], rfl, by simp⟩
  | setOffset o => exact fun r => ⟨[], rfl, by simp⟩
  | u8 =>
    intro r
    obtain ⟨new, h1, h2⟩ := hread 1 r
    change ∃ new, (P.bind (Reader.read cfg 1) _ r).2.trace = _ ∧ _
    unfold P.bind
    cases hr : Reader.read cfg 1 r with
    | mk o r1 =>
      rw [hr] at h1
      cases o <;> exact ⟨new, h1, fun ev hev => .inl (h2 ev hev)⟩
  | int n hn mk =>
    intro r
    obtain ⟨new, h1, h2⟩ := hread n r
    change ∃ new, (P.bind (Reader.read cfg n) _ r).2.trace = _ ∧ _
    unfold P.bind
    have hlen : ∀ ev ∈ new, ev.len = 1 ∨ ev.len = 4 ∨ ev.len = 8 := fun ev hev => by rw [h2 ev hev]; exact .inr hn
    cases hr : Reader.read cfg n r with
    | mk o r1 =>
      rw [hr] at h1
      cases o <;> exact ⟨new, h1, hlen⟩
  | @bind α β p q hp hq ih ih' =>
    intro r
    change ∃ new, (P.bind p q r).2.trace = _ ∧ _
    unfold P.bind
    obtain ⟨new, h1, h2⟩ := ih r
    cases hr : p r with
    | mk o r1 =>
      rw [hr] at h1
      cases o with
      | ok a =>
        obtain ⟨new', h3, h4⟩ := ih' a r1
        refine ⟨new' ++ new, by simp only []; rw [h3, h1, List.append_assoc], fun ev hev => ?_⟩
        rcases List.mem_append.1 hev with hev | hev
        · exact h4 ev hev
        · exact h2 ev hev
      | _ => exact ⟨new, h1, h2⟩
  | @restoring α p o hp ih =>
    intro r
    obtain ⟨new, h1, h2⟩ := ih r
    refine ⟨new, ?_, h2⟩
    rw [← h1]
    unfold P.restoring
    cases hr : p r with
    | mk o r1 => cases o <;> rfl

/-- C99: whatever the source answers, in every build, every request is for 1, 2, 4 or 8 bytes (never for none, and never for a
whole section), and only the first one, at offset 0, is for 2. -/
theorem new_request_sizes (cfg : Cfg) (R : Readable) (ev : ReadEvent) (hev : ev ∈ TypeInformation.newTrace cfg R) :
    ev.len = 1 ∨ ev.len = 4 ∨ ev.len = 8 ∨ ev.len = 2 ∧ ev.offset = 0 := by
  have hhdr : ∀ i ≤ 8, ∀ ev ∈ headerRequests i, ev.len = 1 ∨ ev.len = 4 ∨ ev.len = 8 ∨ ev.len = 2 ∧ ev.offset = 0 := by decide
  unfold TypeInformation.newTrace at hev
  rw [newP_eq] at hev
  change _ ∈ (P.bind _ _ _).2.trace at hev
  unfold P.bind at hev
  rcases header_any (cfg := cfg) (R := R) with ⟨e, fh, r, h1, -, h3⟩ | ⟨k, r, h1, -, h3⟩
  · rw [h1] at hev
    obtain ⟨new, h4, h5⟩ := ints_sizes (ints_afterHeader (cfg := cfg) fh) r
    simp only [] at hev
    rw [h4, h3.trace] at hev
    rcases List.mem_append.1 hev with hev | hev
    · rcases h5 ev hev with h | h | h
      · exact .inl h
      · exact .inr (.inl h)
      · exact .inr (.inr (.inl h))
    · exact hhdr 8 (Nat.le_refl _) ev hev
  · rw [h1] at hev
    simp only [] at hev
    rcases h3 with ⟨_, -, ⟨i, place, h4, -, h5, -⟩, -⟩ | ⟨_, -, h5, -⟩
    · have hi : i < 8 := (List.getElem?_eq_some_iff.1 h4).1
      rw [h5] at hev
      rcases List.mem_cons.1 hev with rfl | hev
      · have : ∀ i < 8, ∀ place, headerFields[i]? = some place →
            place.2 = 1 ∨ place.2 = 4 ∨ place.2 = 8 ∨ place.2 = 2 ∧ place.1 = 0 := by
          intro i hi place h
          have hmem := List.mem_of_getElem? h
          have hall : ∀ p ∈ headerFields, p.2 = 1 ∨ p.2 = 4 ∨ p.2 = 8 ∨ p.2 = 2 ∧ p.1 = 0 := by decide
          exact hall place hmem
        exact this i hi place h4
      · exact hhdr i (by omega) ev hev
    · rw [h5] at hev
      exact hhdr 1 (by decide) ev hev

/-! ### Concrete cases -/

/-- A file with one type, an `int` named `i`. -/
def oneInt : List UInt8 := Samples.leFile [1, 0x1000000, 4, 0x20] [0, 105, 0]

/-- `new_requests_list`: for this file these are the requests: the eight fields of the header, the four words of the record, and the
two bytes of the name. -/
example : FileAsks oneInt [(0, 2), (2, 1), (3, 1), (4, 4), (8, 4), (12, 4), (16, 4), (20, 4), (24, 4), (28, 4), (32, 4), (36, 4), (41, 1), (42, 1)] := by
  have hp : TypeInformation.new Samples.dbg (readableBuffer Samples.dbg oneInt) =
      .ok ⟨⟨[(1, .int ⟨.Int, 1, 0, false, 4⟩ ⟨some (str "i"), 4, false, false, false, 0, 32⟩)]⟩, ⟨[(str "i", 1)]⟩, ⟨[(1, str "i")]⟩⟩ := by
    decide +kernel
  obtain ⟨l, h1, h2, -⟩ := new_requests_list (serves_buffer Samples.dbg oneInt (by decide +kernel)) (.inl rfl) hp
  have h3 : TypeInformation.newTrace Samples.dbg (readableBuffer Samples.dbg oneInt) =
      ([(0, 2), (2, 1), (3, 1), (4, 4), (8, 4), (12, 4), (16, 4), (20, 4), (24, 4), (28, 4), (32, 4), (36, 4), (41, 1), (42, 1)].map
        fun p : Nat × Nat => (⟨p.1, p.2, none⟩ : ReadEvent)).reverse := by decide +kernel
  rw [h2] at h3
  have hinj : Function.Injective fun p : Nat × Nat => (⟨p.1, p.2, none⟩ : ReadEvent) := by
    rintro ⟨a, b⟩ ⟨c, d⟩ h; cases h; rfl
  have := hinj.list_map (List.reverse_injective h3)
  rwa [this] at h1

/-- `new_requests_same`, `new_request_sizes`: on the sample file. -/
example (R : Readable) (hS : Serves Samples.rel R (Samples.leFile Samples.zooTypes Samples.zooStrings)) :
    TypeInformation.newTrace Samples.rel R = TypeInformation.newTrace Samples.dbg (Samples.buffer (Samples.leFile Samples.zooTypes Samples.zooStrings)) :=
  new_requests_same (serves_buffer Samples.dbg _ (by decide +kernel)) hS (.inl rfl) (.inl rfl) Samples.zoo_parsed
example := new_request_sizes Samples.dbg (Samples.buffer oneInt) ⟨41, 1, none⟩ (by decide +kernel)

/-- `refused_requests_list`, `requests_verdict`: the same file, cut inside the name: the last request is for the byte that is missing. -/
example : FileStops (oneInt.take 42) [(0, 2), (2, 1), (3, 1), (4, 4), (8, 4), (12, 4), (16, 4), (20, 4), (24, 4), (28, 4), (32, 4), (36, 4), (41, 1), (42, 1)] := by
  have hp : TypeInformation.new Samples.dbg (readableBuffer Samples.dbg (oneInt.take 42)) = .err .EOF := by decide +kernel
  obtain ⟨l, h1, h2, -⟩ := refused_requests_list (serves_buffer Samples.dbg (oneInt.take 42) (by decide +kernel)) (.inl rfl) hp
  have h3 : (TypeInformation.newTrace Samples.dbg (readableBuffer Samples.dbg (oneInt.take 42))).map (fun ev => (ev.offset, ev.len)) =
      [(0, 2), (2, 1), (3, 1), (4, 4), (8, 4), (12, 4), (16, 4), (20, 4), (24, 4), (28, 4), (32, 4), (36, 4), (41, 1), (42, 1)].reverse := by
    decide +kernel
  rw [h2] at h3
  have := List.reverse_injective h3
  rwa [this] at h1

/-- `requests_verdict`, `places_same`: a file with a wrong magic; only the magic is asked for. -/
example (R : Readable) (hS : Serves Samples.rel R (1 :: oneInt)) :
    (TypeInformation.newTrace Samples.rel R).map (fun ev => (ev.offset, ev.len)) = [(0, 2)] := by
  rw [places_same (serves_buffer Samples.dbg (1 :: oneInt) (by decide +kernel)) hS (.inl rfl) (.inl rfl)]
  decide +kernel

end Btf.Props

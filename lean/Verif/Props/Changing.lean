import Verif.Spec.Changing
import Verif.Proofs.March
import Verif.Proofs.Blank
import Verif.Props.Source
import Verif.Props.Parse

/-!
# Property C92: sources that change while they are read
-/

namespace Btf.Props

open Btf Spec Reader

variable {cfg : Cfg} {R : Readable}

/-- After the header, the type section is read from its beginning on. -/
theorem new_marches (hR : Addressable cfg R) {e : Endianness} {fh : FileHeader} (h : Announces R e fh) :
    ∃ hi new, TypeInformation.newTrace cfg R = new ++ headerRequests 8 ∧ Strides (ForName fh) (typeStart fh) hi new ∧
      ∀ ev ∈ new, InSections fh ev := by
  have hf := fits_of_addressable hR e fh h
  obtain ⟨r, h1, h2⟩ := header_announced (cfg := cfg) h
  have hrun : TypeInformation.newP cfg (Reader.new R) = afterHeader cfg fh r := by
    rw [newP_eq]; change P.bind _ _ _ = _; unfold P.bind; rw [h1]
  obtain ⟨⟨new, h4, h5⟩, -⟩ := (safe_afterHeader hf r.offset).run r rfl
  have hb : ∀ ev ∈ new, ev.offset + ev.len < cfg.usizeMod := by
    intro ev hev
    have hw : typeEnd fh + 12 < cfg.usizeMod ∧ strEnd fh < cfg.usizeMod := by
      have t1 := fh.hdrLen.toNat_lt
      have t2 := fh.typeOff.toNat_lt
      have t3 := fh.typeLen.toNat_lt
      have t4 := fh.strOff.toNat_lt
      have t5 := fh.strLen.toNat_lt
      rcases hR with hw | hw
      · have : cfg.usizeMod = 2 ^ 64 := by unfold Cfg.usizeMod; rw [hw]
        unfold typeEnd typeStart strEnd strStart
        omega
      · have := hw e fh h
        have := usizeMod_ge cfg
        omega
    rcases h5 ev hev with ⟨hw', -⟩ | ⟨hw', -⟩
    · have := hw'.2; omega
    · have := hw'.2; omega
  have key : ∃ hi, Strides (ForName fh) (typeStart fh) hi new := by
    unfold afterHeader at h4
    cases hs : u32CheckedAdd fh.hdrLen fh.typeOff with
    | none =>
      rw [hs] at h4
      obtain rfl : new = [] := (List.append_cancel_right (as := []) h4).symm
      exact ⟨_, .start⟩
    | some s =>
      rw [hs] at h4
      have hst : s.toNat = typeStart fh := u32CheckedAdd_eq_some.1 hs
      change (P.bind (P.lift (cfg.usizeCheckedAdd s.toNat fh.typeLen.toNat |> (okOr · .typeSectionEnd))) _ r).2.trace = _ at h4
      unfold P.bind P.lift at h4
      rw [hst] at h4
      unfold Cfg.usizeCheckedAdd at h4
      by_cases hadd : typeStart fh + fh.typeLen.toNat < cfg.usizeMod
      · rw [if_pos hadd] at h4
        simp only [okOr] at h4
        change (parseLoop cfg fh (typeEnd fh) (fh.typeLen.toNat + 1) 1 TypeInformation.empty { r with offset := typeStart fh }).2.trace = _ at h4
        obtain ⟨new', h6, h7⟩ := marches_loop hf (typeEnd fh) (fh.typeLen.toNat + 1) 1 TypeInformation.empty { r with offset := typeStart fh }
        rw [h6] at h4
        obtain rfl := List.append_cancel_right h4
        obtain ⟨hi, h8, -⟩ := h7 hb
        exact ⟨hi, h8⟩
      · rw [if_neg hadd] at h4
        obtain rfl : new = [] := (List.append_cancel_right (as := []) h4).symm
        exact ⟨_, .start⟩
  obtain ⟨hi, key⟩ := key
  refine ⟨hi, new, ?_, key, h5⟩
  unfold TypeInformation.newTrace
  rw [hrun, h4, h2.trace]

/-- C92: whatever the source answers, `new` reads the header and the type section from front to back; the only bytes it asks
for twice are those of the string section. -/
theorem new_reads_once (cfg : Cfg) (R : Readable) (hR : Addressable cfg R) (e : Endianness) (fh : FileHeader)
    (h : Announces R e fh) (ha : 24 ≤ typeStart fh) :
    (TypeInformation.newTrace cfg R).Pairwise fun later earlier =>
      (ForName fh later ∨ ForName fh earlier ∨ earlier.offset + earlier.len ≤ later.offset) ∧
      ∀ i, Covers later i → Covers earlier i → InStrings fh i := by
  obtain ⟨hi, new, h1, h2, h3⟩ := new_marches (cfg := cfg) hR h
  rw [h1]
  have hin := inHeader_requests 8
  have key : ∀ later earlier : ReadEvent, (ForName fh later ∨ ForName fh earlier ∨ earlier.offset + earlier.len ≤ later.offset) →
      (ForName fh later ∨ ForName fh earlier ∨ earlier.offset + earlier.len ≤ later.offset) ∧
      ∀ i, Covers later i → Covers earlier i → InStrings fh i := by
    rintro x y h
    refine ⟨h, fun i ⟨hx, hx'⟩ ⟨hy, hy'⟩ => ?_⟩
    rcases h with h | h | h
    · have := h.1.1; have := h.1.2; exact ⟨by omega, by omega⟩
    · have := h.1.1; have := h.1.2; exact ⟨by omega, by omega⟩
    · omega
  refine List.pairwise_append.2 ⟨h2.apart.imp fun {x y} h => key x y h, ?_, ?_⟩
  · have : (headerRequests 8).Pairwise fun later earlier => earlier.offset + earlier.len ≤ later.offset := by decide
    exact this.imp fun {x y} h => key x y (.inr (.inr h))
  · intro x hx y hy
    have hy' := (hin y hy).2
    rcases h3 x hx with ⟨⟨h4, h5⟩, -⟩ | h4
    · exact key x y (.inr (.inr (by omega)))
    · exact key x y (.inl h4)

theorem split_compare {α : Type} {p : α → α → Prop} {l l1 l2 r1 r2 : List α} {x y : α} (hp : l.Pairwise p) (h1 : l = l1 ++ x :: r1)
    (h2 : l = l2 ++ y :: r2) : (x = y ∧ r1 = r2) ∨ p x y ∨ p y x := by
  rw [h1] at h2
  rcases List.append_eq_append_iff.1 h2 with ⟨as, h3, h4⟩ | ⟨as, h3, h4⟩
  · cases as with
    | nil => simp at h4; exact .inl ⟨h4.1, h4.2⟩
    | cons a as =>
      injection h4 with h4 h5
      subst h4
      rw [h1, List.pairwise_append, h5] at hp
      exact .inr (.inl ((List.pairwise_cons.1 hp.2.1).1 y (by simp)))
  · cases as with
    | nil => simp at h4; exact .inl ⟨h4.1.symm, h4.2.symm⟩
    | cons a as =>
      injection h4 with h4 h5
      subst h4
      rw [h1, h3, List.append_assoc, List.pairwise_append] at hp
      have := hp.2.1
      rw [List.cons_append, List.pairwise_cons] at this
      exact .inr (.inr (this.1 x (by simp)))

theorem steady_outside {e : Endianness} {fh : FileHeader} (hR : Addressable cfg R) (h : Announces R e fh) (ha : 24 ≤ typeStart fh) :
    Steady R (TypeInformation.newTrace cfg R) fun i => ¬ InStrings fh i := by
  rintro i b b' hi ⟨l1, x, r1, f1, h1, h2, h3, h5⟩ ⟨l2, y, r2, f2, k1, k2, k3, k5⟩
  rcases split_compare (new_reads_once cfg R hR e fh h ha) h1 k1 with ⟨rfl, rfl⟩ | ⟨-, g⟩ | ⟨-, g⟩
  · rw [h2] at k2; cases k2
    rw [← h5, ← k5]
  · exact absurd (g i h3 k3) hi
  · exact absurd (g i k3 h3) hi

/-- Only the bytes of the string section can be answered in different ways. -/
theorem steady_all {e : Endianness} {fh : FileHeader} (hR : Addressable cfg R) (h : Announces R e fh) (ha : 24 ≤ typeStart fh)
    (hs : Steady R (TypeInformation.newTrace cfg R) (InStrings fh)) :
    Steady R (TypeInformation.newTrace cfg R) fun _ => True := by
  intro i b b' _ hb hb'
  by_cases hi : InStrings fh i
  · exact hs i b b' hi hb hb'
  · exact steady_outside hR h ha i b b' hi hb hb'

theorem foldr_max_le {l : List ReadEvent} {ev : ReadEvent} (h : ev ∈ l) :
    ev.offset + ev.len ≤ l.foldr (fun ev m => max (ev.offset + ev.len) m) 0 := by
  induction l with
  | nil => cases h
  | cons a l ih =>
    rw [List.foldr_cons]
    rcases List.mem_cons.1 h with rfl | h
    · exact Nat.le_max_left _ _
    · exact Nat.le_trans (ih h) (Nat.le_max_right _ _)

theorem snapshot_exists {trace : List ReadEvent} (h : Steady R trace fun _ => True) : ∃ file, Snapshot R trace file := by
  classical
  refine ⟨(List.range (trace.foldr (fun ev m => max (ev.offset + ev.len) m) 0)).map fun i =>
    if hi : ∃ b, Answered R trace i b then hi.choose else 0, fun i b hb => ?_⟩
  have hlt : i < trace.foldr (fun ev m => max (ev.offset + ev.len) m) 0 := by
    obtain ⟨later, ev, earlier, f, rfl, -, ⟨-, h4⟩, -⟩ := hb
    exact Nat.lt_of_lt_of_le h4 (foldr_max_le (by simp))
  rw [List.getElem?_map, List.getElem?_range hlt, Option.map_some, dif_pos ⟨b, hb⟩]
  exact congrArg some (h i _ _ trivial (Exists.choose_spec (⟨b, hb⟩ : ∃ b, Answered R trace i b)) hb)

theorem faithful_answer {trace later earlier : List ReadEvent} {ev : ReadEvent} (h : Faithful R trace) (hl : trace = later ++ ev :: earlier)
    (hev : ev.failed = none) : ∃ b, R.read earlier ev.offset ev.len = .ok b := by
  subst hl
  induction later with
  | nil =>
    cases h with
    | failed h _ => cases hev
    | done h _ => exact ⟨_, h⟩
  | cons a later ih =>
    cases h with
    | failed _ h => exact ih h
    | done _ h => exact ih h

/-- The requests for which `Serves` says something. -/
theorem new_requests_proper (hR : Addressable cfg R) (hn : NoFailure (TypeInformation.newTrace cfg R)) :
    ∀ ev ∈ TypeInformation.newTrace cfg R, 0 < ev.len ∧ ev.offset < cfg.usizeMod := by
  have hu := usizeMod_ge cfg
  have hhdr : ∀ n ≤ 8, ∀ ev ∈ headerRequests n, 0 < ev.len ∧ ev.offset < cfg.usizeMod := by
    intro n hn ev hev
    have : ∀ n ≤ 8, ∀ ev ∈ headerRequests n, 0 < ev.len ∧ ev.offset < 2 ^ 32 := by decide
    have := this n hn ev hev
    exact ⟨this.1, by omega⟩
  rcases header_any (cfg := cfg) (R := R) with ⟨e, fh, r, h1, hA, h3⟩ | ⟨k, r, h1, -, h3⟩
  · have hf := fits_of_addressable hR e fh hA
    obtain ⟨tail, h2, h3⟩ := new_body (cfg := cfg) hA hf
    intro ev hev
    rw [h2] at hev
    rcases List.mem_append.1 hev with hev | hev
    · have hw : typeEnd fh + 12 < cfg.usizeMod ∧ strEnd fh < cfg.usizeMod := by
        have t1 := fh.hdrLen.toNat_lt
        have t2 := fh.typeOff.toNat_lt
        have t3 := fh.typeLen.toNat_lt
        have t4 := fh.strOff.toNat_lt
        have t5 := fh.strLen.toNat_lt
        rcases hR with hw | hw
        · have : cfg.usizeMod = 2 ^ 64 := by unfold Cfg.usizeMod; rw [hw]
          unfold typeEnd typeStart strEnd strStart
          omega
        · have := hw e fh hA
          omega
      rcases h3 ev hev with ⟨⟨h4, h5⟩, -, h6⟩ | ⟨⟨h4, h5⟩, h6⟩ <;> omega
    · exact hhdr 8 (Nat.le_refl _) ev hev
  · have ht : TypeInformation.newTrace cfg R = r.trace := by
      unfold TypeInformation.newTrace
      rw [newP_eq]; change (P.bind _ _ _).2.trace = _; unfold P.bind; rw [h1]
    rw [ht] at hn ⊢
    rcases h3 with ⟨k, -, hk, -⟩ | ⟨v, -, h3, -⟩
    · obtain ⟨ev, old, h4, h5⟩ := hk.last
      have := hn ev (by rw [h4]; simp)
      rw [h5] at this; cases this
    · rw [h3]; exact hhdr 1 (by decide)

/-- C92: if no request fails, the result of `new` (also an error) is that for any file that contains all that was
answered. -/
theorem new_snapshot (cfg : Cfg) (R : Readable) (hR : Addressable cfg R) (hn : NoFailure (TypeInformation.newTrace cfg R))
    (file : List UInt8) (hs : Snapshot R (TypeInformation.newTrace cfg R) file) (R' : Readable) (hS : Serves cfg R' file) :
    TypeInformation.newE cfg R' = TypeInformation.newE cfg R ∧ TypeInformation.newTrace cfg R' = TypeInformation.newTrace cfg R := by
  have hp := prog_new (stricter_refl cfg) rfl
  obtain ⟨hfaith, -, -⟩ := new_io_errors cfg R
  obtain ⟨new, h1, -, -⟩ := (hp.discipline (Reader.new R)).trace
  have hnew : TypeInformation.newTrace cfg R = new := by
    unfold TypeInformation.newTrace; rw [h1]; exact List.append_nil _
  have hlen := new_requests_proper hR hn
  have := hp.local (Reader.new R) R' new h1 (by
    rintro later ev earlier rfl
    have hmem : ev ∈ TypeInformation.newTrace cfg R := by rw [hnew]; simp
    change SameAnswer _ (R.read (earlier ++ []) _ _) (R'.read (earlier ++ []) _ _)
    rw [List.append_nil]
    have hans : ∃ b, R.read earlier ev.offset ev.len = .ok b := faithful_answer hfaith hnew (hn ev hmem)
    obtain ⟨b, hb⟩ := hans
    have hin : ∀ i < ev.len, file[ev.offset + i]? = some (b i) := fun i hi =>
      hs _ _ ⟨later, ev, earlier, b, hnew, hb, ⟨by omega, by omega⟩, by congr 1; omega⟩
    obtain ⟨l1, l2⟩ := hlen ev hmem
    have hS' := hS earlier ev.offset ev.len l1 l2
    have hle : ev.offset + ev.len ≤ file.length := by
      have := (List.getElem?_eq_some_iff.1 (hin (ev.len - 1) (by omega))).1
      omega
    rw [if_pos hle] at hS'
    obtain ⟨b', hb', hb''⟩ := hS'
    rw [hb, hb']
    intro i hi
    have := hb'' i hi
    rw [hin i hi] at this
    exact (Option.some.inj this).symm)
  change TypeInformation.newP cfg (Reader.new R') = _ at this
  unfold TypeInformation.newE TypeInformation.newT TypeInformation.newTrace
  rw [this]
  exact ⟨rfl, rfl⟩

/-- C92: a source may change while `new` reads it. If the type section does not overlap with the header and the names do
not change, the result is that for one file: one that contains all that was answered. -/
theorem new_changing (cfg : Cfg) (R : Readable) (hR : Addressable cfg R) (hn : NoFailure (TypeInformation.newTrace cfg R))
    (e : Endianness) (fh : FileHeader) (hA : Announces R e fh) (ha : 24 ≤ typeStart fh)
    (hs : Steady R (TypeInformation.newTrace cfg R) (InStrings fh)) :
    ∃ file, Snapshot R (TypeInformation.newTrace cfg R) file ∧
      ∀ R', Serves cfg R' file → TypeInformation.newE cfg R' = TypeInformation.newE cfg R := by
  obtain ⟨file, hf⟩ := snapshot_exists (steady_all hR hA ha hs)
  exact ⟨file, hf, fun R' hS => (new_snapshot cfg R hR hn file hf R' hS).1⟩

/-- C92: the same if the sections may overlap, but no answer contradicts another one. -/
theorem new_consistent (cfg : Cfg) (R : Readable) (hR : Addressable cfg R) (hn : NoFailure (TypeInformation.newTrace cfg R))
    (hs : Steady R (TypeInformation.newTrace cfg R) fun _ => True) :
    ∃ file, Snapshot R (TypeInformation.newTrace cfg R) file ∧
      ∀ R', Serves cfg R' file → TypeInformation.newE cfg R' = TypeInformation.newE cfg R := by
  obtain ⟨file, hf⟩ := snapshot_exists hs
  exact ⟨file, hf, fun R' hS => (new_snapshot cfg R hR hn file hf R' hS).1⟩

/-! ### If the names change, too -/

theorem foldr_max_lt {l : List ReadEvent} {n : Nat} (h0 : 0 ≤ n) (h : ∀ ev ∈ l, ev.offset + ev.len ≤ n) :
    l.foldr (fun ev m => max (ev.offset + ev.len) m) 0 ≤ n := by
  induction l with
  | nil => exact h0
  | cons a l ih =>
    rw [List.foldr_cons]
    exact Nat.max_le.2 ⟨h a (by simp), ih fun ev hev => h ev (by simp [hev])⟩

/-- What was answered outside of the string section, and zeros. -/
theorem blanked_exists {e : Endianness} {fh : FileHeader} (hR : Addressable cfg R) (h : Announces R e fh) (ha : 24 ≤ typeStart fh) :
    ∃ file : List UInt8, file.length ≤ cfg.usizeMod ∧ (∀ i, InStrings fh i → file[i]? = some 0) ∧
      ∀ i b, ¬ InStrings fh i → Answered R (TypeInformation.newTrace cfg R) i b → file[i]? = some b := by
  classical
  have hu := usizeMod_ge cfg
  have hw : typeEnd fh + 12 < cfg.usizeMod ∧ strEnd fh < cfg.usizeMod := by
    have t1 := fh.hdrLen.toNat_lt
    have t2 := fh.typeOff.toNat_lt
    have t3 := fh.typeLen.toNat_lt
    have t4 := fh.strOff.toNat_lt
    have t5 := fh.strLen.toNat_lt
    rcases hR with hw | hw
    · have : cfg.usizeMod = 2 ^ 64 := by unfold Cfg.usizeMod; rw [hw]
      unfold typeEnd typeStart strEnd strStart
      omega
    · have := hw e fh h
      omega
  have hM : (TypeInformation.newTrace cfg R).foldr (fun ev m => max (ev.offset + ev.len) m) 0 ≤ cfg.usizeMod := by
    refine foldr_max_lt (Nat.zero_le _) fun ev hev => ?_
    obtain ⟨new, h1, h2⟩ := new_body (cfg := cfg) h (fits_of_addressable hR e fh h)
    rw [h1] at hev
    rcases List.mem_append.1 hev with hev | hev
    · rcases h2 ev hev with ⟨⟨h4, h5⟩, -, h6⟩ | ⟨⟨h4, h5⟩, h6⟩ <;> omega
    · have := (inHeader_requests 8 ev hev).2; omega
  generalize hMd : (TypeInformation.newTrace cfg R).foldr (fun ev m => max (ev.offset + ev.len) m) 0 = M at hM
  refine ⟨(List.range (max M (strEnd fh))).map fun i => if InStrings fh i then 0
    else if hi : ∃ b, Answered R (TypeInformation.newTrace cfg R) i b then hi.choose else 0, ?_, ?_, ?_⟩
  · rw [List.length_map, List.length_range]
    exact Nat.max_le.2 ⟨hM, by omega⟩
  · intro i ⟨h1, h2⟩
    rw [List.getElem?_map, List.getElem?_range (Nat.lt_of_lt_of_le h2 (Nat.le_max_right _ _)), Option.map_some, if_pos ⟨h1, h2⟩]
  · intro i b hi hb
    have hlt : i < M := by
      obtain ⟨later, ev, earlier, f, h1, -, ⟨-, h4⟩, -⟩ := hb
      rw [← hMd]
      exact Nat.lt_of_lt_of_le h4 (foldr_max_le (by rw [h1]; simp))
    rw [List.getElem?_map, List.getElem?_range (Nat.lt_of_lt_of_le hlt (Nat.le_max_left _ _)), Option.map_some, if_neg hi,
      dif_pos ⟨b, hb⟩]
    exact congrArg some (steady_outside hR h ha i _ _ hi
      (Exists.choose_spec (⟨b, hb⟩ : ∃ b, Answered R (TypeInformation.newTrace cfg R) i b)) hb)

/-- C92: even if the names change from request to request, and whatever is answered for them: if only names are read from
the string section, all the rest of the result is that for one file, which contains all other answers. In that file all names
are empty. -/
theorem new_names_only (cfg : Cfg) (R : Readable) (hR : Addressable cfg R) (ti : TypeInformation)
    (h : TypeInformation.new cfg R = .ok ti) (e : Endianness) (fh : FileHeader) (hA : Announces R e fh) (ha : 24 ≤ typeStart fh) (hb : 24 ≤ strStart fh)
    (hc : ∀ ev ∈ TypeInformation.newTrace cfg R, ForName fh ev ∨ ∀ i, Covers ev i → ¬ InStrings fh i) :
    ∃ file ti', (∀ i b, ¬ InStrings fh i → Answered R (TypeInformation.newTrace cfg R) i b → file[i]? = some b) ∧
      (∀ R', Serves cfg R' file → TypeInformation.new cfg R' = .ok ti') ∧
      ti'.get = ti.get.map fun x => (x.1, blankNames x.2) := by
  have hu := usizeMod_ge cfg
  have hf := fits_of_addressable hR e fh hA
  obtain ⟨file, hlen, hnames, hans⟩ := blanked_exists (cfg := cfg) hR hA ha
  obtain ⟨tail, htail, hin⟩ := new_body (cfg := cfg) hA hf
  obtain ⟨r, h1, h2⟩ := header_announced (cfg := cfg) hA
  have hrun : TypeInformation.newP cfg (Reader.new R) = afterHeader cfg fh r := by
    rw [newP_eq]; change P.bind _ _ _ = _; unfold P.bind; rw [h1]
  have htr : TypeInformation.newTrace cfg R = (afterHeader cfg fh r).2.trace := by
    unfold TypeInformation.newTrace; rw [hrun]
  rw [new_ok] at h
  unfold TypeInformation.newT at h
  rw [hrun] at h
  have hread : r.readable = R := h2.readable
  -- the loop
  unfold afterHeader at h htr
  cases hs : u32CheckedAdd fh.hdrLen fh.typeOff with
  | none => rw [hs] at h; cases h
  | some s =>
  rw [hs] at h htr
  have hst : s.toNat = typeStart fh := u32CheckedAdd_eq_some.1 hs
  change (P.bind (P.lift (cfg.usizeCheckedAdd s.toNat fh.typeLen.toNat |> (okOr · .typeSectionEnd))) _ r).1 = _ at h
  change _ = (P.bind (P.lift (cfg.usizeCheckedAdd s.toNat fh.typeLen.toNat |> (okOr · .typeSectionEnd))) _ r).2.trace at htr
  unfold P.bind P.lift at h htr
  rw [hst] at h htr
  unfold Cfg.usizeCheckedAdd at h htr
  by_cases hadd : typeStart fh + fh.typeLen.toNat < cfg.usizeMod
  swap
  · rw [if_neg hadd] at h; cases h
  rw [if_pos hadd] at h htr
  simp only [okOr] at h htr
  change (parseLoop cfg fh (typeEnd fh) (fh.typeLen.toNat + 1) 1 TypeInformation.empty { r with offset := typeStart fh }).1 = _ at h
  change _ = (parseLoop cfg fh (typeEnd fh) (fh.typeLen.toNat + 1) 1 TypeInformation.empty { r with offset := typeStart fh }).2.trace at htr
  have hE : typeEnd fh < 2 ^ 32 := by
    by_contra hE
    have hslt := s.toNat_lt
    rw [loop_overflow (by omega) (by omega) _ _ _ (by simp only []; omega)] at h
    cases h
  cases hl : parseLoop cfg fh (typeEnd fh) (fh.typeLen.toNat + 1) 1 TypeInformation.empty { r with offset := typeStart fh } with
  | mk o r1 =>
  rw [hl] at h htr
  simp only [] at h htr
  subst h
  obtain ⟨vs, new, v0, v1, v2, v3⟩ := sim_loop (R := R) hf _ _ _ _ { r with offset := typeStart fh } _ _ hread hl
  simp only [] at v2 v3
  have hbound : vs.length < 2 ^ 32 - 1 := by unfold typeEnd at hE; omega
  have hnew : new = tail := by
    rw [htail, v2, h2.trace] at htr
    exact (List.append_cancel_right htr).symm
  subst hnew
  refine ⟨file, build 1 TypeInformation.empty (vs.map blankNames), hans, fun R' hS => ?_, ?_⟩
  · -- the header
    have hp := (prog_fileHeader (stricter_refl cfg)).local (Reader.new R) R' (headerRequests 8)
      (by rw [h1, h2.trace]; exact (List.append_nil _).symm) (by
        rintro later ev earlier hsplit
        change SameAnswer _ (R.read (earlier ++ []) _ _) (R'.read (earlier ++ []) _ _)
        rw [List.append_nil]
        have hmem : ev ∈ headerRequests 8 := by rw [hsplit]; simp
        have hev := inHeader_requests 8 ev hmem
        have hpos : ∀ ev ∈ headerRequests 8, 0 < ev.len := by decide
        have hpos := hpos ev hmem
        have hok : ∀ ev ∈ headerRequests 8, ev.failed = none := by decide
        have hb : ∃ b, R.read earlier ev.offset ev.len = .ok b :=
          faithful_answer (new_io_errors cfg R).1 (later := new ++ later) (by rw [htail, hsplit]; simp) (hok ev hmem)
        obtain ⟨b, hb⟩ := hb
        have hfile : ∀ i < ev.len, file[ev.offset + i]? = some (b i) := fun i hi => by
          refine hans _ _ (fun hcon => ?_) ⟨new ++ later, ev, earlier, b, ?_, hb, ⟨by omega, by omega⟩, by congr 1; omega⟩
          · have := hev.2; have := hcon.1; omega
          · rw [htail, hsplit]; simp
        have hle : ev.offset + ev.len ≤ file.length := by
          have := (List.getElem?_eq_some_iff.1 (hfile (ev.len - 1) (by omega))).1
          omega
        have := hS earlier ev.offset ev.len hpos (by omega)
        rw [if_pos hle] at this
        obtain ⟨b', hb', hb''⟩ := this
        rw [hb, hb']
        intro i hi
        have := hb'' i hi
        rw [hfile i hi] at this
        exact (Option.some.inj this).symm)
    have hhdr : FileHeader.new cfg (Reader.new R') = (.ok fh, { r with readable := R' }) := by
      refine Eq.trans hp ?_
      rw [h1]
    obtain ⟨r1', hr1⟩ := v3 R' file ⟨hS, hlen, hnames⟩ TypeInformation.empty { r with readable := R', offset := typeStart fh }
      ⟨hread, rfl, rfl, rfl⟩ (by
        rintro later ev earlier b hsplit hev hb i hi
        have hb' := hb
        rw [h2.trace] at hb'
        refine hans _ _ (fun hcon => ?_) ⟨later, ev, earlier ++ headerRequests 8, b, by rw [htail, hsplit]; simp, hb', ⟨by omega, by omega⟩,
          by congr 1; omega⟩
        rcases hc ev (by rw [htail, hsplit]; simp) with hw | hw
        · exact hev hw
        · exact hw _ ⟨by omega, by omega⟩ hcon)
    rw [new_ok]
    unfold TypeInformation.newT
    rw [newP_eq]
    change (P.bind _ _ _).1 = _
    unfold P.bind
    rw [hhdr]
    simp only []
    unfold afterHeader
    rw [hs]
    change (P.bind (P.lift (cfg.usizeCheckedAdd s.toNat fh.typeLen.toNat |> (okOr · .typeSectionEnd))) _ _).1 = _
    unfold P.bind P.lift
    rw [hst]
    unfold Cfg.usizeCheckedAdd
    rw [if_pos hadd]
    simp only [okOr]
    change (parseLoop cfg fh (typeEnd fh) (fh.typeLen.toNat + 1) 1 TypeInformation.empty { r with readable := R', offset := typeStart fh }).1 = _
    rw [hr1]
  · rw [v1, (holds_build hbound).get, (holds_build (by rw [List.length_map]; exact hbound)).get]
    unfold numbered
    rw [List.map_map, List.zipIdx_map, List.map_map]
    rfl

/-- If the string section does not begin in the type section or in the 12 bytes after it, only names are read from it. -/
theorem only_names_read (hR : Addressable cfg R) {e : Endianness} {fh : FileHeader} (hA : Announces R e fh)
    (hb : 24 ≤ strStart fh) (ha : typeEnd fh + 12 ≤ strStart fh ∨ strEnd fh ≤ typeStart fh) :
    ∀ ev ∈ TypeInformation.newTrace cfg R, ForName fh ev ∨ ∀ i, Covers ev i → ¬ InStrings fh i := by
  obtain ⟨tail, h1, h2⟩ := new_body (cfg := cfg) hA (fits_of_addressable hR e fh hA)
  intro ev hev
  rw [h1] at hev
  rcases List.mem_append.1 hev with hev | hev
  · rcases h2 ev hev with ⟨⟨h3, h4⟩, -⟩ | h3
    · exact .inr fun i ⟨h5, h6⟩ ⟨h7, h8⟩ => by omega
    · exact .inl h3
  · have := (inHeader_requests 8 ev hev).2
    exact .inr fun i ⟨h5, h6⟩ ⟨h7, h8⟩ => by omega

/-! ### Concrete sources -/

namespace Examples

open Samples

/-- The file of `zoo`. As soon as a byte of the header or of the type section was read, it is overwritten. -/
def shredder : Readable where
  read history offset _ := .ok fun i =>
    if offset + i < 376 ∧ history.any (fun ev => ev.offset ≤ offset + i ∧ offset + i < ev.offset + ev.len) then 0xFF
    else (leFile zooTypes zooStrings).getD (offset + i) 0

/-- The same, and the letters of the names change with each request. -/
def renamer : Readable where
  read history offset _ := .ok fun i =>
    if offset + i < 376 then
      if history.any (fun ev => ev.offset ≤ offset + i ∧ offset + i < ev.offset + ev.len) then 0xFF
      else (leFile zooTypes zooStrings).getD (offset + i) 0
    else if (leFile zooTypes zooStrings).getD (offset + i) 0 = 0 then 0
    else 97 + UInt8.ofNat (history.length % 26)

theorem shredder_announces : Announces shredder .little ⟨1, 0, 24, 0, 352, 352, 84⟩ where
  magic := ⟨_, rfl, by decide +kernel⟩
  version := ⟨_, _, rfl, rfl, by decide +kernel⟩
  flags := ⟨_, _, rfl, rfl, by decide +kernel⟩
  hdrLen := ⟨_, _, rfl, rfl, by decide +kernel⟩
  typeOff := ⟨_, _, rfl, rfl, by decide +kernel⟩
  typeLen := ⟨_, _, rfl, rfl, by decide +kernel⟩
  strOff := ⟨_, _, rfl, rfl, by decide +kernel⟩
  strLen := ⟨_, _, rfl, rfl, by decide +kernel⟩

theorem renamer_announces : Announces renamer .little ⟨1, 0, 24, 0, 352, 352, 84⟩ where
  magic := ⟨_, rfl, by decide +kernel⟩
  version := ⟨_, _, rfl, rfl, by decide +kernel⟩
  flags := ⟨_, _, rfl, rfl, by decide +kernel⟩
  hdrLen := ⟨_, _, rfl, rfl, by decide +kernel⟩
  typeOff := ⟨_, _, rfl, rfl, by decide +kernel⟩
  typeLen := ⟨_, _, rfl, rfl, by decide +kernel⟩
  strOff := ⟨_, _, rfl, rfl, by decide +kernel⟩
  strLen := ⟨_, _, rfl, rfl, by decide +kernel⟩

theorem shredder_steady (trace : List ReadEvent) : Steady shredder trace (InStrings ⟨1, 0, 24, 0, 352, 352, 84⟩) := by
  rintro i b b' ⟨h1, -⟩ ⟨_, ev, _, f, -, hf, ⟨hc, -⟩, rfl⟩ ⟨_, ev', _, f', -, hf', ⟨hc', -⟩, rfl⟩
  have h1 : 376 ≤ i := h1
  injection hf with hf
  injection hf' with hf'
  subst hf hf'
  simp only []
  rw [if_neg (by omega), if_neg (by omega), Nat.add_sub_cancel' hc, Nat.add_sub_cancel' hc']

/-- `new_reads_once`, `new_changing`, `new_snapshot`, `new_consistent`: although the file is destroyed while it is read, `new`
gives what it gives for the intact one. A second call finds no magic. -/
example : TypeInformation.new dbg shredder = .ok zoo ∧ NoFailure (TypeInformation.newTrace dbg shredder) ∧
    (∃ file, Snapshot shredder (TypeInformation.newTrace dbg shredder) file ∧
      ∀ R', Serves dbg R' file → TypeInformation.newE dbg R' = TypeInformation.newE dbg shredder) ∧
    shredder.read [⟨0, 2, none⟩] 0 2 = .ok fun i => if i < 2 then 0xFF else (leFile zooTypes zooStrings).getD i 0 := by
  have hn : NoFailure (TypeInformation.newTrace dbg shredder) := by unfold NoFailure; decide +kernel
  refine ⟨by decide +kernel, hn, new_changing dbg shredder (.inl rfl) hn .little _ shredder_announces (by decide) (shredder_steady _), ?_⟩
  refine congrArg Except.ok (funext fun i => ?_)
  rw [Nat.zero_add]
  by_cases hi : i < 2
  · rw [if_pos (by simp; omega), if_pos hi]
  · rw [if_neg (by simp; omega), if_neg hi]

example := new_reads_once dbg shredder (.inl rfl) .little _ shredder_announces (by decide)

example := new_consistent dbg shredder (.inl rfl) (by unfold NoFailure; decide +kernel)
  (steady_all (.inl rfl) shredder_announces (by decide) (shredder_steady _))

/-- Two types with the same name; each letter is another one each time it is read. -/
def twice : Readable where
  read history offset _ := .ok fun i =>
    if offset + i < 49 then (leFile [1, 0x10000000, 4, 1, 0x10000000, 4] [0, 97, 0]).getD (offset + i) 0
    else if offset + i = 49 then 97 + UInt8.ofNat (history.length % 26) else 0

/-- `new_changing` needs names that do not change: here the result is that of no file. -/
example : ∃ ti, TypeInformation.new dbg twice = .ok ti ∧ ti.nameOf 1 = some (str "l") ∧ ti.nameOf 2 = some (str "q") := by
  have : ∀ o : Outcome TypeInformation,
      (match o with | .ok ti => decide (ti.nameOf 1 = some (str "l") ∧ ti.nameOf 2 = some (str "q")) | _ => false) = true →
      ∃ ti, o = .ok ti ∧ ti.nameOf 1 = some (str "l") ∧ ti.nameOf 2 = some (str "q") := by
    intro o ho
    cases o with
    | ok ti => exact ⟨ti, rfl, of_decide_eq_true ho⟩
    | _ => cases ho
  exact this _ (by decide +kernel)

/-- `new_names_only`: each letter of each name is another one each time it is read; the rest of the result is that of one file. -/
example : ∃ ti file ti', TypeInformation.new dbg renamer = .ok ti ∧
    (∀ R', Serves dbg R' file → TypeInformation.new dbg R' = .ok ti') ∧
    ti'.get = ti.get.map (fun x => (x.1, blankNames x.2)) ∧ ti.nameOf 3 ≠ zoo.nameOf 3 := by
  have h : ∃ ti, TypeInformation.new dbg renamer = .ok ti ∧ ti.nameOf 3 ≠ zoo.nameOf 3 := by
    have : ∀ o : Outcome TypeInformation, (match o with | .ok ti => decide (ti.nameOf 3 ≠ zoo.nameOf 3) | _ => false) = true →
        ∃ ti, o = .ok ti ∧ ti.nameOf 3 ≠ zoo.nameOf 3 := by
      intro o ho
      cases o with
      | ok ti => exact ⟨ti, rfl, of_decide_eq_true ho⟩
      | _ => cases ho
    exact this _ (by decide +kernel)
  obtain ⟨ti, h1, h2⟩ := h
  have hc : ∀ ev ∈ TypeInformation.newTrace dbg renamer, (376 ≤ ev.offset ∧ ev.offset + ev.len ≤ 460 ∧ ev.len = 1) ∨
      ev.offset + ev.len ≤ 376 := by decide +kernel
  obtain ⟨file, ti', -, h3, h4⟩ := new_names_only dbg renamer (.inl rfl) ti h1 .little _ renamer_announces (by decide) (by decide)
    (fun ev hev => (hc ev hev).imp (fun h => ⟨⟨h.1, h.2.1⟩, h.2.2⟩) fun h i ⟨h5, h6⟩ ⟨h7, _⟩ => by
      have h7 : 376 ≤ i := h7
      omega)
  exact ⟨ti, file, ti', h1, h3, h4, h2⟩

end Examples

end Btf.Props

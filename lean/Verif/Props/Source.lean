import Verif.Proofs.SafeNew
import Verif.Model.Buffer
import Verif.Samples
import Mathlib.Data.List.Nodup

/-!
# `TypeInformation::new` on every `Readable`

The `Readable` is arbitrary: it may be a file, fail at any point, or give different answers to the same
request. `Announces R e fh`: asked for the eight header fields, `R` answers with the header `fh` in byte
order `e`.
-/

namespace Btf.Props

open Btf Spec

theorem fits_of_addressable {cfg : Cfg} {R : Readable} (h : Addressable cfg R) :
    ∀ e fh, Announces R e fh → Fits cfg fh := by
  intro e fh ha
  rcases h with h | h
  · exact fits_64 h fh
  · have := h e fh ha
    have hu := usizeMod_ge cfg
    exact ⟨fun _ => by omega, fun _ => by omega⟩

/-- C01: on a 64-bit target `TypeInformation::new` returns `Ok` or `Err`, whatever the source does. -/
theorem new_total (cfg : Cfg) (h : cfg.width = .w64) (R : Readable) :
    (∃ ti, TypeInformation.new cfg R = .ok ti) ∨ ∃ k, TypeInformation.new cfg R = .err k := by
  rcases (new_any (fits_of_addressable (.inl h))).2 with ⟨vs, _, _, _, _, _, _, h⟩ | ⟨k, h, _⟩
  · exact .inl ⟨_, h⟩
  · exact .inr ⟨k, h⟩

/-- C20 (partial): on a 32-bit target the same holds if the sections end well before the end of the address
space. Missing: other sources, refuted by `new_total_32_refuted`. -/
theorem new_total_32_partial (cfg : Cfg) (R : Readable)
    (h : ∀ e fh, Announces R e fh → typeEnd fh + 2 ^ 20 < 2 ^ 32 ∧ strEnd fh + 1 < 2 ^ 32) :
    (∃ ti, TypeInformation.new cfg R = .ok ti) ∨ ∃ k, TypeInformation.new cfg R = .err k := by
  rcases (new_any (fits_of_addressable (.inr h))).2 with ⟨vs, _, _, _, _, _, _, h⟩ | ⟨k, h, _⟩
  · exact .inl ⟨_, h⟩
  · exact .inr ⟨k, h⟩

/-- C20 is false: a file of 24 bytes makes a 32-bit debug build panic. Its type section starts at
`2^32 - 8`, so that the end of the first record header cannot be computed. -/
theorem new_total_32_refuted :
    TypeInformation.new ⟨.w32, true⟩ (readableBuffer ⟨.w32, true⟩
      ([0x9F, 0xEB, 1, 0] ++ Samples.le32 24 ++ Samples.le32 0xFFFFFFE0 ++ Samples.le32 7 ++ Samples.le32 0 ++ Samples.le32 1)) =
      .panic := by decide +kernel

/-! ### Ids and names -/

/-- What `new` returns is the numbered list of some types. -/
theorem new_holds (cfg : Cfg) (R : Readable) (hR : Addressable cfg R) (ti : TypeInformation)
    (h : TypeInformation.new cfg R = .ok ti) :
    ∃ vs e fh, Announces R e fh ∧ Holds ti vs ∧ 12 * vs.length ≤ fh.typeLen.toNat ∧ ∀ v ∈ vs, Sane v := by
  rcases (new_any (fits_of_addressable hR)).2 with ⟨vs, e, fh, h1, h2, h3, h4, h5⟩ | ⟨k, h5, _⟩
  · rw [h] at h5
    cases h5
    have := fh.typeLen.toNat_lt
    exact ⟨vs, e, fh, h1, holds_build (by omega), h3, h4⟩
  · rw [h] at h5; cases h5

/-- C06: the ids are `1, …, n`, in ascending order, `from_id` answers for exactly these and for 0. -/
theorem ids_dense (cfg : Cfg) (R : Readable) (hR : Addressable cfg R) (ti : TypeInformation)
    (h : TypeInformation.new cfg R = .ok ti) :
    ∃ n < 2 ^ 32, ti.get.map (fun p => p.1.toNat) = (List.range n).map (· + 1) ∧
      ti.fromId 0 = some .void ∧
      (∀ t, 1 ≤ t.toNat → ti.fromId t = (ti.get[t.toNat - 1]?).map Prod.snd) ∧
      (∀ t, ti.fromId t = none ↔ n < t.toNat) := by
  obtain ⟨vs, e, fh, -, hh, hlen, -⟩ := new_holds cfg R hR ti h
  have hlt := fh.typeLen.toNat_lt
  refine ⟨vs.length, by omega, ?_, ?_, ?_, ?_⟩
  · rw [hh.get]
    unfold numbered
    rw [List.map_map]
    apply List.ext_getElem
    · simp
    · intro i h1 h2
      simp only [List.length_map, List.length_zipIdx] at h1
      simp only [List.getElem_map, List.getElem_zipIdx, List.getElem_range, Function.comp]
      rw [ofNat_toNat_lt (by omega)]; omega
  · rw [hh.fromId]; rfl
  · intro t ht
    rw [hh.fromId, hh.get]
    unfold typeAt numbered
    obtain ⟨m, hm⟩ : ∃ m, t.toNat = m + 1 := ⟨t.toNat - 1, by omega⟩
    rw [hm, List.getElem?_cons_succ, Nat.add_sub_cancel, List.getElem?_map, List.getElem?_zipIdx]
    cases vs[m]? <;> rfl
  · intro t
    rw [hh.fromId]
    unfold typeAt
    rw [List.getElem?_eq_none_iff, List.length_cons]; omega

/-- C07: there are at most `type_len / 12` types, so fewer than `2^29` ids are given out. -/
theorem ids_bounded (cfg : Cfg) (R : Readable) (hR : Addressable cfg R) (ti : TypeInformation)
    (h : TypeInformation.new cfg R = .ok ti) :
    ∃ e fh, Announces R e fh ∧ 12 * ti.get.length ≤ fh.typeLen.toNat ∧ (ti.get.map Prod.fst).Nodup := by
  obtain ⟨vs, e, fh, ha, hh, hlen, -⟩ := new_holds cfg R hR ti h
  obtain ⟨n, hn, hids, -⟩ := ids_dense cfg R hR ti h
  refine ⟨e, fh, ha, ?_, ?_⟩
  · rw [hh.get]; simpa [numbered] using hlen
  · have : ((ti.get.map Prod.fst).map UInt32.toNat).Nodup := by
      rw [List.map_map]
      have : (UInt32.toNat ∘ Prod.fst : UInt32 × TypeVariant → Nat) = fun p => p.1.toNat := rfl
      rw [this, hids]
      exact List.nodup_range.map (f := (· + 1)) (fun a b hab => Nat.add_right_cancel hab)
    exact this.of_map

/-- C08: `name_of(t)` is the name carried by `from_id(t)`. -/
theorem name_of_agrees (cfg : Cfg) (R : Readable) (hR : Addressable cfg R) (ti : TypeInformation)
    (h : TypeInformation.new cfg R = .ok ti) (t : UInt32) :
    ti.nameOf t = (ti.fromId t).bind typeName := by
  obtain ⟨vs, e, fh, -, hh, -, -⟩ := new_holds cfg R hR ti h
  rw [hh.nameOf, hh.fromId]

/-- C09: `id_of` returns the greatest id with the name; `id_of("void")` is 0. -/
theorem id_of_last (cfg : Cfg) (R : Readable) (hR : Addressable cfg R) (ti : TypeInformation)
    (h : TypeInformation.new cfg R = .ok ti) (s : Str) :
    (s ≠ str "void" → ∀ t, ti.idOf s = some t ↔
      (ti.nameOf t = some s ∧ ∀ u, t < u → ti.nameOf u ≠ some s)) ∧
    (ti.idOf s = none ↔ ∀ u, ti.nameOf u ≠ some s) ∧
    ti.idOf (str "void") = some 0 ∧ (∀ t, ti.idOf s = some t → ti.nameOf t = some s) := by
  obtain ⟨vs, e, fh, -, hh, hlen, -⟩ := new_holds cfg R hR ti h
  have hlt := fh.typeLen.toNat_lt
  have hbig : ∀ u : Nat, 2 ^ 32 ≤ u → typeAt vs u = none := by
    intro u hu
    unfold typeAt
    rw [List.getElem?_eq_none_iff, List.length_cons]; omega
  have key : ∀ u : Nat, (typeAt vs u).bind typeName = some s → u < 2 ^ 32 := by
    intro u hu
    by_contra hlt
    rw [hbig u (by omega)] at hu; cases hu
  have hsome : s ≠ str "void" → ∀ t, ti.idOf s = some t ↔
      (ti.nameOf t = some s ∧ ∀ u, t < u → ti.nameOf u ≠ some s) := by
    intro hs t
    rw [hh.idOf_some s t hs, hh.nameOf]
    constructor
    · rintro ⟨h1, h2⟩
      exact ⟨h1, fun u hu => by rw [hh.nameOf]; exact h2 _ (UInt32.lt_iff_toNat_lt.1 hu)⟩
    · rintro ⟨h1, h2⟩
      refine ⟨h1, fun u hu hn => ?_⟩
      have hu32 := key u hn
      refine h2 (UInt32.ofNat u) (UInt32.lt_iff_toNat_lt.2 (by rw [ofNat_toNat_lt hu32]; exact hu)) ?_
      rw [hh.nameOf, ofNat_toNat_lt hu32]; exact hn
  refine ⟨hsome, ?_, hh.idOf_void, ?_⟩
  · rw [hh.idOf_none]
    constructor
    · intro h1 u; rw [hh.nameOf]; exact h1 _
    · intro h1 u hn
      have hu32 := key u hn
      refine h1 (UInt32.ofNat u) ?_
      rw [hh.nameOf, ofNat_toNat_lt hu32]; exact hn
  · intro t ht
    by_cases hs : s = str "void"
    · subst hs
      rw [hh.idOf_void] at ht; cases ht
      rw [hh.nameOf]; rfl
    · exact ((hsome hs t).1 ht).1

/-- C51: every reported type agrees with its own header: the variant is that of the header's kind, lists
have the header's length, sizes and ids are the header's third word, a name is absent exactly if its offset
is 0. -/
theorem types_sane (cfg : Cfg) (R : Readable) (hR : Addressable cfg R) (ti : TypeInformation)
    (h : TypeInformation.new cfg R = .ok ti) (t : UInt32) (v : TypeVariant) (hv : ti.fromId t = some v) :
    (t = 0 ∧ v = .void) ∨ (t ≠ 0 ∧ Sane v) := by
  obtain ⟨vs, e, fh, -, hh, -, hs⟩ := new_holds cfg R hR ti h
  rw [hh.fromId] at hv
  unfold typeAt at hv
  by_cases ht : t = 0
  · subst ht; cases hv; exact .inl ⟨rfl, rfl⟩
  · obtain ⟨m, hm⟩ : ∃ m, t.toNat = m + 1 := ⟨t.toNat - 1, by
      have : t.toNat ≠ 0 := fun h0 => ht (UInt32.toNat_inj.1 h0)
      omega⟩
    rw [hm, List.getElem?_cons_succ] at hv
    exact .inr ⟨ht, hs v (List.mem_of_getElem? hv)⟩

/-! ### Requests and errors -/

/-- C11: every request lies in the first 24 bytes, in the type section announced by the header (or at most 12
bytes after it) or in the announced string section. -/
theorem new_confined (cfg : Cfg) (R : Readable) (hR : Addressable cfg R) (ev : ReadEvent)
    (hev : ev ∈ TypeInformation.newTrace cfg R) :
    Within 0 24 ev ∨ ∃ e fh, Announces R e fh ∧ InSections fh ev :=
  (new_any (fits_of_addressable hR)).1 ev hev

theorem stricter_refl (cfg : Cfg) : Stricter cfg cfg := ⟨le_refl _, .inr rfl⟩

/-- C15: the trace records what the source answered; if a request fails, `new` returns its error (kind and
message) and makes no
further request; if `new` succeeds, no request failed. -/
theorem new_io_errors (cfg : Cfg) (R : Readable) :
    Faithful R (TypeInformation.newTrace cfg R) ∧
    (∀ ti, TypeInformation.new cfg R = .ok ti → NoFailure (TypeInformation.newTrace cfg R)) ∧
    (∀ ev k, ev ∈ TypeInformation.newTrace cfg R → ev.failed = some k →
      TypeInformation.newE cfg R = .err k ∧ ∃ old, TypeInformation.newTrace cfg R = ev :: old ∧ NoFailure old) := by
  have hd := (prog_new (stricter_refl cfg) rfl).discipline (Reader.new R)
  obtain ⟨new, h1, h2, h3⟩ := hd.trace
  have h1' : TypeInformation.newTrace cfg R = new := by
    unfold TypeInformation.newTrace; rw [h1]; exact List.append_nil _
  rw [h1']
  refine ⟨?_, ?_, ?_⟩
  · have := hd.faithful .nil
    rw [h1] at this
    simpa [Reader.new] using this
  · intro ti hti; exact h3 ti (new_ok.1 hti)
  · intro ev k hev hk
    rcases h2 with h2 | ⟨ev', old, k', rfl, h5, h6, h7⟩
    · rw [h2 ev hev] at hk; cases hk
    · rcases List.mem_cons.1 hev with rfl | hev
      · rw [h5] at hk; cases hk
        exact ⟨newE_of_source h7, old, rfl, h6⟩
      · rw [h6 ev hev] at hk; cases hk

/-- C52: an error of `new` is the error of the last request, or one of six kinds. -/
theorem new_error_kinds (cfg : Cfg) (R : Readable) (hR : Addressable cfg R) (k : ErrorKind)
    (h : TypeInformation.new cfg R = .err k) :
    (∃ e, e.kind = k ∧ LastFailed (TypeInformation.newTrace cfg R) e) ∨
    k ∈ [ErrorKind.InvalidMagic, .InvalidTypeSectionOffset, .InvalidBTFKind, .InvalidStringOffset, .InvalidString,
      .InvalidOffset] := by
  rcases (new_any (fits_of_addressable hR)).2 with ⟨vs, _, _, _, _, _, _, h'⟩ | ⟨k', h', hk⟩
  · rw [h] at h'; cases h'
  · rw [h] at h'; cases h'
    rcases hk with ⟨e, he, hk, -⟩ | ⟨rfl, -⟩ | ⟨hk, -⟩
    · exact .inl ⟨e, he, hk⟩
    · exact .inr (by decide)
    · exact .inr (List.mem_cons_of_mem _ hk)

/-- C05 (first half): if the source itself never reports `InvalidMagic`, then `new` fails with
`InvalidMagic` exactly if the first two bytes can be read and are not one of the two magics. -/
theorem new_magic (cfg : Cfg) (R : Readable) (hR : Addressable cfg R)
    (hsrc : ∀ history offset len e, R.read history offset len = .error e → e.kind ≠ .InvalidMagic) :
    TypeInformation.new cfg R = .err .InvalidMagic ↔ BadMagic R := by
  rcases (new_any (fits_of_addressable hR)).2 with ⟨vs, e, fh, ha, _, _, _, h⟩ | ⟨k, h, hk⟩
  · rw [h]
    constructor
    · intro h'; cases h'
    · rintro ⟨b, hb, hm⟩
      obtain ⟨b', hb', hm'⟩ := ha.magic
      rw [hb] at hb'; cases hb'; exact absurd hm' (hm e)
  · rw [h]
    rcases hk with ⟨x, rfl, ⟨ev, rest, h1, h2⟩, h3⟩ | ⟨rfl, hb⟩ | ⟨hk, e, fh, ha⟩
    · constructor
      · intro hk
        have hk : x.kind = .InvalidMagic := by injection hk
        have hf := (new_io_errors cfg R).1
        rw [h1] at hf
        cases hf with
        | failed hr _ => cases h2; exact absurd hk (hsrc _ _ _ _ hr)
        | done hr _ => cases h2
      · intro hb; exact absurd hb h3
    · exact ⟨fun _ => hb, fun _ => rfl⟩
    · constructor
      · intro hk'; cases hk'; exact absurd hk (by decide)
      · rintro ⟨b, hb, hm⟩
        obtain ⟨b', hb', hm'⟩ := ha.magic
        rw [hb] at hb'; cases hb'; exact absurd hm' (hm e)

/-- C19: with and without overflow checks `new` returns the same (also the same error) and makes the same requests. -/
theorem new_debug_release (R : Readable) :
    TypeInformation.newT ⟨.w64, true⟩ R = TypeInformation.newT ⟨.w64, false⟩ R ∧
    TypeInformation.newTrace ⟨.w64, true⟩ R = TypeInformation.newTrace ⟨.w64, false⟩ R := by
  have hc : Stricter ⟨.w64, true⟩ ⟨.w64, false⟩ := ⟨le_refl _, .inl rfl⟩
  rcases Prog.refines hc (prog_new hc rfl) (Reader.new R) with h | h
  · have := new_total ⟨.w64, true⟩ rfl R
    have h' : TypeInformation.new ⟨.w64, true⟩ R = .panic := by
      unfold TypeInformation.new TypeInformation.newT; rw [h]; rfl
    rw [h'] at this
    rcases this with ⟨_, h⟩ | ⟨_, h⟩ <;> cases h
  · unfold TypeInformation.newT TypeInformation.newTrace
    rw [h]; exact ⟨rfl, rfl⟩

/-- C12: a second source that gives the same answers to the requests in the header and in the sections gives
the same result (also the same error). -/
theorem new_local (cfg : Cfg) (R R' : Readable) (hR : Addressable cfg R)
    (hsame : ∀ history ev, (Within 0 24 ev ∨ ∃ e fh, Announces R e fh ∧ InSections fh ev) →
      SameAnswer ev.len (R.read history ev.offset ev.len) (R'.read history ev.offset ev.len)) :
    TypeInformation.newT cfg R' = TypeInformation.newT cfg R ∧
    TypeInformation.newTrace cfg R' = TypeInformation.newTrace cfg R := by
  have hp := prog_new (stricter_refl cfg) rfl
  obtain ⟨new, h1, -, -⟩ := (hp.discipline (Reader.new R)).trace
  have hnew : TypeInformation.newTrace cfg R = new := by
    unfold TypeInformation.newTrace; rw [h1]; exact List.append_nil _
  have := hp.local (Reader.new R) R' new h1 (by
    rintro later ev earlier rfl
    exact hsame _ ev (new_confined cfg R hR ev (by rw [hnew]; simp)))
  unfold TypeInformation.newT TypeInformation.newTrace
  change (TypeInformation.newP cfg { Reader.new R with readable := R' }).1 = _ ∧
    (TypeInformation.newP cfg { Reader.new R with readable := R' }).2.trace = _
  rw [this]
  exact ⟨rfl, rfl⟩

/-! ### Concrete sources -/

namespace Examples

open Samples

/-- Serves the file of `zoo`, but every request after the first `n` ones fails. -/
def flaky (n : Nat) : Readable where
  read history offset len :=
    if history.length < n then (buffer (leFile zooTypes zooStrings)).read history offset len
    else .error ⟨.IOError, str "the disk is gone"⟩

/-- Gives a different answer to every request. -/
def liar : Readable where
  read history offset len :=
    if history.length < 8 then (buffer (leFile zooTypes zooStrings)).read history offset len
    else .ok fun i => UInt8.ofNat (history.length + i)

/-- `new_total`, `new_io_errors`, `new_error_kinds`: the 20th request fails; nothing is requested after that. -/
example : TypeInformation.newE dbg (flaky 19) = .err ⟨.IOError, str "the disk is gone"⟩ ∧ (TypeInformation.newTrace dbg (flaky 19)).length = 20 := by
  decide +kernel

/-- The source need not be a file. -/
example : TypeInformation.new dbg liar = .err .InvalidStringOffset := by decide +kernel

/-- `new_holds`, `ids_dense`, `ids_bounded`, `name_of_agrees`, `id_of_last`, `types_sane`, `new_confined`: on 64-bit targets
every source is addressable, and `zoo` is accepted. -/
example : Addressable dbg (buffer (leFile zooTypes zooStrings)) ∧
    TypeInformation.new dbg (buffer (leFile zooTypes zooStrings)) = .ok zoo := ⟨.inl rfl, zoo_parsed⟩

example : zoo.fromId 16 ≠ none ∧ zoo.fromId 17 = none ∧ zoo.nameOf 3 = some (str "list_head") ∧
    zoo.idOf (str "list_head") = some 3 ∧ zoo.idOf (str "none") = none := by decide +kernel

/-- `new_confined`: there are requests of each sort. -/
example : (⟨0, 2, none⟩ : ReadEvent) ∈ TypeInformation.newTrace dbg (buffer (leFile zooTypes zooStrings)) ∧
    (⟨24, 4, none⟩ : ReadEvent) ∈ TypeInformation.newTrace dbg (buffer (leFile zooTypes zooStrings)) ∧
    (⟨377, 1, none⟩ : ReadEvent) ∈ TypeInformation.newTrace dbg (buffer (leFile zooTypes zooStrings)) := by decide +kernel

/-- `new_total_32_partial`: a 32-bit target. -/
example : TypeInformation.new ⟨.w32, true⟩ (readableBuffer ⟨.w32, true⟩ (leFile zooTypes zooStrings)) = .ok zoo := by
  decide +kernel

/-- `new_magic`: a buffer reports `EOF` only. -/
example : BadMagic (buffer [1, 2, 3]) ∧ TypeInformation.new dbg (buffer [1, 2, 3]) = .err .InvalidMagic := by
  refine ⟨⟨fun i => [1, 2].getD i 0, ?_, ?_⟩, by decide +kernel⟩
  · rfl
  · intro e; cases e <;> decide

/-- `new_local`: the flaky source after the last request. -/
example : TypeInformation.new dbg (flaky 1000) = .ok zoo := by decide +kernel

end Examples

end Btf.Props

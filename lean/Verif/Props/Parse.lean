import Verif.Proofs.FileDialect
import Verif.Proofs.Build
import Verif.Proofs.Buffer
import Verif.Props.Source
import Verif.SamplesFull

/-!
# `TypeInformation::new` on files

`f` is an arbitrary list of bytes and `R` any `Readable` that serves these bytes (`ReadableBuffer` does:
`serves_buffer`). `Decodes .documented f vs`: the file contains the types `vs` according to the kernel's
documentation of the format; `.crate` is the same with the three deviations listed in `Spec/Format.lean`.
-/

namespace Btf.Props

open Btf Spec

section
variable {cfg : Cfg} {f : List UInt8} {R : Readable}

theorem fits_of_target (h : FitsTarget cfg f) : ∀ e fh, Preamble f e fh → Fits cfg fh := by
  intro e fh hp
  rcases h with h | h
  · exact fits_64 h fh
  · have := h e fh hp
    have hu := usizeMod_ge cfg
    exact ⟨fun _ => by omega, fun _ => by omega⟩

theorem decodes_length {dl : Dialect} {vs : List TypeVariant} (h : Decodes dl f vs) : 12 * vs.length < 2 ^ 32 := by
  obtain ⟨e, fh, n, -, hE, hr, -⟩ := h
  have := records_count hr
  omega

/-! ### C02, C03: which files are accepted, and what is reported -/

/-- C02: what `new` reports is what the file says (in the dialect of the crate). -/
theorem new_sound (hS : Serves cfg R f) (ha : FitsTarget cfg f) {ti : TypeInformation}
    (h : TypeInformation.new cfg R = .ok ti) : ∃ vs, Decodes .crate f vs ∧ Holds ti vs := by
  rcases new_file hS (fits_of_target ha) with ⟨vs, h1, h2⟩ | ⟨k, h2, -⟩
  · rw [h] at h2; cases h2
    have := decodes_length h1
    exact ⟨vs, h1, holds_build (by omega)⟩
  · rw [h] at h2; cases h2

/-- C03: every file that has a meaning is accepted (in the dialect of the crate). -/
theorem new_complete (hS : Serves cfg R f) (ha : FitsTarget cfg f) {vs : List TypeVariant} (h : Decodes .crate f vs) :
    ∃ ti, TypeInformation.new cfg R = .ok ti ∧ Holds ti vs := by
  rcases new_file hS (fits_of_target ha) with ⟨vs', h1, h2⟩ | ⟨k, -, -, h2⟩
  · have := decodes_length h1
    rw [decodes_unique h h1]
    exact ⟨_, h2, holds_build (by omega)⟩
  · exact absurd h (h2 vs)

/-- C02 (partial): what `new` reports is what the file says according to the documentation, provided that the type
with the greatest id is not an array, and that the file is little-endian or has no 64-bit enumerations. Missing:
the other files (`new_sound_refuted`, `new_overrun_refuted`). -/
theorem new_sound_documented_partial (hS : Serves cfg R f) (ha : FitsTarget cfg f) {ti : TypeInformation}
    (h : TypeInformation.new cfg R = .ok ti)
    (hlast : ∀ t th d, ti.fromId t = some (.array th d) → ∃ u, t < u ∧ ti.fromId u ≠ none)
    (h64 : f.take 2 = magic .little ∨ ∀ t v, ti.fromId t = some v → isEnum64 v = false) :
    ∃ vs, Decodes .documented f vs ∧ Holds ti vs := by
  obtain ⟨vs, hd, hh⟩ := new_sound hS ha h
  have hlen := decodes_length hd
  obtain ⟨e, fh, n, hp, hE, hr, hn⟩ := hd
  have hat : ∀ i v, vs[i]? = some v → ti.fromId (UInt32.ofNat (i + 1)) = some v := by
    intro i v hv
    have := (List.getElem?_eq_some_iff.1 hv).1
    rw [hh.fromId, ofNat_toNat_lt (by omega)]
    exact hv
  have hend : n ≤ typeEnd fh := by
    refine records_end hr (by unfold typeEnd; omega) fun th d hl => ?_
    rw [List.getLast?_eq_getElem?] at hl
    have hlt := (List.getElem?_eq_some_iff.1 hl).1
    obtain ⟨u, hu, hne⟩ := hlast _ _ _ (hat _ _ hl)
    rw [UInt32.lt_iff_toNat_lt, ofNat_toNat_lt (by omega)] at hu
    apply hne
    rw [hh.fromId]
    unfold typeAt
    rw [List.getElem?_eq_none_iff, List.length_cons]; omega
  refine ⟨vs, ⟨e, fh, n, hp, hE, records_documented hr hend ?_, Nat.le_antisymm hend hn⟩, hh⟩
  refine h64.imp (fun h => ?_) (fun h v hv => ?_)
  · have := h.symm.trans hp.magic
    cases e with
    | little => rfl
    | big => exact absurd this (by decide)
  · obtain ⟨i, hi, rfl⟩ := List.mem_iff_getElem.1 hv
    exact h _ _ (hat i _ (List.getElem?_eq_getElem hi))

/-- C03 (partial): every well-formed file is accepted and decoded, provided that arrays have `vlen` 0 (as the
kernel demands) and that the file is little-endian or has no 64-bit enumerations. Missing: 64-bit enumerations
in big-endian files (`new_sound_refuted`). -/
theorem new_complete_documented_partial (hS : Serves cfg R f) (ha : FitsTarget cfg f) {vs : List TypeVariant}
    (h : Decodes .documented f vs) (harr : ∀ th d, .array th d ∈ vs → th.vlen = 0)
    (h64 : f.take 2 = magic .little ∨ ∀ v ∈ vs, isEnum64 v = false) :
    ∃ ti, TypeInformation.new cfg R = .ok ti ∧ Holds ti vs := by
  obtain ⟨e, fh, n, hp, hE, hr, hn⟩ := h
  refine new_complete hS ha ⟨e, fh, n, hp, hE, records_crate hr harr ?_, Nat.le_of_eq hn.symm⟩
  refine h64.imp_left fun h => ?_
  have := h.symm.trans hp.magic
  cases e with
  | little => rfl
  | big => exact absurd this (by decide)

/-- C64: exactly the files that decode in the dialect of the crate are accepted. -/
theorem new_accepts_iff (hS : Serves cfg R f) (ha : FitsTarget cfg f) :
    (∃ ti, TypeInformation.new cfg R = .ok ti) ↔ ∃ vs, Decodes .crate f vs := by
  constructor
  · rintro ⟨ti, h⟩
    obtain ⟨vs, h, -⟩ := new_sound hS ha h
    exact ⟨vs, h⟩
  · rintro ⟨vs, h⟩
    obtain ⟨ti, h, -⟩ := new_complete hS ha h
    exact ⟨ti, h⟩

/-- C59: a file has at most one content. -/
theorem content_unique {vs vs' : List TypeVariant} (h : Decodes .crate f vs) (h' : Decodes .crate f vs') : vs = vs' :=
  decodes_unique h h'

/-- C59: two files with the same types give the same result. -/
theorem new_determined {R' : Readable} {f' : List UInt8} {cfg' : Cfg} (hS : Serves cfg R f) (ha : FitsTarget cfg f)
    (hS' : Serves cfg' R' f') (ha' : FitsTarget cfg' f') {vs : List TypeVariant} (h : Decodes .crate f vs)
    (h' : Decodes .crate f' vs) : TypeInformation.new cfg R = TypeInformation.new cfg' R' := by
  rcases new_file hS (fits_of_target ha) with ⟨vs1, h1, h2⟩ | ⟨k, -, -, h2⟩
  · rcases new_file hS' (fits_of_target ha') with ⟨vs1', h1', h2'⟩ | ⟨k, -, -, h2'⟩
    · rw [h2, h2', decodes_unique h1 h, decodes_unique h1' h']
    · exact absurd h' (h2' vs)
  · exact absurd h (h2 vs)

/-! ### Errors -/

/-- C55: `new` fails exactly if the file has a flaw, and then the error names one of its flaws. -/
theorem new_err_sound (hS : Serves cfg R f) (ha : FitsTarget cfg f) {k : LoadReason}
    (h : TypeInformation.newT cfg R = .err k) : FileFlaw f k := by
  rcases newT_file hS (fits_of_target ha) with ⟨vs, -, h2⟩ | ⟨k', h2, h3, -⟩
  · rw [h] at h2; cases h2
  · rw [h] at h2; cases h2; exact h3

/-- C55: a file with a flaw is rejected. -/
theorem new_err_complete (hS : Serves cfg R f) (ha : FitsTarget cfg f) {k : LoadReason} (h : FileFlaw f k) :
    ∃ k', TypeInformation.newT cfg R = .err k' := by
  rcases newT_file hS (fits_of_target ha) with ⟨vs, h1, -⟩ | ⟨k', h2, -⟩
  · exact absurd h1 (fileFlaw_not h)
  · exact ⟨k', h2⟩

/-- C55: if all flaws call for the same error, then this is the error. -/
theorem new_err_of_only (hS : Serves cfg R f) (ha : FitsTarget cfg f) {k : LoadReason} {x : Error} (h : FileFlaw f k)
    (honly : ∀ k', FileFlaw f k' → k'.error = x) : TypeInformation.newE cfg R = .err x := by
  obtain ⟨k', h'⟩ := new_err_complete hS ha h
  exact newE_err.2 ⟨k', h', honly k' (new_err_sound hS ha h')⟩

/-- C55: if all flaws are of the same kind, then the error is of this kind. -/
theorem new_err_of_kind (hS : Serves cfg R f) (ha : FitsTarget cfg f) {k : LoadReason} {x : ErrorKind} (h : FileFlaw f k)
    (honly : ∀ k', FileFlaw f k' → k'.kind = x) : TypeInformation.new cfg R = .err x := by
  obtain ⟨k', h'⟩ := new_err_complete hS ha h
  exact new_err.2 ⟨k', h', honly k' (new_err_sound hS ha h')⟩

theorem fileFlaw_record {e : Endianness} {fh : FileHeader}
    (hp : Preamble f e fh) (hE : typeEnd fh < 2 ^ 32) {vs : List TypeVariant} {pos : Nat} {k : LoadReason}
    (hr : Records .crate f e fh (typeStart fh) vs pos) (hk : RecordFlaw f e fh pos k)
    {k' : LoadReason} (h' : FileFlaw f k') : RecordFlaw f e fh pos k' := by
  have hl := preamble_length hp
  cases h' with
  | truncated h => omega
  | magic h => exact absurd hp.magic (h e)
  | sectionStart hp' h =>
    obtain ⟨rfl, rfl⟩ := preamble_unique hp hp'
    unfold typeEnd at hE
    omega
  | sectionEnd hp' h =>
    obtain ⟨rfl, rfl⟩ := preamble_unique hp hp'
    omega
  | record hp' _ hr' hlt' hk' =>
    obtain ⟨rfl, rfl⟩ := preamble_unique hp hp'
    have h1 := (records_stuck hE (Nat.le_refl _) hr' hk' hr).1
    have h2 := (records_stuck hE (Nat.le_refl _) hr hk hr').1
    obtain rfl : pos = _ := Nat.le_antisymm h1 h2
    exact hk'

/-- The first record that cannot be decoded determines the error. -/
theorem new_err_record (hS : Serves cfg R f) (ha : FitsTarget cfg f) {e : Endianness} {fh : FileHeader}
    (hp : Preamble f e fh) (hE : typeEnd fh < 2 ^ 32) {vs : List TypeVariant} {pos : Nat} {k : LoadReason} {x : Error}
    (hr : Records .crate f e fh (typeStart fh) vs pos) (hpos : pos < typeEnd fh) (hk : RecordFlaw f e fh pos k)
    (honly : ∀ k', RecordFlaw f e fh pos k' → k'.error = x) : TypeInformation.newE cfg R = .err x :=
  new_err_of_only hS ha (.record hp hE hr hpos hk) fun k' h' => honly k' (fileFlaw_record hp hE hr hk h')

/-- The first record that cannot be decoded determines the kind of the error. -/
theorem new_err_record_kind (hS : Serves cfg R f) (ha : FitsTarget cfg f) {e : Endianness} {fh : FileHeader}
    (hp : Preamble f e fh) (hE : typeEnd fh < 2 ^ 32) {vs : List TypeVariant} {pos : Nat} {k : LoadReason} {x : ErrorKind}
    (hr : Records .crate f e fh (typeStart fh) vs pos) (hpos : pos < typeEnd fh) (hk : RecordFlaw f e fh pos k)
    (honly : ∀ k', RecordFlaw f e fh pos k' → k'.kind = x) : TypeInformation.new cfg R = .err x :=
  new_err_of_kind hS ha (.record hp hE hr hpos hk) fun k' h' => honly k' (fileFlaw_record hp hE hr hk h')

/-! ### C05: the magic -/

theorem addressable_of_target (hS : Serves cfg R f) (ha : FitsTarget cfg f) : Addressable cfg R :=
  ha.imp_right fun h e fh hann => h e fh ((announces_iff hS).1 hann)

/-- C05: `new` fails with `InvalidMagic` exactly if the file has two bytes that are not one of the magics
(unless the source itself reports this error). -/
theorem new_bad_magic (hS : Serves cfg R f) (ha : FitsTarget cfg f)
    (hsrc : ∀ history offset len e, R.read history offset len = .error e → e.kind ≠ .InvalidMagic) :
    TypeInformation.new cfg R = .err .InvalidMagic ↔
      2 ≤ f.length ∧ f.take 2 ≠ [0x9F, 0xEB] ∧ f.take 2 ≠ [0xEB, 0x9F] := by
  rw [new_magic cfg R (addressable_of_target hS ha) hsrc]
  have hu := usizeMod_ge cfg
  have hs := hS [] 0 2 (by decide) (by omega)
  by_cases h : 0 + 2 ≤ f.length
  · rw [if_pos h] at hs
    obtain ⟨b, hb, hbytes⟩ := hs
    have : f.take 2 = [b 0, b 1] := by
      have := take_drop_eq hbytes
      rw [List.drop_zero] at this
      rw [this]; rfl
    rw [this]
    unfold BadMagic
    constructor
    · rintro ⟨b', hb', h'⟩
      rw [hb] at hb'; cases hb'
      exact ⟨by omega, h' .little, h' .big⟩
    · rintro ⟨-, h1, h2⟩
      exact ⟨b, hb, fun e => by cases e; exact h1; exact h2⟩
  · rw [if_neg h] at hs
    obtain ⟨k, hk⟩ := hs
    constructor
    · rintro ⟨b', hb', h'⟩
      rw [hk] at hb'; cases hb'
    · rintro ⟨h1, -⟩; omega

/-- C05: the magic fixes the byte order in which everything else is read. -/
theorem new_byte_order (hS : Serves cfg R f) (ha : FitsTarget cfg f) {ti : TypeInformation}
    (h : TypeInformation.new cfg R = .ok ti) :
    (f.take 2 = [0x9F, 0xEB] ∧ ∃ fh vs n, Preamble f .little fh ∧ Records .crate f .little fh (typeStart fh) vs n ∧ Holds ti vs) ∨
    (f.take 2 = [0xEB, 0x9F] ∧ ∃ fh vs n, Preamble f .big fh ∧ Records .crate f .big fh (typeStart fh) vs n ∧ Holds ti vs) := by
  obtain ⟨vs, ⟨e, fh, n, hp, -, hr, -⟩, hh⟩ := new_sound hS ha h
  cases e with
  | little => exact .inl ⟨hp.magic, fh, vs, n, hp, hr, hh⟩
  | big => exact .inr ⟨hp.magic, fh, vs, n, hp, hr, hh⟩

/-! ### C13, C14: sections and kinds -/

/-- C13: a type section that ends beyond 4 GiB is rejected. -/
theorem new_section_overflow (hS : Serves cfg R f) (ha : FitsTarget cfg f) {e : Endianness} {fh : FileHeader}
    (hp : Preamble f e fh) (hE : 2 ^ 32 ≤ fh.hdrLen.toNat + fh.typeOff.toNat + fh.typeLen.toNat) :
    TypeInformation.newE cfg R = .err ⟨.InvalidTypeSectionOffset,
      if 2 ^ 32 ≤ fh.hdrLen.toNat + fh.typeOff.toNat then str "Type section start offset overflow"
      else str "Type section end offset overflow"⟩ := by
  have hflaw : ∃ k, FileFlaw f k := by
    by_cases h : 2 ^ 32 ≤ typeStart fh
    · exact ⟨_, .sectionStart hp h⟩
    · exact ⟨_, .sectionEnd hp (by omega) hE⟩
  obtain ⟨k, hk⟩ := hflaw
  refine new_err_of_only hS ha hk ?_
  intro k' h'
  have hl := preamble_length hp
  cases h' with
  | truncated h => omega
  | magic h => exact absurd hp.magic (h e)
  | sectionStart hp' h =>
    obtain ⟨rfl, rfl⟩ := preamble_unique hp hp'
    rw [if_pos (show 2 ^ 32 ≤ fh.hdrLen.toNat + fh.typeOff.toNat from h)]; rfl
  | sectionEnd hp' h =>
    obtain ⟨rfl, rfl⟩ := preamble_unique hp hp'
    rw [if_neg (by unfold typeStart at h; omega)]; rfl
  | record hp' h =>
    obtain ⟨rfl, rfl⟩ := preamble_unique hp hp'
    unfold typeEnd typeStart at h; omega

/-- C13: a section that ends inside the header of a record is rejected. -/
theorem new_partial_header (hS : Serves cfg R f) (ha : FitsTarget cfg f) {e : Endianness} {fh : FileHeader}
    (hp : Preamble f e fh) (hE : typeEnd fh < 2 ^ 32) {vs : List TypeVariant} {pos : Nat}
    (hr : Records .crate f e fh (typeStart fh) vs pos) (h1 : pos < typeEnd fh) (h2 : typeEnd fh < pos + 12) :
    TypeInformation.newE cfg R = .err ⟨.InvalidTypeSectionOffset, str "Invalid type section offset"⟩ := by
  refine new_err_record hS ha hp hE hr h1 (.header h2) ?_
  intro k' h'
  cases h' with
  | header => rfl
  | body => rfl
  | headerTruncated h => omega
  | kind h => omega
  | bodyTruncated h => omega
  | string h => omega
  | misaligned h => omega

/-- C13: a section that ends inside the body of a record (other than an array) is rejected. -/
theorem new_partial_body (hS : Serves cfg R f) (ha : FitsTarget cfg f) {e : Endianness} {fh : FileHeader}
    (hp : Preamble f e fh) (hE : typeEnd fh < 2 ^ 32) {vs : List TypeVariant} {pos : Nat} {th : Header}
    (hr : Records .crate f e fh (typeStart fh) vs pos) (h1 : pos + 12 ≤ typeEnd fh) (hh : HeaderAt f e pos th)
    (harr : th.kind ≠ .Array) (h2 : typeEnd fh < pos + 12 + bodySize th.kind th.vlen) :
    TypeInformation.newE cfg R = .err ⟨.InvalidTypeSectionOffset, str "Invalid type section offset"⟩ := by
  rw [← boundedSize_of_not_array (dl := .crate) harr] at h2
  refine new_err_record hS ha hp hE hr (by omega) (.body h1 hh h2) ?_
  intro k' h'
  have hlen := hh.2.1.1
  cases h' with
  | header => rfl
  | body => rfl
  | headerTruncated _ h => omega
  | kind _ hw hv hk =>
    obtain ⟨-, -, info, h3, h4, -⟩ := hh
    rw [word_unique hw h3] at hv
    exact absurd (h4.trans hv.symm) (hk _)
  | bodyTruncated h hh' => cases headerAt_unique hh hh'; omega
  | string h hh' => cases headerAt_unique hh hh'; omega
  | misaligned h hh' => cases headerAt_unique hh hh'; omega

/-- C14: an unknown kind is rejected. -/
theorem new_unknown_kind (hS : Serves cfg R f) (ha : FitsTarget cfg f) {e : Endianness} {fh : FileHeader}
    (hp : Preamble f e fh) (hE : typeEnd fh < 2 ^ 32) {vs : List TypeVariant} {pos : Nat} {info : UInt32}
    (hr : Records .crate f e fh (typeStart fh) vs pos) (h1 : pos + 12 ≤ typeEnd fh) (hlen : pos + 12 ≤ f.length)
    (hw : Word f e (pos + 4) info) (hk : info.toNat / 2 ^ 24 % 32 = 0 ∨ 19 < info.toNat / 2 ^ 24 % 32) :
    TypeInformation.newE cfg R =
      .err ⟨.InvalidBTFKind, str "Invalid BTF kind value: 0x" ++ hex 4 (info.toNat / 2 ^ 24 % 32)⟩ := by
  have hno : ∀ k, kindCode k ≠ info.toNat / 2 ^ 24 % 32 := by
    intro k; cases k <;> simp only [kindCode] <;> omega
  have hval : (UInt32.ofNat (info.toNat / 2 ^ 24 % 32)).toNat = info.toNat / 2 ^ 24 % 32 := ofNat_toNat_lt (by omega)
  have hnh : ∀ th, ¬ HeaderAt f e pos th := by
    rintro th ⟨-, -, info', h3, h4, -⟩
    rw [← word_unique hw h3] at h4
    exact hno _ h4
  refine new_err_record hS ha hp hE hr (by omega) (.kind (value := UInt32.ofNat (info.toNat / 2 ^ 24 % 32)) h1 hw hval (by rw [hval]; exact hno)) ?_
  intro k' h'
  cases h' with
  | header => omega
  | body _ hh' => exact absurd hh' (hnh _)
  | headerTruncated _ h => omega
  | kind _ hw' hv hk =>
    rw [word_unique hw' hw] at hv
    simp only [LoadReason.error, LoadReason.message, hv]; rfl
  | bodyTruncated h hh' => exact absurd hh' (hnh _)
  | string h hh' => exact absurd hh' (hnh _)
  | misaligned h hh' => exact absurd hh' (hnh _)

/-! ### C10, C16: strings and members -/

/-- The next record is complete: it has a known kind, its body lies in the section and in the file. -/
structure NextRecord (f : List UInt8) (e : Endianness) (fh : FileHeader) (pos : Nat) (th : Header) : Prop where
  preamble : Preamble f e fh
  bounded : typeEnd fh < 2 ^ 32
  before : ∃ vs, Records .crate f e fh (typeStart fh) vs pos
  header : HeaderAt f e pos th
  inSection : pos + 12 + boundedSize .crate th.kind th.vlen ≤ typeEnd fh
  inFile : pos + 12 + bodySize th.kind th.vlen ≤ f.length

/-- All members of the record at `pos` are at byte boundaries, as far as the kind flag is not set. -/
def Aligned (f : List UInt8) (e : Endianness) (pos : Nat) (th : Header) : Prop :=
  (th.kind = .Struct ∨ th.kind = .Union) → th.kindFlag = false → ∀ i raw, i < th.vlen →
    Word f e (pos + 12 + i * 12 + 8) raw → 8 ∣ raw.toNat

theorem nextRecord_flaw {e : Endianness} {fh : FileHeader} {pos : Nat} {th : Header} (hn : NextRecord f e fh pos th)
    {k : LoadReason} (h' : RecordFlaw f e fh pos k) :
    (∃ off, StringRef f e th (pos + 12) off ∧ StringFlaw f fh off k) ∨ (k = .unaligned ∧ ¬ Aligned f e pos th) := by
  obtain ⟨hp, hE, ⟨vs, hr⟩, hh, h1, h2⟩ := hn
  cases h' with
  | header => omega
  | body _ hh' => cases headerAt_unique hh hh'; omega
  | headerTruncated _ h => omega
  | kind _ hw hv hk =>
    obtain ⟨-, -, info, h3, h4, -⟩ := hh
    rw [word_unique hw h3] at hv
    exact absurd (h4.trans hv.symm) (hk _)
  | bodyTruncated h hh' => cases headerAt_unique hh hh'; omega
  | string h hh' hr hf => cases headerAt_unique hh hh'; exact .inl ⟨_, hr, hf⟩
  | misaligned h hh' hk hkf hi hw hna =>
    cases headerAt_unique hh hh'
    exact .inr ⟨rfl, fun hm => hna (hm hk hkf _ _ hi hw)⟩

theorem new_err_next (hS : Serves cfg R f) (ha : FitsTarget cfg f) {e : Endianness} {fh : FileHeader} {pos : Nat}
    {th : Header} (hn : NextRecord f e fh pos th) {k : LoadReason} (hk : RecordFlaw f e fh pos k) {x : ErrorKind}
    (hs : ∀ off k', StringRef f e th (pos + 12) off → StringFlaw f fh off k' → k'.kind = x)
    (hm : Aligned f e pos th) :
    TypeInformation.new cfg R = .err x := by
  have hn' := hn
  obtain ⟨hp, hE, ⟨vs, hr⟩, hh, h1, h2⟩ := hn
  refine new_err_record_kind hS ha hp hE hr (by omega) hk ?_
  intro k' h'
  rcases nextRecord_flaw hn' h' with ⟨off, h3, h4⟩ | ⟨-, h3⟩
  · exact hs _ _ h3 h4
  · exact absurd hm h3

/-- C16: a struct or union without kind flag that has a member inside a byte is rejected. -/
theorem new_misaligned (hS : Serves cfg R f) (ha : FitsTarget cfg f) {e : Endianness} {fh : FileHeader} {pos : Nat}
    {th : Header} (hn : NextRecord f e fh pos th) (hk : th.kind = .Struct ∨ th.kind = .Union)
    (hkf : th.kindFlag = false) {i : Nat} {raw : UInt32} (hi : i < th.vlen)
    (hw : Word f e (pos + 12 + i * 12 + 8) raw) (hna : ¬ 8 ∣ raw.toNat)
    (hs : ∀ off, StringRef f e th (pos + 12) off → ∃ s, StringAt f fh off s) :
    TypeInformation.newE cfg R =
      .err ⟨.InvalidOffset, str "Unaligned bit offset for struct/union member with kind_flag=false"⟩ := by
  have hn' := hn
  obtain ⟨hp, hE, ⟨vs, hr⟩, hh, h1, h2⟩ := hn
  refine new_err_record hS ha hp hE hr (by omega) (.misaligned h1 hh hk hkf hi hw hna) ?_
  intro k' h'
  rcases nextRecord_flaw hn' h' with ⟨off, h3, h4⟩ | ⟨rfl, -⟩
  · obtain ⟨s, h⟩ := hs off h3
    exact absurd h (stringFlaw_not h4)
  · rfl

/-- The string at offset `off` does not start inside the string section, or the section is beyond 4 GiB. -/
def Outside (fh : FileHeader) (off : UInt32) : Prop := 2 ^ 32 ≤ strEnd fh ∨ strEnd fh ≤ strStart fh + off.toNat

/-- The string at offset `off` starts inside the string section, but no NUL follows in the section. -/
def Unterminated (f : List UInt8) (fh : FileHeader) (off : UInt32) : Prop :=
  strEnd fh < 2 ^ 32 ∧ strEnd fh ≤ f.length ∧ strStart fh + off.toNat < strEnd fh ∧
  ∀ i, strStart fh + off.toNat ≤ i → i < strEnd fh → f[i]? ≠ some 0

theorem outside_flaw {fh : FileHeader} {off : UInt32} (h : Outside fh off) : ∃ q, StringFlaw f fh off q := by
  have ho := off.toNat_lt
  by_cases h1 : 2 ^ 32 ≤ strStart fh
  · exact ⟨_, .sectionStart h1⟩
  by_cases h2 : 2 ^ 32 ≤ strEnd fh
  · exact ⟨_, .sectionEnd (by omega) h2⟩
  by_cases h3 : 2 ^ 32 ≤ strStart fh + off.toNat
  · exact ⟨_, .overflow (by omega) h3⟩
  have hp : (UInt32.ofNat (strStart fh + off.toNat)).toNat = strStart fh + off.toNat := ofNat_toNat_lt (by omega)
  exact ⟨_, .outside (place := UInt32.ofNat (strStart fh + off.toNat)) (by omega) hp (by rw [hp]; unfold Outside at h; omega)⟩

/-- C10: a record that refers to a string outside the string section is rejected. -/
theorem new_string_outside (hS : Serves cfg R f) (ha : FitsTarget cfg f) {e : Endianness} {fh : FileHeader} {pos : Nat}
    {th : Header} (hn : NextRecord f e fh pos th) (hal : Aligned f e pos th) {off : UInt32}
    (hr : StringRef f e th (pos + 12) off) (ho : Outside fh off)
    (hs : ∀ off', StringRef f e th (pos + 12) off' → Outside fh off' ∨ ∃ s, StringAt f fh off' s) :
    TypeInformation.new cfg R = .err .InvalidStringOffset := by
  obtain ⟨q, hq⟩ := outside_flaw (f := f) ho
  refine new_err_next hS ha hn (.string hn.inSection hn.header hr hq) ?_ hal
  intro off' k' hr' hf
  rcases hs off' hr' with h | ⟨s, h⟩
  · unfold Outside at h
    cases hf with
    | sectionStart => rfl
    | sectionEnd => rfl
    | overflow => rfl
    | outside => rfl
    | unterminated h1 h2 h' => omega
    | truncated h1 h2 h' h'' => omega
  · exact absurd h (stringFlaw_not hf)

/-- C10: a record that refers to a string without end is rejected. -/
theorem new_string_unterminated (hS : Serves cfg R f) (ha : FitsTarget cfg f) {e : Endianness} {fh : FileHeader} {pos : Nat}
    {th : Header} (hn : NextRecord f e fh pos th) (hal : Aligned f e pos th) {off : UInt32}
    (hr : StringRef f e th (pos + 12) off) (ho : Unterminated f fh off)
    (hs : ∀ off', StringRef f e th (pos + 12) off' → Unterminated f fh off' ∨ ∃ s, StringAt f fh off' s) :
    TypeInformation.new cfg R = .err .InvalidString := by
  have hun : ∀ off', Unterminated f fh off' →
      StringFlaw f fh off' (.unterminated (UInt32.ofNat (strStart fh + off'.toNat))) := by
    rintro off' ⟨h1, h2, h3, h4⟩
    have hp : (UInt32.ofNat (strStart fh + off'.toNat)).toNat = strStart fh + off'.toNat := ofNat_toNat_lt (by omega)
    refine .unterminated h1 hp (by omega) ?_
    rw [hp]
    exact (fun i hi hi' => ⟨f[i], List.getElem?_eq_getElem (by omega), fun h0 => h4 i hi hi' (by
      rw [List.getElem?_eq_getElem (by omega), h0])⟩)
  refine new_err_next hS ha hn (.string hn.inSection hn.header hr (hun off ho)) ?_ hal
  intro off' k' hr' hf
  rcases hs off' hr' with ⟨h1, h2, h3, h4⟩ | ⟨s, h⟩
  · cases hf with
    | sectionStart => unfold strEnd at h1; omega
    | sectionEnd => omega
    | overflow => omega
    | outside => omega
    | unterminated => rfl
    | truncated => omega
  · exact absurd h (stringFlaw_not hf)

end

/-! ### The hypotheses are met -/

namespace Examples

open Samples

theorem serves (f : List UInt8) (h : f.length < 2 ^ 64) : Serves dbg (buffer f) f := serves_buffer dbg f h

theorem fits (f : List UInt8) : FitsTarget dbg f := .inl rfl

/-- `new_sound`. -/
theorem zoo_decodes : ∃ vs, Decodes .crate (leFile zooTypes zooStrings) vs ∧ Holds zoo vs :=
  new_sound (serves _ (by decide +kernel)) (fits _) zoo_parsed

/-- `new_sound_documented_partial`: the hypotheses hold for the file with all kinds of `rest`. -/
theorem rest_documented : ∃ vs, Decodes .documented (restFile .little) vs ∧ Holds rest vs := by
  refine new_sound_documented_partial (serves _ (by decide +kernel)) (fits _) rest_parsed ?_ (.inl (by decide +kernel))
  intro t th d h
  exfalso
  have hn : ∀ p ∈ rest.get, ∀ th d, p.2 ≠ TypeVariant.array th d := by
    have : rest.get.all (fun p => match p.2 with | .array _ _ => false | _ => true) = true := by decide +kernel
    intro p hp th d heq
    have := List.all_eq_true.1 this p hp
    rw [heq] at this; cases this
  obtain ⟨n, -, -, h1, h2, -⟩ := ids_dense dbg _ (.inl rfl) rest rest_parsed
  by_cases h0 : t = 0
  · subst h0; rw [h1] at h; cases h
  · rw [h2 t (by have : t.toNat ≠ 0 := fun h0' => h0 (UInt32.toNat_inj.1 h0'); omega)] at h
    cases hg : rest.get[t.toNat - 1]? with
    | none => rw [hg] at h; cases h
    | some p =>
      rw [hg] at h
      cases p with
      | mk i v => cases h; exact hn _ (List.mem_of_getElem? hg) _ _ rfl

/-- `new_complete`, `new_determined`. -/
example : ∃ vs, Decodes .crate (leFile zooTypes zooStrings) vs ∧ vs.length = 16 := by
  obtain ⟨vs, h1, h2⟩ := zoo_decodes
  refine ⟨vs, h1, ?_⟩
  have := congrArg List.length h2.get
  have h16 : zoo.get.length = 16 := by decide +kernel
  rw [h16] at this
  simpa [numbered] using this.symm

/-- `new_complete_documented_partial`. -/
example : ∃ vs, Decodes .documented (restFile .little) vs ∧ (∀ th d, .array th d ∈ vs → th.vlen = 0) ∧
    (restFile .little).take 2 = magic .little := by
  obtain ⟨vs, h1, h2⟩ := rest_documented
  refine ⟨vs, h1, fun th d h => ?_, by decide +kernel⟩
  exfalso
  have : rest.get.all (fun p => match p.2 with | .array _ _ => false | _ => true) = true := by decide +kernel
  rw [h2.get] at this
  obtain ⟨i, hi, heq⟩ := List.mem_iff_getElem.1 h
  have hm : (UInt32.ofNat (i + 1), TypeVariant.array th d) ∈ numbered vs := by
    unfold numbered
    refine List.mem_map.2 ⟨(vs[i], i), ?_, by rw [heq]⟩
    rw [List.mem_iff_getElem?]
    exact ⟨i, by rw [List.getElem?_zipIdx, List.getElem?_eq_getElem hi]; simp⟩
  have := List.all_eq_true.1 this _ hm
  cases this

/-- A pointer record followed by the given words; the strings are `a` (offset 1) and the bytes `b`, `c` without a
NUL (offset 3). -/
def twoRecords (second : List UInt32) : List UInt8 :=
  leFile ([0, 0x02000000, 0] ++ second) [0, 97, 0, 98, 99]

/-- Its header. -/
def twoHeader (n : Nat) : FileHeader := ⟨1, 0, 24, 0, UInt32.ofNat (12 + 4 * n), UInt32.ofNat (12 + 4 * n), 5⟩

/-- The pointer record decodes in each of these files. -/
theorem first_record (second : List UInt32)
    (h1 : Word (twoRecords second) .little 24 0) (h2 : Word (twoRecords second) .little 28 0x02000000)
    (h3 : Word (twoRecords second) .little 32 0) (h4 : 36 ≤ typeEnd (twoHeader second.length)) :
    Records .crate (twoRecords second) .little (twoHeader second.length) 24 [.ptr ⟨.Ptr, 0, 0, false, 0⟩ ⟨0⟩] 36 :=
  .cons ⟨⟨.Ptr, 0, 0, false, 0⟩, ⟨h1, h3, _, h2, by decide, by decide, by decide⟩, ⟨rfl, rfl, rfl⟩, h4, rfl⟩ .nil

/-- `new_err_sound`, `new_err_complete`, `new_err_of_only`, `new_err_record`, `new_unknown_kind`: kind 20. -/
example : TypeInformation.newE dbg (buffer (twoRecords [0, 0x14000000, 0])) =
    .err ⟨.InvalidBTFKind, str "Invalid BTF kind value: 0x" ++ hex 4 (UInt32.toNat 0x14000000 / 2 ^ 24 % 32)⟩ :=
  new_unknown_kind (e := .little) (fh := twoHeader 3) (pos := 36) (info := 0x14000000) (serves _ (by decide +kernel)) (fits _)
    ⟨by decide +kernel, by decide +kernel, by decide +kernel, by decide +kernel, by decide +kernel, by decide +kernel, by decide +kernel, by decide +kernel⟩
    (by decide) (first_record [0, 0x14000000, 0] (by decide +kernel) (by decide +kernel) (by decide +kernel) (by decide))
    (by decide) (by decide +kernel) (by decide +kernel) (by decide)

/-- `new_partial_header`: four bytes are left. -/
example : TypeInformation.newE dbg (buffer (twoRecords [0])) = .err ⟨.InvalidTypeSectionOffset, str "Invalid type section offset"⟩ :=
  new_partial_header (e := .little) (fh := twoHeader 1) (pos := 36) (serves _ (by decide +kernel)) (fits _)
    ⟨by decide +kernel, by decide +kernel, by decide +kernel, by decide +kernel, by decide +kernel, by decide +kernel, by decide +kernel, by decide +kernel⟩
    (by decide) (first_record [0] (by decide +kernel) (by decide +kernel) (by decide +kernel) (by decide))
    (by decide) (by decide)

/-- `new_partial_body`: an integer without its fourth word. -/
example : TypeInformation.newE dbg (buffer (twoRecords [1, 0x01000000, 4])) =
    .err ⟨.InvalidTypeSectionOffset, str "Invalid type section offset"⟩ :=
  new_partial_body (e := .little) (fh := twoHeader 3) (pos := 36) (th := ⟨.Int, 1, 0, false, 4⟩) (serves _ (by decide +kernel)) (fits _)
    ⟨by decide +kernel, by decide +kernel, by decide +kernel, by decide +kernel, by decide +kernel, by decide +kernel, by decide +kernel, by decide +kernel⟩
    (by decide) (first_record [1, 0x01000000, 4] (by decide +kernel) (by decide +kernel) (by decide +kernel) (by decide))
    (by decide) ⟨by decide +kernel, by decide +kernel, 0x01000000, by decide +kernel, by decide, by decide, by decide⟩ (by decide) (by decide)

/-- `new_section_overflow`. -/
example : TypeInformation.newE dbg (buffer ([0x9F, 0xEB, 1, 0] ++ le32 24 ++ le32 0xFFFFFFF0 ++ le32 0 ++ le32 0 ++ le32 0)) =
    .err ⟨.InvalidTypeSectionOffset, str "Type section start offset overflow"⟩ := by
  rw [new_section_overflow (e := .little) (fh := ⟨1, 0, 24, 0xFFFFFFF0, 0, 0, 0⟩) (serves _ (by decide +kernel)) (fits _)
    ⟨by decide +kernel, by decide +kernel, by decide +kernel, by decide +kernel, by decide +kernel, by decide +kernel, by decide +kernel, by decide +kernel⟩
    (by decide), if_pos (by decide)]

/-- A struct record with one member, after the pointer record. -/
theorem next_struct (name member offset : UInt32)
    (hp : Preamble (twoRecords [name, 0x04000001, 4, member, 1, offset]) .little (twoHeader 6))
    (h1 : Word (twoRecords [name, 0x04000001, 4, member, 1, offset]) .little 24 0)
    (h2 : Word (twoRecords [name, 0x04000001, 4, member, 1, offset]) .little 28 0x02000000)
    (h3 : Word (twoRecords [name, 0x04000001, 4, member, 1, offset]) .little 32 0)
    (h4 : Word (twoRecords [name, 0x04000001, 4, member, 1, offset]) .little 36 name)
    (h5 : Word (twoRecords [name, 0x04000001, 4, member, 1, offset]) .little 40 0x04000001)
    (h6 : Word (twoRecords [name, 0x04000001, 4, member, 1, offset]) .little 44 4)
    (h7 : 60 ≤ (twoRecords [name, 0x04000001, 4, member, 1, offset]).length) :
    NextRecord (twoRecords [name, 0x04000001, 4, member, 1, offset]) .little (twoHeader 6) 36 ⟨.Struct, name, 1, false, 4⟩ where
  preamble := hp
  bounded := by decide
  before := ⟨_, first_record [name, 0x04000001, 4, member, 1, offset] h1 h2 h3 (show 36 ≤ typeEnd (twoHeader 6) by decide)⟩
  header := ⟨h4, h6, _, h5, show 4 = _ by decide, show 1 = _ by decide, show false = true ↔ _ by decide⟩
  inSection := show 36 + 12 + 12 * 1 ≤ typeEnd (twoHeader 6) by decide
  inFile := h7

/-- The strings such a record refers to. -/
theorem refs_struct {name off : UInt32} (member : UInt32) {f : List UInt8}
    (hm : Word f .little 48 member) (h : StringRef f .little ⟨.Struct, name, 1, false, 4⟩ 48 off) :
    off = name ∨ off = member := by
  cases h with
  | name h1 h2 h3 => exact .inl h2
  | item i h1 h2 h3 h4 =>
    have : i = 0 := by simp only [] at h2; omega
    subst this
    exact .inr (word_unique h3 hm)
  | enumerator i h1 => simp at h1

theorem string_a {f : List UInt8} {fh : FileHeader} (h1 : strEnd fh < 2 ^ 32) (h2 : strStart fh + 3 < strEnd fh)
    (h3 : (f.drop (strStart fh + 1)).take 2 = [97, 0]) : StringAt f fh 1 (str "a") :=
  ⟨h1, [97], by simp; omega, by decide, h3, by decide +kernel⟩

/-- `new_misaligned`, `new_err_next`: a member at bit 3. -/
example : TypeInformation.newE dbg (buffer (twoRecords [1, 0x04000001, 4, 1, 1, 3])) =
    .err ⟨.InvalidOffset, str "Unaligned bit offset for struct/union member with kind_flag=false"⟩ := by
  refine new_misaligned (i := 0) (raw := 3) (serves _ (by decide +kernel)) (fits _) (next_struct 1 1 3
      ⟨by decide +kernel, by decide +kernel, by decide +kernel, by decide +kernel, by decide +kernel, by decide +kernel, by decide +kernel, by decide +kernel⟩
      (by decide +kernel) (by decide +kernel) (by decide +kernel) (by decide +kernel) (by decide +kernel) (by decide +kernel) (by decide +kernel))
    (.inl rfl) rfl (by decide) (by decide +kernel) (by decide) fun off h => ?_
  have : off = 1 := (refs_struct 1 (by decide +kernel) h).elim id id
  subst this
  exact ⟨_, string_a (by decide) (by decide) (by decide +kernel)⟩

/-- `new_string_outside`: the name of the member is at offset 99. -/
example : TypeInformation.new dbg (buffer (twoRecords [1, 0x04000001, 4, 99, 1, 8])) = .err .InvalidStringOffset := by
  refine new_string_outside (off := 99) (serves _ (by decide +kernel)) (fits _) (next_struct 1 99 8
      ⟨by decide +kernel, by decide +kernel, by decide +kernel, by decide +kernel, by decide +kernel, by decide +kernel, by decide +kernel, by decide +kernel⟩
      (by decide +kernel) (by decide +kernel) (by decide +kernel) (by decide +kernel) (by decide +kernel) (by decide +kernel) (by decide +kernel))
    ?_ (.item 0 (.inl rfl) (by decide) (by decide +kernel) (by decide)) (.inr (by decide)) fun off h => ?_
  · intro _ _ i raw hi hw
    have : i = 0 := by simp only [] at hi; omega
    subst this
    rw [word_unique (w := raw) (w' := 8) hw (by decide +kernel)]
    decide
  · rcases refs_struct 99 (by decide +kernel) h with rfl | rfl
    · exact .inr ⟨_, string_a (by decide) (by decide) (by decide +kernel)⟩
    · exact .inl (.inr (by decide))

/-- `new_string_unterminated`: the name of the member is `b`, `c` without a NUL. -/
example : TypeInformation.new dbg (buffer (twoRecords [1, 0x04000001, 4, 3, 1, 8])) = .err .InvalidString := by
  have hun : Unterminated (twoRecords [1, 0x04000001, 4, 3, 1, 8]) (twoHeader 6) 3 := by
    refine ⟨by decide, by decide +kernel, by decide, fun i h1 h2 => ?_⟩
    have e1 : strStart (twoHeader 6) + (3 : UInt32).toNat = 63 := by decide
    have e2 : strEnd (twoHeader 6) = 65 := by decide
    rw [e1] at h1; rw [e2] at h2
    have : i = 63 ∨ i = 64 := by omega
    rcases this with rfl | rfl <;> decide +kernel
  refine new_string_unterminated (off := 3) (serves _ (by decide +kernel)) (fits _) (next_struct 1 3 8
      ⟨by decide +kernel, by decide +kernel, by decide +kernel, by decide +kernel, by decide +kernel, by decide +kernel, by decide +kernel, by decide +kernel⟩
      (by decide +kernel) (by decide +kernel) (by decide +kernel) (by decide +kernel) (by decide +kernel) (by decide +kernel) (by decide +kernel))
    ?_ (.item 0 (.inl rfl) (by decide) (by decide +kernel) (by decide)) hun fun off h => ?_
  · intro _ _ i raw hi hw
    have : i = 0 := by simp only [] at hi; omega
    subst this
    rw [word_unique (w := raw) (w' := 8) hw (by decide +kernel)]
    decide
  · rcases refs_struct 3 (by decide +kernel) h with rfl | rfl
    · exact .inr ⟨_, string_a (by decide) (by decide) (by decide +kernel)⟩
    · exact .inl hun

end Examples

end Btf.Props

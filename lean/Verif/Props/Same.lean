import Verif.Props.Parse
import Verif.Proofs.FileSame
import Verif.Proofs.Version

/-!
# What does not influence the result: byte order, version, flags, reserved bits, other bytes
-/

namespace Btf.Props

open Btf Spec

section
variable {cfg : Cfg} {f f' : List UInt8} {R R' : Readable}

/-! ### C04, C21: two files with the same content -/

/-- C04, C21 (partial): if a file is accepted, then every file with the same content is accepted with the same
result, unless the byte orders differ and there are 64-bit enumerations. Missing: these (`byte_order_refuted`). -/
theorem new_same_content_partial {e e' : Endianness} {fh fh' : FileHeader} (hS : Serves cfg R f) (ha : FitsTarget cfg f)
    (hS' : Serves cfg R' f') (ha' : FitsTarget cfg f') (hsame : SameContent .crate f e fh f' e' fh')
    {ti : TypeInformation} (h : TypeInformation.new cfg R = .ok ti)
    (h64 : e = e' ∨ ∀ t v, ti.fromId t = some v → isEnum64 v = false) : TypeInformation.new cfg R' = .ok ti := by
  obtain ⟨vs, hd, hh⟩ := new_sound hS ha h
  have hlen := decodes_length hd
  have h64' : Dialect.crate = .documented ∨ e = e' ∨ ∀ v ∈ vs, isEnum64 v = false := by
    refine .inr (h64.imp_right fun h64 v hv => ?_)
    obtain ⟨i, hi, rfl⟩ := List.mem_iff_getElem.1 hv
    refine h64 (UInt32.ofNat (i + 1)) _ ?_
    rw [hh.fromId, ofNat_toNat_lt (by omega)]
    exact List.getElem?_eq_getElem (l := TypeVariant.void :: vs) (by simpa using hi)
  rw [← new_determined hS ha hS' ha' hd (decodes_same hsame hd h64'), h]

/-- C04 (partial): content written little-endian and big-endian (and with any version and flags) gives the same
result. Missing: 64-bit enumerations (`byte_order_refuted`), and arrays with a `vlen` other than 0. -/
theorem byte_order_irrelevant_partial (e e' : Endianness) (version flags version' flags' : UInt8) (types : List UInt32)
    (strings : List UInt8) (ht : 24 + 4 * types.length < 2 ^ 32)
    (hS : Serves cfg R (fileOf e version flags types strings)) (ha : FitsTarget cfg (fileOf e version flags types strings))
    (hS' : Serves cfg R' (fileOf e' version' flags' types strings))
    (ha' : FitsTarget cfg (fileOf e' version' flags' types strings)) {vs : List TypeVariant}
    (h : Decodes .documented (fileOf e version flags types strings) vs)
    (harr : ∀ th d, .array th d ∈ vs → th.vlen = 0) (h64 : ∀ v ∈ vs, isEnum64 v = false) :
    ∃ ti, TypeInformation.new cfg R = .ok ti ∧ TypeInformation.new cfg R' = .ok ti ∧ Holds ti vs := by
  have h' : Decodes .documented (fileOf e' version' flags' types strings) vs :=
    decodes_same (same_fileOf e e' ht) h (.inl rfl)
  have key : ∀ {f}, Decodes .documented f vs → Decodes .crate f vs := by
    rintro f ⟨e, fh, n, hp, hE, hr, hn⟩
    exact ⟨e, fh, n, hp, hE, records_crate hr harr (.inr h64), Nat.le_of_eq hn.symm⟩
  obtain ⟨ti, h1, h2⟩ := new_complete hS ha (key h)
  exact ⟨ti, h1, by rw [← new_determined hS ha hS' ha' (key h) (key h'), h1], h2⟩

/-- The meaning of a file, according to the documentation, does not depend on the byte order. -/
theorem meaning_byte_order (e e' : Endianness) (version flags version' flags' : UInt8) (types : List UInt32)
    (strings : List UInt8) (ht : 24 + 4 * types.length < 2 ^ 32) (vs : List TypeVariant) :
    Decodes .documented (fileOf e version flags types strings) vs ↔
    Decodes .documented (fileOf e' version' flags' types strings) vs :=
  ⟨fun h => decodes_same (same_fileOf e e' ht) h (.inl rfl), fun h => decodes_same (same_fileOf e' e ht) h (.inl rfl)⟩

theorem fileOf_length (e : Endianness) (version flags : UInt8) (types : List UInt32) (strings : List UInt8) :
    (fileOf e version flags types strings).length = 24 + 4 * types.length + strings.length := by
  unfold fileOf
  simp only [List.length_append, flatMap_length, wordBytes_length, magic_length, List.length_cons, List.length_nil]

theorem usizeMod_64 (h : cfg.width = .w64) : cfg.usizeMod = 2 ^ 64 := by unfold Cfg.usizeMod; rw [h]

/-- C04: the same content in both byte orders gives the same answer, also if it is an error, unless the reader asks
for eight bytes at once (the values of 64-bit enumerations) or for a word after the type section. -/
theorem byte_order_exact (hw : cfg.width = .w64) (e e' : Endianness) (version flags version' flags' : UInt8)
    (types : List UInt32) (strings : List UInt8) (ht : 24 + 4 * types.length < 2 ^ 32) (hs : strings.length < 2 ^ 32)
    (h8 : ∀ ev ∈ TypeInformation.newTrace cfg (readableBuffer cfg (fileOf e version flags types strings)),
      ev.len ≠ 8 ∧ (ev.len = 4 → ev.offset + 4 ≤ 24 + 4 * types.length)) :
    TypeInformation.newE cfg (readableBuffer cfg (fileOf e' version' flags' types strings)) =
      TypeInformation.newE cfg (readableBuffer cfg (fileOf e version flags types strings)) := by
  have hu := usizeMod_64 hw
  have hl := fileOf_length e version flags types strings
  have hl' := fileOf_length e' version' flags' types strings
  have hS := serves_buffer cfg (fileOf e version flags types strings) (by omega)
  have hS' := serves_buffer cfg (fileOf e' version' flags' types strings) (by omega)
  have ha := (announces_iff hS).2 (preamble_fileOf e)
  have ha' := (announces_iff hS').2 (preamble_fileOf e')
  obtain ⟨new, h1, h2⟩ := new_body (cfg := cfg) ha (fits_64 hw _)
  refine congrArg (Res.mapErr LoadReason.error) (new_twins ha ha' ⟨rfl, rfl, rfl, rfl, rfl⟩ h1 ?_).1
  rintro later ev earlier rfl
  obtain ⟨h3, h4⟩ := h8 ev (by rw [h1]; simp)
  have hstart : typeStart (writtenHeader version flags types strings) = 24 := rfl
  have hstr : strStart (writtenHeader version flags types strings) = 24 + 4 * types.length := by
    unfold strStart; simp only [writtenHeader]; rw [ofNat_toNat_lt (by omega)]; rfl
  rcases h2 ev (by simp) with ⟨⟨h5, h6⟩, h7, h8⟩ | ⟨⟨h5, h6⟩, h7⟩
  · rcases h8 with h8 | h8
    · have h9 := h4 h8
      rw [hstart] at h5 h7
      obtain ⟨j, hj⟩ := h7
      have ho : ev.offset = 24 + 4 * j := by omega
      rw [h8, ho]
      have hj : types[j]? = some types[j] := List.getElem?_eq_getElem (by omega)
      have hw1 := word_fileOf (version := version) (flags := flags) (strings := strings) e hj
      have hw2 := word_fileOf (version := version') (flags := flags') (strings := strings) e' hj
      have r1 := hS (earlier ++ headerRequests 8) (24 + 4 * j) 4 (by decide) (by omega)
      have r2 := hS' (earlier ++ headerRequests 8) (24 + 4 * j) 4 (by decide) (by omega)
      rw [if_pos (by omega)] at r1 r2
      obtain ⟨b, hb, hbytes⟩ := r1
      obtain ⟨b', hb', hbytes'⟩ := r2
      rw [hb, hb']
      change intOf e _ = intOf e' _
      have t1 := take_drop_eq hbytes
      have t2 := take_drop_eq hbytes'
      rw [← t1, ← t2, ← hw1.2, ← hw2.2]
    · exact absurd h8 h3
  · rw [hstr] at h5
    have hsl : ev.offset < cfg.usizeMod := by
      have := (writtenHeader version flags types strings).strLen.toNat_lt
      have := (writtenHeader version flags types strings).strOff.toNat_lt
      have := (writtenHeader version flags types strings).hdrLen.toNat_lt
      unfold strEnd strStart at h6
      omega
    have hsame := buffer_same (cfg := cfg) (f := fileOf e version flags types strings) (f' := fileOf e' version' flags' types strings)
      (by omega) (earlier ++ headerRequests 8) (len := 1) hsl
      (fun i hi _ => by rw [strings_fileOf e (by omega), strings_fileOf e' (by omega)])
    rw [h7]
    revert hsame
    cases (readableBuffer cfg (fileOf e version flags types strings)).read (earlier ++ headerRequests 8) ev.offset 1 with
    | error k =>
      cases (readableBuffer cfg (fileOf e' version' flags' types strings)).read (earlier ++ headerRequests 8) ev.offset 1 with
      | error k' => exact id
      | ok b' => exact id
    | ok b =>
      cases (readableBuffer cfg (fileOf e' version' flags' types strings)).read (earlier ++ headerRequests 8) ev.offset 1 with
      | error k' => exact id
      | ok b' =>
        intro hsame
        change intOf e [b 0] = intOf e' [b' 0]
        rw [intOf_one, intOf_one, hsame 0 (by decide)]

/-! ### C21: version and flags -/

/-- C21: changing the version byte and the flags byte changes nothing, not even the error, unless the header says
that one of the sections starts inside the first four bytes. -/
theorem version_flags_ignored (cfg : Cfg) (f : List UInt8) (hf : f.length < cfg.usizeMod) (ha : FitsTarget cfg f)
    (hsec : ∀ e fh, Preamble f e fh → 4 ≤ typeStart fh ∧ 4 ≤ strStart fh) (version flags : UInt8) :
    TypeInformation.newE cfg (readableBuffer cfg ((f.set 2 version).set 3 flags)) =
      TypeInformation.newE cfg (readableBuffer cfg f) := by
  refine congrArg (Res.mapErr LoadReason.error) (new_version (by simp) hf ?_ (fits_of_target ha) ?_ (fun R => (new_io_errors cfg R).1))
  · intro i h2 h3
    rw [List.getElem?_set_ne (by omega), List.getElem?_set_ne (by omega)]
  · intro e fh hp
    obtain ⟨h1, h2⟩ := hsec e fh hp
    refine ⟨h1, h2, ?_⟩
    have hu := usizeMod_ge cfg
    rcases ha with ha | ha
    · have := usizeMod_64 ha
      have a := fh.hdrLen.toNat_lt
      have b := fh.typeOff.toNat_lt
      have c := fh.typeLen.toNat_lt
      have d := fh.strOff.toNat_lt
      have e := fh.strLen.toNat_lt
      unfold typeEnd typeStart strEnd strStart; omega
    · have := ha e fh hp; omega

/-! ### C12: other bytes -/

/-- C12: two buffers of the same length that agree on the header, on the type section (and the 12 bytes after it) and
on the string section give the same result, also if it is an error. -/
theorem other_bytes_ignored (cfg : Cfg) (f f' : List UInt8) (hf : f.length < cfg.usizeMod) (ha : FitsTarget cfg f)
    (hl : f'.length = f.length) (hhdr : ∀ i < 24, f'[i]? = f[i]?)
    (hsec : ∀ e fh, Preamble f e fh → ∀ i, (typeStart fh ≤ i ∧ i < typeEnd fh + 12) ∨ (strStart fh ≤ i ∧ i < strEnd fh) →
      f'[i]? = f[i]?) :
    TypeInformation.newE cfg (readableBuffer cfg f') = TypeInformation.newE cfg (readableBuffer cfg f) := by
  have hS := serves_buffer cfg f hf
  have hu := usizeMod_ge cfg
  refine congrArg (Res.mapErr LoadReason.error) (new_local cfg _ _ (addressable_of_target hS ha) ?_).1
  rintro history ev (⟨-, h1⟩ | ⟨e, fh, hann, h⟩)
  · refine buffer_same hl _ ?_ fun i _ hi => hhdr i (by omega)
    omega
  · have hp := (announces_iff hS).1 hann
    have hlt : typeEnd fh + 12 < cfg.usizeMod ∧ strEnd fh < cfg.usizeMod := by
      rcases ha with ha | ha
      · have := usizeMod_64 ha
        have a := fh.hdrLen.toNat_lt
        have b := fh.typeOff.toNat_lt
        have c := fh.typeLen.toNat_lt
        have d := fh.strOff.toNat_lt
        have e := fh.strLen.toNat_lt
        unfold typeEnd typeStart strEnd strStart; omega
      · have := ha e fh hp; omega
    rcases h with ⟨⟨h1, h2⟩, -, h3⟩ | ⟨⟨h1, h2⟩, h3⟩
    · exact buffer_same hl _ (by omega) fun i _ hi => hsec e fh hp i (.inl (by omega))
    · exact buffer_same hl _ (by omega) fun i _ hi => hsec e fh hp i (.inr (by omega))

end

/-! ### What does not hold -/

section
open Samples Examples

/-- The content of `restFile .big` according to `new`: the two words of the 64-bit values are exchanged. -/
def restSwapped : TypeInformation where
  idToType := ⟨rest.idToType.toList.map fun p =>
    match p with
    | (3, .enum64 h d) => (3, .enum64 h { d with namedValueList := [⟨str "a", .signed (-4294967297)⟩] })
    | (4, .enum64 h d) => (4, .enum64 h { d with namedValueList := [⟨str "b", .unsigned 0x100000002⟩] })
    | p => p⟩
  nameToId := rest.nameToId
  idToName := rest.idToName

theorem rest_parsed_big : TypeInformation.new dbg (buffer (restFile .big)) = .ok restSwapped := by decide +kernel

/-- C04 does not hold for 64-bit enumerations: a content written in both byte orders, with the same meaning
according to the documentation, is accepted in both, with different results. -/
theorem byte_order_refuted : ∃ (types : List UInt32) (strings : List UInt8) (vs : List TypeVariant) (ti ti' : TypeInformation),
    Decodes .documented (fileOf .little 1 0 types strings) vs ∧ Decodes .documented (fileOf .big 1 0 types strings) vs ∧
    TypeInformation.new dbg (readableBuffer dbg (fileOf .little 1 0 types strings)) = .ok ti ∧ Holds ti vs ∧
    TypeInformation.new dbg (readableBuffer dbg (fileOf .big 1 0 types strings)) = .ok ti' ∧ ¬ Holds ti' vs := by
  obtain ⟨vs, h1, h2⟩ := rest_documented
  refine ⟨restTypes, restStrings, vs, rest, restSwapped, h1,
    (meaning_byte_order .little .big 1 0 1 0 restTypes restStrings (by decide +kernel) vs).1 h1, rest_parsed, h2, rest_parsed_big, ?_⟩
  intro h3
  have : rest.get = restSwapped.get := by rw [h2.get, h3.get]
  revert this
  decide +kernel

/-- C02 does not hold for 64-bit enumerations in big-endian files: `new` accepts this file with a content other than
the documented one. -/
theorem new_sound_refuted : ∃ (f : List UInt8) (vs : List TypeVariant) (ti : TypeInformation),
    Decodes .documented f vs ∧ TypeInformation.new dbg (readableBuffer dbg f) = .ok ti ∧ ¬ Holds ti vs := by
  obtain ⟨types, strings, vs, ti, ti', -, h1, -, -, h2, h3⟩ := byte_order_refuted
  exact ⟨_, vs, ti', h1, h2, h3⟩

/-- A file whose type section ends after the header of an array. -/
def overrun : List UInt8 :=
  [0x9F, 0xEB, 1, 0] ++ le32 24 ++ le32 0 ++ le32 12 ++ le32 12 ++ le32 12 ++ le32 0 ++ le32 0x03000000 ++ le32 0 ++
    [1, 0, 0, 0, 2, 0, 0, 0, 3, 0, 0, 0]

/-- C02 does not hold for an array at the end of the type section: `new` accepts this file, taking the element type
and count from the string section, although it has no documented meaning. -/
theorem new_overrun_refuted :
    TypeInformation.new dbg (readableBuffer dbg overrun) =
      .ok ⟨⟨[(1, .array ⟨.Array, 0, 0, false, 0⟩ ⟨1, 2, 3⟩)]⟩, ⟨[]⟩, ⟨[]⟩⟩ ∧
    ∀ vs, ¬ Decodes .documented overrun vs := by
  refine ⟨by decide +kernel, ?_⟩
  rintro vs ⟨e, fh, next, hp, hE, hr, hn⟩
  have he : e = .little := by
    have := hp.magic
    cases e with
    | little => rfl
    | big => exact absurd this (by decide +kernel)
  subst he
  have h1 : fh.hdrLen = 24 := word_unique hp.hdrLen (by decide +kernel)
  have h2 : fh.typeOff = 0 := word_unique hp.typeOff (by decide +kernel)
  have h3 : fh.typeLen = 12 := word_unique hp.typeLen (by decide +kernel)
  have h4 : typeStart fh = 24 := by unfold typeStart; rw [h1, h2]; rfl
  have h5 : typeEnd fh = 36 := by unfold typeEnd; rw [h4, h3]; rfl
  simp only [] at hn
  rw [h4] at hr
  cases hr with
  | nil => omega
  | cons h6 _ =>
    obtain ⟨th, h7, -, h8, -⟩ := h6
    have : th = ⟨.Array, 0, 0, false, 0⟩ := headerAt_unique h7 ⟨by decide +kernel, by decide +kernel, 0x03000000,
      by decide +kernel, by decide, by decide, by decide⟩
    subst this
    rw [h5] at h8
    exact absurd h8 (by decide)

end

namespace Examples

open Samples

/-- The types in the order of `get()`. -/
theorem types_of_holds {ti : TypeInformation} {vs : List TypeVariant} (h : Holds ti vs) : vs = ti.get.map Prod.snd := by
  rw [h.get]
  unfold numbered
  rw [List.map_map]
  have : (Prod.snd ∘ fun p : TypeVariant × Nat => (UInt32.ofNat (p.2 + 1), p.1)) = Prod.fst := rfl
  rw [this, List.zipIdx_map_fst]

/-- `byte_order_irrelevant_partial`: the hypotheses hold for `zoo`. -/
theorem zoo_documented : ∃ vs, Decodes .documented (zooFile .little) vs ∧ Holds zoo vs := by
  rw [zooFile_little]
  refine new_sound_documented_partial (serves _ (by decide +kernel)) (fits _) zoo_parsed ?_ (.inl (by decide +kernel))
  intro t th d h
  obtain ⟨vs, -, hh⟩ := zoo_decodes
  have hv := types_of_holds hh
  refine ⟨16, ?_, by rw [hh.fromId, hv]; decide +kernel⟩
  rw [hh.fromId, hv] at h
  have hlt : t.toNat < 17 := by
    have := (List.getElem?_eq_some_iff.1 h).1
    have h17 : (TypeVariant.void :: zoo.get.map Prod.snd).length = 17 := by decide +kernel
    omega
  have hne : t.toNat ≠ 16 := by
    intro h16
    rw [h16] at h
    revert h
    have : typeAt (zoo.get.map Prod.snd) 16 = some (.typeTag ⟨.TypeTag, 79, 0, false, 4⟩ ⟨some (str "ptag"), 4⟩) := by decide +kernel
    rw [this]
    intro h; cases h
  exact UInt32.lt_iff_toNat_lt.2 (show t.toNat < 16 by omega)

example : ∃ ti, TypeInformation.new dbg (buffer (fileOf .little 1 0 zooTypes zooStrings)) = .ok ti ∧
    TypeInformation.new dbg (buffer (fileOf .big 7 9 zooTypes zooStrings)) = .ok ti := by
  obtain ⟨vs, h1, h2⟩ := zoo_documented
  have hv := types_of_holds h2
  obtain ⟨ti, h3, h4, -⟩ := byte_order_irrelevant_partial .little .big 1 0 7 9 zooTypes zooStrings (by decide +kernel)
    (serves _ (by decide +kernel)) (fits _) (serves _ (by decide +kernel)) (fits _) h1
    (by
      rw [hv]
      have : (zoo.get.map Prod.snd).all (fun v => match v with | .array th _ => th.vlen == 0 | _ => true) = true := by decide +kernel
      intro th d hm
      simpa using List.all_eq_true.1 this _ hm)
    (by
      rw [hv]
      have : (zoo.get.map Prod.snd).all (fun v => !isEnum64 v) = true := by decide +kernel
      intro v hm
      simpa using List.all_eq_true.1 this _ hm)
  exact ⟨ti, h3, h4⟩

/-- `byte_order_exact`. -/
example : TypeInformation.newE dbg (buffer (fileOf .big 7 9 zooTypes zooStrings)) =
    TypeInformation.newE dbg (buffer (fileOf .little 1 0 zooTypes zooStrings)) :=
  byte_order_exact (cfg := dbg) rfl .little .big 1 0 7 9 zooTypes zooStrings (by decide +kernel) (by decide +kernel) (by decide +kernel)

/-- `byte_order_exact`, for a file that is refused. -/
example : TypeInformation.newE dbg (buffer (fileOf .big 1 0 [0, 0x1F000000, 0] [])) =
    .err ⟨.InvalidBTFKind, str "Invalid BTF kind value: 0x001F"⟩ := by
  refine (byte_order_exact (cfg := dbg) rfl .little .big 1 0 1 0 [0, 0x1F000000, 0] [] (by decide +kernel) (by decide +kernel)
    (by decide +kernel)).trans ?_
  decide +kernel

/-- The header of `zooFile`. -/
theorem zoo_preamble {e : Endianness} {fh : FileHeader} (h : Preamble (zooFile .little) e fh) :
    fh = writtenHeader 1 0 zooTypes zooStrings := (preamble_unique h (preamble_fileOf .little)).2

/-- `version_flags_ignored`. -/
example : TypeInformation.newE dbg (buffer (((zooFile .little).set 2 200).set 3 100)) = .ok zoo := by
  rw [show buffer (((zooFile .little).set 2 200).set 3 100) = readableBuffer dbg (((zooFile .little).set 2 200).set 3 100) from rfl,
    version_flags_ignored dbg (zooFile .little) (by decide +kernel) (fits _) (fun e fh h => ?_) 200 100]
  · rw [zooFile_little]; exact newE_ok.2 (new_ok.1 zoo_parsed)
  · rw [zoo_preamble h]; decide +kernel

/-- `new_same_content_partial`: one pointer; the second file has another byte order, version and flags, and the reserved
bits are set. -/
theorem ptr_same : SameContent .crate (fileOf .little 1 0 [0, 0x02000000, 5] []) .little (writtenHeader 1 0 [0, 0x02000000, 5] [])
    (fileOf .big 9 9 [0, 0x62FF0000, 5] []) .big (writtenHeader 9 9 [0, 0x62FF0000, 5] []) := by
  have hpos : ∀ vs pos v next, Records .crate (fileOf .little 1 0 [0, 0x02000000, 5] []) .little (writtenHeader 1 0 [0, 0x02000000, 5] [])
      (typeStart (writtenHeader 1 0 [0, 0x02000000, 5] [])) vs pos →
      RecordAt .crate (fileOf .little 1 0 [0, 0x02000000, 5] []) .little (writtenHeader 1 0 [0, 0x02000000, 5] []) pos v next → pos = 24 := by
    intro vs pos v next h1 h2
    have h3 := records_next h1
    obtain ⟨th, -, -, h4, -⟩ := h2
    have h5 : typeStart (writtenHeader 1 0 [0, 0x02000000, 5] []) = 24 := by decide
    have h6 : typeEnd (writtenHeader 1 0 [0, 0x02000000, 5] []) = 36 := by decide
    omega
  have hth : ∀ th, HeaderAt (fileOf .little 1 0 [0, 0x02000000, 5] []) .little 24 th → th = ⟨.Ptr, 0, 0, false, 5⟩ := fun th h =>
    headerAt_unique h ⟨by decide +kernel, by decide +kernel, 0x02000000, by decide +kernel, by decide, by decide, by decide⟩
  refine ⟨preamble_fileOf .little, preamble_fileOf .big, ⟨rfl, rfl, rfl, rfl, rfl⟩, ?_, ?_, ?_⟩
  · intro vs pos v next th h1 h2 h3
    have := hpos _ _ _ _ h1 h2
    subst this
    rw [hth _ h3]
    exact ⟨by decide +kernel, by decide +kernel, 0x62FF0000, by decide +kernel, by decide, by decide, by decide⟩
  · intro vs pos v next th i w h1 h2 h3 h4
    have := hpos _ _ _ _ h1 h2
    subst this
    rw [hth _ h3] at h4
    exact absurd h4 (by simp [bodySize])
  · intro i h1 h2
    have e1 : strStart (writtenHeader 1 0 [0, 0x02000000, 5] []) = 36 := by decide
    have e2 : strEnd (writtenHeader 1 0 [0, 0x02000000, 5] []) = 36 := by decide
    omega

example : ∃ ti, TypeInformation.new dbg (buffer (fileOf .big 9 9 [0, 0x62FF0000, 5] [])) = .ok ti ∧
    ti.get = [(1, .ptr ⟨.Ptr, 0, 0, false, 5⟩ ⟨5⟩)] :=
  ⟨⟨⟨[(1, .ptr ⟨.Ptr, 0, 0, false, 5⟩ ⟨5⟩)]⟩, ⟨[]⟩, ⟨[]⟩⟩,
    new_same_content_partial (serves _ (by decide +kernel)) (fits _) (serves _ (by decide +kernel)) (fits _)
      ptr_same (by decide +kernel) (.inr (fun t v h => by
        obtain ⟨vs, -, hh⟩ := new_sound (serves _ (by decide +kernel)) (fits _)
          (show TypeInformation.new dbg (buffer (fileOf .little 1 0 [0, 0x02000000, 5] [])) =
            .ok ⟨⟨[(1, .ptr ⟨.Ptr, 0, 0, false, 5⟩ ⟨5⟩)]⟩, ⟨[]⟩, ⟨[]⟩⟩ by decide +kernel)
        rw [hh.fromId, types_of_holds hh] at h
        have hm := List.mem_of_getElem? h
        have : (TypeVariant.void :: (TypeInformation.get ⟨⟨[(1, .ptr ⟨.Ptr, 0, 0, false, 5⟩ ⟨5⟩)]⟩, ⟨[]⟩, ⟨[]⟩⟩).map Prod.snd).all
          (fun v => !isEnum64 v) = true := by decide +kernel
        simpa using List.all_eq_true.1 this _ hm)), rfl⟩

/-- `other_bytes_ignored`: bytes after the last section. -/
example (b : UInt8) : TypeInformation.newE dbg (readableBuffer dbg (zooFile .little ++ [b])) =
    TypeInformation.newE dbg (readableBuffer dbg (zooFile .little ++ [0])) := by
  have hlen : (zooFile .little).length = 460 := by decide +kernel
  have hpre : Preamble (zooFile .little ++ [0]) .little (writtenHeader 1 0 zooTypes zooStrings) :=
    ⟨by decide +kernel, by decide +kernel, by decide +kernel, by decide +kernel, by decide +kernel, by decide +kernel, by decide +kernel, by decide +kernel⟩
  refine other_bytes_ignored dbg _ _ (by decide +kernel) (fits _) (by simp) ?_ ?_
  · intro i hi
    rw [List.getElem?_append_left (by omega), List.getElem?_append_left (by omega)]
  · intro e fh hp i hi
    obtain ⟨-, rfl⟩ := preamble_unique hp hpre
    have h1 : typeEnd (writtenHeader 1 0 zooTypes zooStrings) = 376 := by decide +kernel
    have h2 : strEnd (writtenHeader 1 0 zooTypes zooStrings) = 460 := by decide +kernel
    rw [List.getElem?_append_left (by omega), List.getElem?_append_left (by omega)]

end Examples

end Btf.Props

import Verif.Proofs.Reserved
import Verif.Props.Same

/-!
# C21: what the format does not use is ignored
-/

namespace Btf.Props

open Btf Spec Samples Examples

/-- C21: two buffers that differ only in the version byte, the flags byte and the reserved bits of records give the
same result — the same types, or the same error, also if the record with the changed bits is the one that is
wrong. The sections must not overlap (`hdr_len` is not validated). -/
theorem reserved_ignored (cfg : Cfg) (f f' : List UInt8) (hf : f.length < cfg.usizeMod) (ha : FitsTarget cfg f)
    (hsec : ∀ e fh, Preamble f e fh → SectionsApart fh) (h : OnlyReserved f f') :
    TypeInformation.newE cfg (readableBuffer cfg f') = TypeInformation.newE cfg (readableBuffer cfg f) := by
  refine congrArg (Res.mapErr LoadReason.error) <| new_reserved h hf (fits_of_target ha) (fun e fh hp => ⟨hsec e fh hp, ?_⟩) (fun R => (new_io_errors cfg R).1)
  have hu := usizeMod_ge cfg
  rcases ha with ha | ha
  · have := usizeMod_64 ha
    have a := fh.hdrLen.toNat_lt
    have d := fh.strOff.toNat_lt
    have e := fh.strLen.toNat_lt
    unfold strEnd strStart; omega
  · have := ha e fh hp; omega

/-- A typedef of void whose name is the version byte: the string section starts at byte 0 of the file. -/
def overlapFile (version : UInt8) : List UInt8 :=
  [0x9F, 0xEB, version, 0] ++ wordBytes .little 0 ++ wordBytes .little 24 ++ wordBytes .little 12 ++
    wordBytes .little 0 ++ wordBytes .little 4 ++ [(2 : UInt32), 0x08000000, 0].flatMap (wordBytes .little)

/-- C21: without the condition on the sections the claim is false: `hdr_len` may be 0, and then the version byte can be
part of a name. -/
theorem reserved_overlap_refuted :
    TypeInformation.new ⟨.w64, true⟩ (readableBuffer ⟨.w64, true⟩ (overlapFile 0x41)) ≠
      TypeInformation.new ⟨.w64, true⟩ (readableBuffer ⟨.w64, true⟩ (overlapFile 0x42)) := by
  decide +kernel

/-! ### Examples -/

/-- A pointer, and a record of the unknown kind 31. -/
def plainFile : List UInt8 := fileOf .little 1 0 [0, 0x02000000, 5, 0, 0x1F000000, 0] []

/-- The same with other version and flags, and all reserved bits set. -/
def reservedFile : List UInt8 := fileOf .little 77 88 [0, 0x62FF0000, 5, 0, 0x7FFF0000, 0] []

theorem plain_preamble : Preamble plainFile .little (writtenHeader 1 0 [0, 0x02000000, 5, 0, 0x1F000000, 0] []) :=
  preamble_fileOf .little

theorem plain_starts {e : Endianness} {fh : FileHeader} {pos : Nat} (hp : Preamble plainFile e fh)
    (h : RecordStart plainFile e fh pos) : e = .little ∧ (pos = 24 ∨ pos = 36) := by
  obtain ⟨rfl, rfl⟩ := preamble_unique hp plain_preamble
  refine ⟨rfl, ?_⟩
  have h5 : typeStart (writtenHeader 1 0 [0, 0x02000000, 5, 0, 0x1F000000, 0] []) = 24 := by decide
  have h6 : typeEnd (writtenHeader 1 0 [0, 0x02000000, 5, 0, 0x1F000000, 0] []) = 48 := by decide
  obtain ⟨h1, vs, h2⟩ := h
  rw [h6] at h1
  rw [h5] at h2
  cases h2 with
  | nil => exact .inl rfl
  | cons h3 h4 =>
    obtain ⟨th, h7, -, -, rfl⟩ := h3
    have : th = ⟨.Ptr, 0, 0, false, 5⟩ :=
      headerAt_unique h7 ⟨by decide +kernel, by decide +kernel, 0x02000000, by decide +kernel, by decide, by decide, by decide⟩
    subst this
    cases h4 with
    | nil => exact .inr rfl
    | cons h8 h9 =>
      have := record_next h8
      have := records_next h9
      simp only [bodySize] at *
      omega

theorem plain_reserved : OnlyReserved plainFile reservedFile := by
  refine ⟨by decide +kernel, ?_, ?_⟩
  · intro i hi
    have hlt : i < 48 := by
      by_contra hge
      apply hi
      rw [List.getElem?_eq_none (by rw [show reservedFile.length = 48 by decide +kernel]; omega),
        List.getElem?_eq_none (by rw [show plainFile.length = 48 by decide +kernel]; omega)]
    have hall : ∀ i < 48, reservedFile[i]? ≠ plainFile[i]? → i = 2 ∨ i = 3 ∨ (28 ≤ i ∧ i < 32) ∨ (40 ≤ i ∧ i < 44) := by
      decide +kernel
    rcases hall i hlt hi with h | h | h | h
    · exact .inl h
    · exact .inr (.inl h)
    · exact .inr (.inr ⟨_, _, 24, plain_preamble, ⟨by decide, [], .nil⟩, by omega, by omega⟩)
    · refine .inr (.inr ⟨_, _, 36, plain_preamble, ⟨by decide, [.ptr ⟨.Ptr, 0, 0, false, 5⟩ ⟨5⟩], .cons
        ⟨⟨.Ptr, 0, 0, false, 5⟩, ⟨by decide +kernel, by decide +kernel, 0x02000000, by decide +kernel, by decide, by decide, by decide⟩,
          ⟨rfl, rfl, rfl⟩, by decide, rfl⟩ .nil⟩, by omega, by omega⟩)
  · intro e fh pos w w' hp hs hw hw'
    obtain ⟨rfl, h | h⟩ := plain_starts hp hs
    · subst h
      have e1 : w = 0x02000000 := word_unique hw (by decide +kernel)
      have e2 : w' = 0x62FF0000 := word_unique hw' (by decide +kernel)
      subst e1 e2
      exact ⟨by decide, by decide, by decide⟩
    · subst h
      have e1 : w = 0x1F000000 := word_unique hw (by decide +kernel)
      have e2 : w' = 0x7FFF0000 := word_unique hw' (by decide +kernel)
      subst e1 e2
      exact ⟨by decide, by decide, by decide⟩

/-- The error in the second record is the same. -/
example : TypeInformation.newE dbg (buffer reservedFile) =
    .err ⟨.InvalidBTFKind, str "Invalid BTF kind value: 0x001F"⟩ := by
  rw [show buffer reservedFile = readableBuffer dbg reservedFile from rfl,
    reserved_ignored dbg plainFile reservedFile (by decide +kernel) (fits _) (fun e fh h => ?_) plain_reserved]
  · decide +kernel
  · rw [(preamble_unique h plain_preamble).2]
    exact ⟨by decide, by decide, by decide⟩

end Btf.Props

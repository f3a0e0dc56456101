import Verif.Spec.LoadMessage
import Verif.Proofs.LoadMessage
import Verif.Proofs.FirstFlaw
import Verif.Props.Parse

/-!
# C85, C86: what the errors of `TypeInformation::new` say

`newE` is `new` with the whole error: its kind and its text.
-/

namespace Btf.Props

open Btf Spec

section
variable {cfg : Cfg} {f : List UInt8} {R : Readable}

theorem says_error {q : LoadReason} {x : Error} (h : LoadSays q x) : q.error = x := by
  rcases h with rfl | ⟨k, text, h, rfl⟩
  · rfl
  · exact loadText_error h

theorem error_says {q : LoadReason} (h : ∀ a b, q ≠ .wrongKind a b) : LoadSays q q.error := by
  cases q with
  | wrongKind a b => exact absurd rfl (h a b)
  | source e => exact .inl rfl
  | invalidMagic v => exact .inr ⟨_, _, .magic, loadText_error .magic⟩
  | invalidKind v => exact .inr ⟨_, _, .kind, loadText_error .kind⟩
  | stringOffset v => exact .inr ⟨_, _, .stringOutside, loadText_error .stringOutside⟩
  | unterminated v => exact .inr ⟨_, _, .unterminated, loadText_error .unterminated⟩
  | typeSectionStart => exact .inr ⟨_, _, .typeStart, loadText_error .typeStart⟩
  | typeSectionEnd => exact .inr ⟨_, _, .typeEnd, loadText_error .typeEnd⟩
  | typeSectionOffset => exact .inr ⟨_, _, .record, loadText_error .record⟩
  | stringSectionStart => exact .inr ⟨_, _, .stringStart, loadText_error .stringStart⟩
  | stringSectionEnd => exact .inr ⟨_, _, .stringEnd, loadText_error .stringEnd⟩
  | stringOverflow => exact .inr ⟨_, _, .stringOverflow, loadText_error .stringOverflow⟩
  | unaligned => exact .inr ⟨_, _, .unaligned, loadText_error .unaligned⟩

theorem fileFlaw_kind {q : LoadReason} (h : FileFlaw f q) : ∀ a b, q ≠ .wrongKind a b := by
  rintro a b rfl
  rcases h with _ | _ | _ | _ | ⟨_, _, _, _, h⟩
  rcases h with _ | _ | _ | _ | _ | ⟨_, _, _, h⟩ | _
  cases h

/-! ### C85: the texts -/

/-- C85: the error is the one with which the last request failed, unchanged; or it is made by the crate, for a flaw that the file
has, and kind and text are as in the table. -/
theorem load_error_text (hS : Serves cfg R f) (ha : FitsTarget cfg f) {x : Error} (h : TypeInformation.newE cfg R = .err x) :
    LastFailed (TypeInformation.newTrace cfg R) x ∨ ∃ q k text, FileFlaw f q ∧ LoadText q k text ∧ x = ⟨k, str text⟩ := by
  obtain ⟨q, h1, rfl⟩ := newE_err.1 h
  have hflaw := new_err_sound hS ha h1
  rcases error_says (fileFlaw_kind hflaw) with h2 | ⟨k, text, h2, h3⟩
  · have hf : ∀ e fh, Announces R e fh → Fits cfg fh := fun e fh hann => fits_of_target ha e fh ((announces_iff hS).1 hann)
    rcases (newT_any hf).2 with ⟨vs, _, _, _, _, _, _, h'⟩ | ⟨q', h', hq⟩
    · rw [h1] at h'; cases h'
    · rw [h1] at h'; cases h'
      rcases hq with ⟨k, rfl, hl, -⟩ | ⟨v, rfl, -⟩ | ⟨hc, -⟩
      · exact .inl hl
      · cases h2
      · rw [h2] at hc; exact hc.elim
  · exact .inr ⟨q, k, text, hflaw, h2, h3⟩

/-- C85: with any source, also one that answers inconsistently, the error is the one of the last request or one of the table. -/
theorem load_error_any (ha : Addressable cfg R) {x : Error} (h : TypeInformation.newE cfg R = .err x) :
    LastFailed (TypeInformation.newTrace cfg R) x ∨ ∃ q k text, LoadText q k text ∧ x = ⟨k, str text⟩ := by
  obtain ⟨q, h1, rfl⟩ := newE_err.1 h
  rcases (newT_any (fits_of_addressable ha)).2 with ⟨vs, _, _, _, _, _, _, h'⟩ | ⟨q', h', hq⟩
  · rw [h1] at h'; cases h'
  · rw [h1] at h'; cases h'
    rcases hq with ⟨k, rfl, hl, -⟩ | ⟨v, rfl, -⟩ | ⟨hc, -⟩
    · exact .inl hl
    · exact .inr ⟨_, _, _, .magic, loadText_error .magic⟩
    · rcases error_says (q := q) (by rintro a b rfl; exact hc) with h2 | ⟨k, text, h2, h3⟩
      · rw [h2] at hc; exact hc.elim
      · exact .inr ⟨q, k, text, h2, h3⟩

/-- C85: the text tells what is wrong: no two different flaws have the same text. -/
theorem load_text_determines {q q' : LoadReason} {k k' : ErrorKind} {text : String} (h : LoadText q k text) (h' : LoadText q' k' text) :
    q = q' ∧ k = k' := by
  have hc : ∀ {q k text}, LoadText q k text → ContentReason q ∨ ∃ v, q = .invalidMagic v := by
    intro q k text h
    cases h <;> first | exact .inl trivial | exact .inr ⟨_, rfl⟩
  have hm : q.message = q'.message := by
    have h1 := congrArg Error.message (loadText_error h)
    have h2 := congrArg Error.message (loadText_error h')
    exact h1.trans h2.symm
  obtain rfl := loadMessage_inj (hc h) (hc h') hm
  exact ⟨rfl, (congrArg Error.kind (loadText_error h)).symm.trans (congrArg Error.kind (loadText_error h'))⟩

/-! ### C86: the first flaw -/

/-- C86: the error is about the first need that is not met. -/
theorem new_first_flaw (hS : Serves cfg R f) (ha : FitsTarget cfg f) {x : Error} (h : TypeInformation.newE cfg R = .err x) :
    ∃ q, FirstFlaw R f q ∧ LoadSays q x := by
  obtain ⟨q, h1, rfl⟩ := newE_err.1 h
  exact ⟨q, newT_first hS (fits_of_target ha) h1, error_says (fileFlaw_kind (new_err_sound hS ha h1))⟩

/-- C86: if the source always gives the same error for the same request, then the error is determined by the file. -/
theorem new_first_flaw_iff (hS : Serves cfg R f) (ha : FitsTarget cfg f) (hd : SameWords R) (x : Error) :
    TypeInformation.newE cfg R = .err x ↔ ∃ q, FirstFlaw R f q ∧ LoadSays q x := by
  refine ⟨new_first_flaw hS ha, ?_⟩
  rintro ⟨q, h1, h2⟩
  exact newE_err.2 ⟨q, (newT_first_iff hS (fits_of_target ha) hd).2 h1, says_error h2⟩

/-- C86: there is at most one first flaw, it is a flaw, and only files that cannot be decoded have one. -/
theorem first_flaw_facts (hS : Serves cfg R f) (ha : FitsTarget cfg f) (hd : SameWords R) {q : LoadReason} (h : FirstFlaw R f q) :
    FileFlaw f q ∧ (∀ q', FirstFlaw R f q' → q' = q) ∧ ∀ vs, ¬ Decodes .crate f vs :=
  ⟨new_err_sound hS ha ((newT_first_iff hS (fits_of_target ha) hd).2 h), fun _ h' => firstFlaw_unique hS (fits_of_target ha) hd h' h,
    firstFlaw_none hS (fits_of_target ha) h⟩

theorem buffer_sameWords (cfg : Cfg) (f : List UInt8) : SameWords (readableBuffer cfg f) := by
  intro h h' pos n x x' hx hx'
  have : (readableBuffer cfg f).read h pos n = (readableBuffer cfg f).read h' pos n := rfl
  rw [this, hx'] at hx
  cases hx
  rfl

/-- C86: the exact error of `new` for a buffer. -/
theorem buffer_first_flaw (hf : f.length < cfg.usizeMod) (ha : FitsTarget cfg f) (x : Error) :
    TypeInformation.newE cfg (readableBuffer cfg f) = .err x ↔ ∃ q, FirstFlaw (readableBuffer cfg f) f q ∧ LoadSays q x :=
  new_first_flaw_iff (serves_buffer cfg f hf) ha (buffer_sameWords cfg f) x

/-- C86: what a buffer says about bytes that it does not have. -/
theorem buffer_missing {pos n : Nat} (hf : pos + n < cfg.usizeMod) (q : LoadReason) :
    Missing (readableBuffer cfg f) f pos n q ↔ f.length < pos + n ∧ q = .source (if pos = f.length
      then ⟨.EOF, str "There are no bytes left to read"⟩
      else ⟨.InvalidOffset, str "There are not enough bytes left to complete the read request"⟩) := by
  unfold Missing readableBuffer
  simp only [buffer_read_eq cfg f (show pos < cfg.usizeMod by omega)]
  constructor
  · rintro ⟨h, _, x, hx, rfl⟩
    refine ⟨h, ?_⟩
    by_cases hp : pos = f.length
    · rw [if_pos hp] at hx ⊢
      cases hx; rfl
    · rw [if_neg hp, if_neg (by omega), if_pos hf] at hx
      rw [if_neg hp]
      cases hx; rfl
  · rintro ⟨h, rfl⟩
    refine ⟨h, [], _, ?_, rfl⟩
    by_cases hp : pos = f.length
    · rw [if_pos hp, if_pos hp]
    · rw [if_neg hp, if_neg hp, if_neg (by omega), if_pos hf]

/-! ### Concrete cases -/

section Cases
open Samples Examples

/-- `load_error_text`, `load_text_determines`: the text about a string outside of the section has the place in the file (60 + 99),
not the offset 99 that the record has. -/
example : TypeInformation.newE dbg (buffer (twoRecords [1, 0x04000001, 4, 99, 1, 8])) =
    .err ⟨.InvalidStringOffset, str "Invalid string offset 0x0000009F"⟩ := by decide +kernel

example : LoadText (.stringOffset 159) .InvalidStringOffset "Invalid string offset 0x0000009F" := by
  have : "Invalid string offset 0x0000009F" = "Invalid string offset 0x" ++ hexText 8 (159 : UInt32).toNat := by decide +kernel
  rw [this]; exact .stringOutside

example : TypeInformation.newE dbg (buffer (twoRecords [1, 0x04000001, 4, 3, 1, 8])) =
    .err ⟨.InvalidString, str "String at offset 0x0000003F is not correctly null terminated"⟩ := by decide +kernel

example : TypeInformation.newE dbg (buffer [0x7F, 0x45, 0x4C, 0x46]) = .err ⟨.InvalidMagic, str "Invalid magic number: 0x457F"⟩ := by
  decide +kernel

example : TypeInformation.newE dbg (buffer (twoRecords [0, 0x14000000, 0])) = .err ⟨.InvalidBTFKind, str "Invalid BTF kind value: 0x0014"⟩ := by
  decide +kernel

/-- `new_first_flaw`, `buffer_first_flaw`: a member with a bad name at bit 3 in a struct with a bad name. The name of the member comes
first, then its position, then the name of the struct. -/
example : FirstFlaw (buffer (twoRecords [98, 0x04000001, 4, 99, 1, 3])) (twoRecords [98, 0x04000001, 4, 99, 1, 3]) (.stringOffset 159) :=
  newT_first (cfg := dbg) (serves _ (by decide +kernel)) (fits_of_target (fits _)) (by decide +kernel)

example : FirstFlaw (buffer (twoRecords [98, 0x04000001, 4, 1, 1, 3])) (twoRecords [98, 0x04000001, 4, 1, 1, 3]) .unaligned :=
  newT_first (cfg := dbg) (serves _ (by decide +kernel)) (fits_of_target (fits _)) (by decide +kernel)

example : FirstFlaw (buffer (twoRecords [98, 0x04000001, 4, 1, 1, 8])) (twoRecords [98, 0x04000001, 4, 1, 1, 8]) (.stringOffset 158) :=
  newT_first (cfg := dbg) (serves _ (by decide +kernel)) (fits_of_target (fits _)) (by decide +kernel)

/-- `buffer_missing`: the file ends in the third word of a record, and right before it. -/
example : TypeInformation.newE dbg (buffer ((twoRecords [1, 0x01000000, 4, 32]).take 46)) =
      .err ⟨.InvalidOffset, str "There are not enough bytes left to complete the read request"⟩ ∧
    TypeInformation.newE dbg (buffer ((twoRecords [1, 0x01000000, 4, 32]).take 44)) = .err ⟨.EOF, str "There are no bytes left to read"⟩ := by
  decide +kernel

end Cases

end

end Btf.Props

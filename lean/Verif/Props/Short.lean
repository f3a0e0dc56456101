import Verif.Proofs.Short
import Verif.Props.Buffer
import Verif.Props.Debug

/-!
# Property C90: 32-bit targets and files that are smaller than the address space
-/

namespace Btf.Props

open Btf Spec Reader

theorem newT_bind (cfg : Cfg) (R : Readable) :
    TypeInformation.newT cfg R = (P.bind (FileHeader.new cfg) (afterHeader cfg) (Reader.new R)).1 ∧
    TypeInformation.newTrace cfg R = (P.bind (FileHeader.new cfg) (afterHeader cfg) (Reader.new R)).2.trace := ⟨rfl, rfl⟩

section
variable {R : Readable} {size : Nat} (hR : Short R size) (hs : size + 2 ^ 20 < 2 ^ 32)
include hR hs

theorem afterHeader_short (b : Bool) {fh : FileHeader} {r : Reader} (hr : r.readable = R) (h : ¬ AtTheEnd fh) :
    (afterHeader ⟨.w32, b⟩ fh r).1 = (afterHeader ⟨.w64, b⟩ fh r).1 ∧
      (afterHeader ⟨.w32, b⟩ fh r).2.trace = (afterHeader ⟨.w64, b⟩ fh r).2.trace := by
  cases hst : u32CheckedAdd fh.hdrLen fh.typeOff with
  | none =>
    have key : ∀ cfg, afterHeader cfg fh r = (.err .typeSectionStart, r) := by
      intro cfg; unfold afterHeader; rw [hst]; rfl
    rw [key, key]
    exact ⟨rfl, rfl⟩
  | some start =>
    have h64 := checked_64 b start fh.typeLen
    by_cases hE : start.toNat + fh.typeLen.toNat < 2 ^ 32
    · rw [afterHeader_some r hst (checked_32 b hE), afterHeader_some r hst h64]
      have hts : start.toNat = typeStart fh := u32CheckedAdd_eq_some.1 hst
      by_cases hend : start.toNat + 12 < 2 ^ 32
      · have := (alike_loop (cfg := ⟨.w32, b⟩) (cfg' := ⟨.w64, b⟩) (fh := fh) hR hs rfl (start.toNat + fh.typeLen.toNat)
          (fh.typeLen.toNat + 1) start.toNat 1 TypeInformation.empty hend { r with offset := start.toNat } hr (Nat.le_refl _)).1
        rw [this]
        exact ⟨rfl, rfl⟩
      · have h0 : fh.typeLen.toNat = 0 := by
          by_contra h0
          exact h ⟨by unfold typeEnd; omega, by unfold typeEnd; omega, by omega⟩
        have key : ∀ cfg, parseLoop cfg fh (start.toNat + fh.typeLen.toNat) (fh.typeLen.toNat + 1) 1 TypeInformation.empty
            { r with offset := start.toNat } = (.ok TypeInformation.empty, { r with offset := start.toNat }) := by
          intro cfg
          rw [parseLoop]
          change P.bind getOffset _ _ = _
          unfold P.bind getOffset
          simp only []
          rw [if_neg (by omega)]
          rfl
        rw [key, key]
        exact ⟨rfl, rfl⟩
    · rw [afterHeader_none r hst (checked_32_none b hE), afterHeader_some r hst h64,
        loop_overflow' hst (u32_none hE) (r := { r with offset := start.toNat }) (loop_start hE)]
      exact ⟨rfl, rfl⟩

/-- C90: on a 32-bit target `new` makes the same requests and returns the same as on a 64-bit target, for every source that
is smaller than 4 GiB - 1 MiB, unless the type section lies in the last 12 bytes of the address space. -/
theorem new_short (b : Bool) (h : ∀ e fh, Announces R e fh → ¬ AtTheEnd fh) :
    TypeInformation.newE ⟨.w32, b⟩ R = TypeInformation.newE ⟨.w64, b⟩ R ∧
      TypeInformation.newTrace ⟨.w32, b⟩ R = TypeInformation.newTrace ⟨.w64, b⟩ R := by
  have key : TypeInformation.newT ⟨.w32, b⟩ R = TypeInformation.newT ⟨.w64, b⟩ R ∧
      TypeInformation.newTrace ⟨.w32, b⟩ R = TypeInformation.newTrace ⟨.w64, b⟩ R := by
    rw [(newT_bind _ _).1, (newT_bind _ _).1, (newT_bind _ _).2, (newT_bind _ _).2]
    unfold P.bind
    have ha := alike_fileHeader (cfg := ⟨.w32, b⟩) (cfg' := ⟨.w64, b⟩) hR hs (Reader.new R) rfl (Nat.le_refl _)
    rw [← ha.1]
    rcases header_any (cfg := ⟨.w32, b⟩) (R := R) with ⟨e, fh, r', h1, h2, -⟩ | ⟨q, r', h1, -⟩
    · rw [h1] at ha ⊢
      exact afterHeader_short hR hs b ha.2.1 (h e fh h2)
    · rw [h1]
      exact ⟨rfl, rfl⟩
  exact ⟨by unfold TypeInformation.newE; rw [key.1], key.2⟩

theorem short_at_end {cfg : Cfg} {e : Endianness} {fh : FileHeader} (h : Announces R e fh) (ha : AtTheEnd fh) :
    ∃ r : Reader, r.readable = R ∧ r.offset = typeStart fh ∧
      TypeInformation.newT cfg R = (parseLoop cfg fh (typeEnd fh) (fh.typeLen.toNat + 1) 1 TypeInformation.empty r).1 ∧
      TypeInformation.newTrace cfg R = (parseLoop cfg fh (typeEnd fh) (fh.typeLen.toNat + 1) 1 TypeInformation.empty r).2.trace := by
  have hu := usizeMod_ge cfg
  rw [(newT_bind _ _).1, (newT_bind _ _).2]
  unfold P.bind
  have hr := (alike_fileHeader (cfg := cfg) (cfg' := cfg) hR hs (Reader.new R) rfl (Nat.le_refl _)).2.1
  obtain ⟨r', h1, -⟩ := header_announced (cfg := cfg) h
  rw [h1] at hr ⊢
  obtain ⟨s, t, g1, g2, g1', g2'⟩ := section_ok ha.2.1
  have hc : cfg.usizeCheckedAdd s.toNat fh.typeLen.toNat = some (typeEnd fh) := by
    unfold Cfg.usizeCheckedAdd
    rw [if_pos (by rw [g1']; have := ha.2.1; unfold typeEnd at this; omega), g1']
    rfl
  refine ⟨{ r' with offset := s.toNat }, hr, g1', ?_⟩
  simp only []
  rw [afterHeader_some r' g1 hc]
  exact ⟨rfl, rfl⟩

/-- C90: and if it does, then a 64-bit build reports that the section is too small for a record; a 32-bit build with overflow
checks panics, and one without asks for the first word of the record, in vain, and returns the error of the source. -/
theorem new_short_end {e : Endianness} {fh : FileHeader} (h : Announces R e fh) (ha : AtTheEnd fh) :
    TypeInformation.newE ⟨.w32, true⟩ R = .panic ∧
    (∃ x rest, TypeInformation.newE ⟨.w32, false⟩ R = .err x ∧
      TypeInformation.newTrace ⟨.w32, false⟩ R = ⟨typeStart fh, 4, some x⟩ :: rest) ∧
    ∀ b, TypeInformation.newE ⟨.w64, b⟩ R = .err (LoadReason.error .typeSectionOffset) := by
  refine ⟨?_, ?_, fun b => ?_⟩
  · obtain ⟨r, -, h2, h3, -⟩ := short_at_end (cfg := ⟨.w32, true⟩) hR hs h ha
    unfold TypeInformation.newE
    rw [h3, end_panics ha h2]
    rfl
  · obtain ⟨r, h1, h2, h3, h4⟩ := short_at_end (cfg := ⟨.w32, false⟩) hR hs h ha
    obtain ⟨x, -, hx⟩ := end_fails (n := fh.typeLen.toNat) (tid := 1) (ti := TypeInformation.empty) hR hs ha h2 h1
    refine ⟨x, r.trace, ?_, ?_⟩
    · unfold TypeInformation.newE
      rw [h3, hx]
      rfl
    · rw [h4, hx]
  · obtain ⟨r, -, h2, h3, -⟩ := short_at_end (cfg := ⟨.w64, b⟩) hR hs h ha
    unfold TypeInformation.newE
    rw [h3, end_outside ha h2]
    rfl

/-- C90: so a 32-bit build panics exactly if it has overflow checks and the type section is at the end of the address
space. -/
theorem new_short_panics (b : Bool) :
    TypeInformation.newE ⟨.w32, b⟩ R = .panic ↔ b = true ∧ ∃ e fh, Announces R e fh ∧ AtTheEnd fh := by
  constructor
  · intro hp
    by_cases h : ∃ e fh, Announces R e fh ∧ AtTheEnd fh
    · refine ⟨?_, h⟩
      obtain ⟨e, fh, h1, h2⟩ := h
      cases b with
      | true => rfl
      | false =>
        obtain ⟨-, ⟨x, -, hx, -⟩, -⟩ := new_short_end hR hs h1 h2
        rw [hx] at hp; cases hp
    · rw [(new_short hR hs b fun e fh h1 h2 => h ⟨e, fh, h1, h2⟩).1] at hp
      rcases new_total ⟨.w64, b⟩ rfl R with ⟨ti, h⟩ | ⟨k, h⟩ <;>
      · unfold TypeInformation.new at h
        unfold TypeInformation.newE at hp
        cases hT : TypeInformation.newT ⟨.w64, b⟩ R <;> rw [hT] at h hp <;> cases h <;> cases hp
  · rintro ⟨rfl, e, fh, h1, h2⟩
    exact (new_short_end hR hs h1 h2).1

/-- C90: without overflow checks `new` always returns. -/
theorem new_short_returns : (∃ ti, TypeInformation.newE ⟨.w32, false⟩ R = .ok ti) ∨ ∃ x, TypeInformation.newE ⟨.w32, false⟩ R = .err x := by
  by_cases h : ∃ e fh, Announces R e fh ∧ AtTheEnd fh
  · obtain ⟨e, fh, h1, h2⟩ := h
    obtain ⟨-, ⟨x, -, hx, -⟩, -⟩ := new_short_end hR hs h1 h2
    exact .inr ⟨x, hx⟩
  · rw [(new_short hR hs false fun e fh h1 h2 => h ⟨e, fh, h1, h2⟩).1]
    rcases new_total ⟨.w64, false⟩ rfl R with ⟨ti, h⟩ | ⟨k, h⟩ <;>
    · unfold TypeInformation.new at h
      unfold TypeInformation.newE
      cases hT : TypeInformation.newT ⟨.w64, false⟩ R with
      | ok ti => exact .inl ⟨_, rfl⟩
      | err q => exact .inr ⟨_, rfl⟩
      | _ => rw [hT] at h; cases h

end

/-- Whatever serves a file is as short as the file. -/
theorem short_serves {cfg : Cfg} {R : Readable} {f : List UInt8} (hS : Serves cfg R f) : Short R f.length := by
  have hu := usizeMod_ge cfg
  intro history pos n b hn hp h
  have := hS history pos n hn (by omega)
  split at this
  · assumption
  · obtain ⟨e, he⟩ := this
    rw [h] at he; cases he

/-- C90: a file below 4 GiB - 1 MiB, in memory or elsewhere, is parsed on 32-bit targets exactly as on 64-bit targets, or its
type section is at the end of the address space. -/
theorem new_file_32 (cfg : Cfg) (b : Bool) (R : Readable) (f : List UInt8) (hS : Serves cfg R f) (hf : f.length + 2 ^ 20 < 2 ^ 32)
    (h : ∀ e fh, Preamble f e fh → ¬ AtTheEnd fh) :
    TypeInformation.newE ⟨.w32, b⟩ R = TypeInformation.newE ⟨.w64, b⟩ R ∧
      TypeInformation.newTrace ⟨.w32, b⟩ R = TypeInformation.newTrace ⟨.w64, b⟩ R :=
  new_short (short_serves hS) hf b fun e fh ha => h e fh ((announces_iff hS).1 ha)

theorem newE_ok_iff (cfg : Cfg) (R : Readable) (ti : TypeInformation) :
    TypeInformation.newE cfg R = .ok ti ↔ TypeInformation.new cfg R = .ok ti := by
  unfold TypeInformation.newE TypeInformation.new
  cases TypeInformation.newT cfg R <;> constructor <;> intro h <;> cases h <;> rfl

/-- C90: what 32-bit builds make of a file: the types that the file describes. -/
theorem new_file_32_types (b : Bool) (R : Readable) (f : List UInt8) (hS : Serves ⟨.w64, b⟩ R f) (hf : f.length + 2 ^ 20 < 2 ^ 32)
    (vs : List TypeVariant) :
    Decodes .crate f vs ↔ ∃ ti, TypeInformation.new ⟨.w32, b⟩ R = .ok ti ∧ Holds ti vs := by
  have key : ∀ ti, TypeInformation.new ⟨.w32, b⟩ R = .ok ti ↔ TypeInformation.new ⟨.w64, b⟩ R = .ok ti := by
    intro ti
    rw [← newE_ok_iff, ← newE_ok_iff]
    by_cases h : ∃ e fh, Announces R e fh ∧ AtTheEnd fh
    · obtain ⟨e, fh, h1, h2⟩ := h
      obtain ⟨g1, ⟨x, -, g2, -⟩, g3⟩ := new_short_end (short_serves hS) hf h1 h2
      rw [g3]
      cases b
      · rw [g2]; constructor <;> intro h <;> cases h
      · rw [g1]; constructor <;> intro h <;> cases h
    · rw [(new_short (short_serves hS) hf b fun e fh h1 h2 => h ⟨e, fh, h1, h2⟩).1]
  simp only [key]
  constructor
  · intro hd
    exact new_complete hS (.inl rfl) hd
  · rintro ⟨ti, h, hh⟩
    obtain ⟨vs', hd, hh'⟩ := new_sound hS (.inl rfl) h
    have : numbered vs = numbered vs' := by rw [← hh.get, ← hh'.get]
    exact numbered_inj this ▸ hd

/-! ### Cases that meet the hypotheses -/

/-- `new_short_end`, `new_short_panics`: 24 bytes are enough. -/
def endFile : List UInt8 :=
  [0x9F, 0xEB, 1, 0] ++ Samples.le32 24 ++ Samples.le32 0xFFFFFFE0 ++ Samples.le32 7 ++ Samples.le32 0 ++ Samples.le32 1

theorem endFile_short : Short (readableBuffer ⟨.w32, true⟩ endFile) 24 :=
  short_serves (serves_buffer ⟨.w32, true⟩ endFile (by decide))

example : ∃ e fh, Announces (readableBuffer ⟨.w32, true⟩ endFile) e fh ∧ AtTheEnd fh :=
  ((new_short_panics endFile_short (by decide) true).1 (by decide +kernel)).2

/-- `new_file_32`: a file with types of all kinds. -/
example : TypeInformation.newE ⟨.w32, true⟩ (Samples.buffer (Samples.leFile Samples.zooTypes Samples.zooStrings)) =
    TypeInformation.newE ⟨.w64, true⟩ (Samples.buffer (Samples.leFile Samples.zooTypes Samples.zooStrings)) := by
  have hS := serves_buffer Samples.dbg (Samples.leFile Samples.zooTypes Samples.zooStrings) (by decide +kernel)
  refine (new_file_32 Samples.dbg true _ _ hS (by decide +kernel) fun e fh h ha => ?_).1
  have := (new_short_end (short_serves hS) (by decide +kernel) ((announces_iff hS).2 h) ha).2.2 true
  have hz := (newE_ok_iff _ _ _).2 Samples.zoo_parsed
  exact absurd (hz.symm.trans this) (by intro h; cases h)

end Btf.Props

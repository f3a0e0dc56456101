import Verif.Spec.Examples
import Verif.Props.Parsed

/-!
# Properties of the example programs
-/

namespace Btf.Props

open Btf Spec Examples TypeInformation

variable {cfg : Cfg} {os : Os} {file : OsFile} {f : List UInt8} {prog path name : String}

theorem serves_file (cfg : Cfg) (h : Contains file f) : Serves cfg (readableFile file) f := by
  intro history offset len hl ho
  have := h history offset len hl
  split at this
  · obtain ⟨b, hb, hi⟩ := this
    rw [if_pos ‹_›]
    exact ⟨b, by simp only [readableFile, hb], hi⟩
  · rw [if_neg ‹_›]
    obtain ⟨text, ht⟩ := this
    exact ⟨errorOfIoError text, by simp only [readableFile, ht]⟩

theorem holds_names {ti : TypeInformation} {vs : List TypeVariant} (h : Holds ti vs) (s : Str) (t : UInt32) :
    ti.idOf s = some t ↔ Names vs s t := by
  unfold Names
  split
  · next he => rw [he, h.idOf_void]; constructor <;> intro h' <;> simp_all
  · next he => exact h.idOf_some s t he

theorem holds_idOf {ti ti' : TypeInformation} {vs : List TypeVariant} (h : Holds ti vs) (h' : Holds ti' vs) (s : Str) :
    ti.idOf s = ti'.idOf s := by
  apply Option.ext
  intro t
  rw [holds_names h, holds_names h']

theorem holds_fromId {ti ti' : TypeInformation} {vs : List TypeVariant} (h : Holds ti vs) (h' : Holds ti' vs) (t : UInt32) :
    ti.fromId t = ti'.fromId t := by rw [h.fromId, h'.fromId]

theorem hasSize_congr {ti ti' : TypeInformation} (hf : ∀ t, ti.fromId t = ti'.fromId t) (hi : ∀ s, ti.idOf s = ti'.idOf s)
    {l : Option Nat} {t : UInt32} {n : Nat} (h : HasSize l ti t n) : HasSize l ti' t n := by
  induction h with
  | own h1 h2 => exact .own (hf _ ▸ h1) h2
  | ptr h1 h2 h3 =>
    obtain ⟨a, b, c, h4, h5, h6⟩ := h3
    exact .ptr (hf _ ▸ h1) h2 ⟨a, b, c, hi _ ▸ h4, hf _ ▸ h5, h6⟩
  | array h1 _ h3 ih => exact .array (hf _ ▸ h1) ih h3
  | «alias» h1 h2 _ ih => exact .alias (hf _ ▸ h1) h2 ih

theorem new_cases {R : Readable} (hS : Serves cfg R f) (ht : FitsTarget cfg f) :
    (∃ vs ti, TypeInformation.new cfg R = .ok ti ∧ Decodes .crate f vs ∧ Holds ti vs) ∨
    ((∀ vs, ¬ Decodes .crate f vs) ∧ ∃ k, TypeInformation.new cfg R = .err k) := by
  rcases (new_any (fits_of_addressable (addressable_of_target hS ht))).2 with ⟨_, _, _, _, _, _, _, h⟩ | ⟨k, h, _⟩
  · obtain ⟨vs, hd, hh⟩ := new_sound hS ht h
    exact .inl ⟨vs, _, h, hd, hh⟩
  · refine .inr ⟨fun vs hd => ?_, k, h⟩
    obtain ⟨ti, h', -⟩ := new_complete hS ht hd
    rw [h] at h'; cases h'

/-- C71: with the wrong number of arguments the programs print the usage and do nothing else: in particular the
file system is not used. -/
theorem examples_usage (k : Nat) (args : List String) :
    (args.length ≠ 2 → dumpBtf cfg os args = ⟨[.usage], .returned⟩) ∧
    (args.length ≠ 3 → getTypeSize cfg os k args = ⟨[.usage], .returned⟩) ∧
    (args.length ≠ 4 → getTypeOffset cfg os k args = ⟨[.usage], .returned⟩) := by
  refine ⟨fun h => ?_, fun h => ?_, fun h => ?_⟩
  · unfold dumpBtf; split <;> simp_all
  · unfold getTypeSize; split <;> simp_all
  · unfold getTypeOffset; split <;> simp_all

/-- C72: `dump-btf` on a readable file prints the types of the file, numbered in file order, exactly if the file
is accepted; otherwise it panics. -/
theorem dump_btf_iff (hopen : os.openFile path = some file) (hf : Contains file f) (ht : FitsTarget cfg f) (r : Run) :
    dumpBtf cfg os [prog, path] = r ↔
      (∃ vs, Decodes .crate f vs ∧ r = ⟨[.opening path, .types (numbered vs)], .returned⟩) ∨
      ((∀ vs, ¬ Decodes .crate f vs) ∧ r = ⟨[.opening path], .panicked⟩) := by
  have hS := serves_file cfg hf
  simp only [dumpBtf, hopen, unwrapOption]
  rcases new_cases hS ht with ⟨vs, ti, h, hd, hh⟩ | ⟨hn, k, h⟩
  · simp only [h, unwrapThen, hh.get]
    constructor
    · rintro rfl; exact .inl ⟨vs, hd, rfl⟩
    · rintro (⟨vs', hd', rfl⟩ | ⟨hn, -⟩)
      · rw [content_unique hd hd']
      · exact absurd hd (hn vs)
  · simp only [h, unwrapThen]
    constructor
    · rintro rfl; exact .inr ⟨hn, rfl⟩
    · rintro (⟨vs', hd', -⟩ | ⟨-, rfl⟩)
      · exact absurd hd' (hn vs')
      · rfl

/-! ### Any file system -/

/-- C73: `get-type-size` prints an id and a size exactly if the file can be opened and parsed, `id_of` knows the name and
`size_of` has an answer; and it prints these answers. -/
theorem get_type_size_answers (os : Os) (t : UInt32) (n : Nat) :
    Ends (fun k => getTypeSize cfg os k [prog, path, name]) ⟨[.opening path, .size name t n], .returned⟩ ↔
      ∃ file ti, os.openFile path = some file ∧ TypeInformation.new cfg (readableFile file) = .ok ti ∧
        ti.idOf (str name) = some t ∧ SizeOf cfg ti t (.ok n) := by
  constructor
  · rintro ⟨-, k, hk⟩
    simp only [getTypeSize] at hk
    cases h1 : os.openFile path with
    | none => rw [h1] at hk; cases hk
    | some file =>
      simp only [h1, unwrapOption] at hk
      cases h2 : TypeInformation.new cfg (readableFile file) with
      | ok ti =>
        simp only [h2, unwrapThen] at hk
        cases h3 : ti.idOf (str name) with
        | none => rw [h3] at hk; cases hk
        | some t' =>
          simp only [h3] at hk
          cases h4 : TypeInformation.sizeOf cfg ti k t' with
          | ok n' => rw [h4] at hk; cases hk; exact ⟨file, ti, rfl, h2, h3, by simp, k, h4⟩
          | err e => rw [h4] at hk; cases hk
          | panic => rw [h4] at hk; cases hk
          | nofuel => rw [h4] at hk; cases hk
      | err e => rw [h2] at hk; cases hk
      | panic => rw [h2] at hk; cases hk
      | nofuel => rw [h2] at hk; cases hk
  · rintro ⟨file, ti, h1, h2, h3, -, k, hk⟩
    have hk' : TypeInformation.sizeOf cfg ti k t = .ok n := hk
    exact ⟨by simp, k, by simp only [getTypeSize, h1, unwrapOption, h2, unwrapThen, h3, hk']⟩

/-- C74: the same for `get-type-offset`. -/
theorem get_type_offset_answers (os : Os) (typePath : String) (u : UInt32) (o : Offset) :
    Ends (fun k => getTypeOffset cfg os k [prog, path, name, typePath])
        ⟨[.opening path, .offset name typePath u o], .returned⟩ ↔
      ∃ file ti t, os.openFile path = some file ∧ TypeInformation.new cfg (readableFile file) = .ok ti ∧
        ti.idOf (str name) = some t ∧ OffsetOf cfg ti t (str typePath) (.ok (u, o)) := by
  constructor
  · rintro ⟨-, k, hk⟩
    simp only [getTypeOffset] at hk
    cases h1 : os.openFile path with
    | none => rw [h1] at hk; cases hk
    | some file =>
      simp only [h1, unwrapOption] at hk
      cases h2 : TypeInformation.new cfg (readableFile file) with
      | ok ti =>
        simp only [h2, unwrapThen] at hk
        cases h3 : ti.idOf (str name) with
        | none => rw [h3] at hk; cases hk
        | some t =>
          simp only [h3] at hk
          cases h4 : offsetOf cfg ti k t (str typePath) with
          | ok n' => rw [h4] at hk; cases hk; exact ⟨file, ti, t, rfl, h2, h3, by simp, k, h4⟩
          | err e => rw [h4] at hk; cases hk
          | panic => rw [h4] at hk; cases hk
          | nofuel => rw [h4] at hk; cases hk
      | err e => rw [h2] at hk; cases hk
      | panic => rw [h2] at hk; cases hk
      | nofuel => rw [h2] at hk; cases hk
  · rintro ⟨file, ti, t, h1, h2, h3, -, k, hk⟩
    have hk' : offsetOf cfg ti k t (str typePath) = .ok (u, o) := hk
    exact ⟨by simp, k, by simp only [getTypeOffset, h1, unwrapOption, h2, unwrapThen, h3, hk']⟩

theorem unwrapThen_cases {α : Type} {p : List Line} {x : Outcome α} {rest : α → Run} {r : Run}
    (h : unwrapThen p x rest = r) :
    (∃ a, rest a = r) ∨ r = ⟨p, .panicked⟩ ∨ r.ending = .nofuel := by
  cases x with
  | ok a => exact .inl ⟨a, h⟩
  | err e => exact .inr (.inl h.symm)
  | panic => exact .inr (.inl h.symm)
  | nofuel => subst h; exact .inr (.inr rfl)

theorem unwrapOption_cases {α : Type} {p : List Line} {x : Option α} {rest : α → Run} {r : Run}
    (h : unwrapOption p x rest = r) : (∃ a, rest a = r) ∨ r = ⟨p, .panicked⟩ := by
  cases x with
  | some a => exact .inl ⟨a, h⟩
  | none => exact .inr h.symm

/-- C71: with the right number of arguments, a program that ends has printed an answer and returned, or has
panicked without an answer: there is no normal end without an answer, whatever the file system does. -/
theorem examples_no_silent_failure (os : Os) (typePath : String) (r : Run) :
    (dumpBtf cfg os [prog, path] = r → r.ending ≠ .nofuel → (∃ l, r = ⟨[.opening path, .types l], .returned⟩) ∨ r = ⟨[.opening path], .panicked⟩) ∧
    (Ends (fun k => getTypeSize cfg os k [prog, path, name]) r →
      (∃ t n, r = ⟨[.opening path, .size name t n], .returned⟩) ∨ r = ⟨[.opening path], .panicked⟩) ∧
    (Ends (fun k => getTypeOffset cfg os k [prog, path, name, typePath]) r →
      (∃ u o, r = ⟨[.opening path, .offset name typePath u o], .returned⟩) ∨ r = ⟨[.opening path], .panicked⟩) := by
  refine ⟨fun h hne => ?_, ?_, ?_⟩
  · rcases unwrapOption_cases h with ⟨file, h⟩ | h
    · rcases unwrapThen_cases h with ⟨ti, h⟩ | h | h
      · exact .inl ⟨_, h.symm⟩
      · exact .inr h
      · exact absurd h hne
    · exact .inr h
  · rintro ⟨hne, k, h⟩
    rcases unwrapOption_cases h with ⟨file, h⟩ | h
    · rcases unwrapThen_cases h with ⟨ti, h⟩ | h | h
      · rcases unwrapOption_cases h with ⟨t, h⟩ | h
        · rcases unwrapThen_cases h with ⟨n, h⟩ | h | h
          · exact .inl ⟨t, n, h.symm⟩
          · exact .inr h
          · exact absurd h hne
        · exact .inr h
      · exact .inr h
      · exact absurd h hne
    · exact .inr h
  · rintro ⟨hne, k, h⟩
    rcases unwrapOption_cases h with ⟨file, h⟩ | h
    · rcases unwrapThen_cases h with ⟨ti, h⟩ | h | h
      · rcases unwrapOption_cases h with ⟨t, h⟩ | h
        · rcases unwrapThen_cases h with ⟨n, h⟩ | h | h
          · exact .inl ⟨_, _, h.symm⟩
          · exact .inr h
          · exact absurd h hne
        · exact .inr h
      · exact .inr h
      · exact absurd h hne
    · exact .inr h

/-! ### A readable file -/

/-- C73: `get-type-size` on a readable file, in a build with overflow checks: it prints an id and a size exactly if
the file is accepted, the id is that of the last type with the given name, and the size is the size of this
type. -/
theorem get_type_size_prints (hc : cfg.overflowChecks = true) (hopen : os.openFile path = some file)
    (hf : Contains file f) (ht : FitsTarget cfg f) (t : UInt32) (n : Nat) :
    Ends (fun k => getTypeSize cfg os k [prog, path, name]) ⟨[.opening path, .size name t n], .returned⟩ ↔
      ∃ vs ti, Decodes .crate f vs ∧ Holds ti vs ∧ Names vs (str name) t ∧ HasSize (some cfg.usizeMod) ti t n := by
  have hS := serves_file cfg hf
  rw [get_type_size_answers]
  constructor
  · rintro ⟨file', ti, h1, h2, h3, h4⟩
    rw [hopen] at h1; cases h1
    obtain ⟨vs, hd, hh⟩ := new_sound hS ht h2
    exact ⟨vs, ti, hd, hh, (holds_names hh _ _).1 h3, (size_of_ok_iff cfg hc ti t n).1 h4⟩
  · rintro ⟨vs, ti, hd, hh, hn, hs⟩
    obtain ⟨ti', h2, hh'⟩ := new_complete hS ht hd
    exact ⟨file, ti', hopen, h2, (holds_names hh' _ _).2 hn, (size_of_ok_iff cfg hc ti' t n).2
      (hasSize_congr (holds_fromId hh hh') (holds_idOf hh hh') hs)⟩

/-- C74: what `get-type-offset` prints about a readable file (build with overflow checks) is a C access in the last type
with the given name, at its offset. -/
theorem get_type_offset_prints (hc : cfg.overflowChecks = true) (hopen : os.openFile path = some file)
    (hf : Contains file f) (ht : FitsTarget cfg f) (typePath : String) (u : UInt32) (o : Offset)
    (h : Ends (fun k => getTypeOffset cfg os k [prog, path, name, typePath])
        ⟨[.opening path, .offset name typePath u o], .returned⟩) :
    ∃ vs ti t cs bits w, Decodes .crate f vs ∧ Holds ti vs ∧ Names vs (str name) t ∧
      AcceptedPath cfg.usizeMod (str typePath) cs ∧ Access ti t cs u bits w ∧ Denotes o bits w := by
  have hS := serves_file cfg hf
  obtain ⟨file', ti, t, h1, h2, h3, h4⟩ := (get_type_offset_answers os typePath u o).1 h
  rw [hopen] at h1; cases h1
  obtain ⟨vs, hd, hh⟩ := new_sound hS ht h2
  obtain ⟨cs, bits, w, h5, h6, h7⟩ := offset_of_sound cfg hc ti t u typePath o h4
  exact ⟨vs, ti, t, cs, bits, w, hd, hh, (holds_names hh _ _).1 h3, h5, h6, h7⟩

/-! ### I/O errors -/

theorem faithful_io {trace : List ReadEvent} (h : Faithful (readableFile file) trace) {ev : ReadEvent} (hev : ev ∈ trace)
    {k : Error} (hk : ev.failed = some k) : ∃ text, k = errorOfIoError text := by
  induction h with
  | nil => cases hev
  | failed h1 _ ih =>
    rcases List.mem_cons.1 hev with rfl | hev
    · simp only [readableFile] at h1
      split at h1 <;> cases h1
      cases hk; exact ⟨_, rfl⟩
    · exact ih hev
  | done h1 _ ih =>
    rcases List.mem_cons.1 hev with rfl | hev
    · cases hk
    · exact ih hev

/-- C75: whatever goes wrong when reading a file is reported by `new` as `IOError`, and `IOError` means that the last
read failed; without such a failure, the error is one of six others. -/
theorem file_io_error (hw : cfg.width = .w64) (file : OsFile) :
    (TypeInformation.new cfg (readableFile file) = .err .IOError ↔
      ∃ ev ∈ TypeInformation.newTrace cfg (readableFile file), ev.failed ≠ none) ∧
    (∀ k, TypeInformation.new cfg (readableFile file) = .err k → k = .IOError ∨
      k ∈ [ErrorKind.InvalidMagic, .InvalidTypeSectionOffset, .InvalidBTFKind, .InvalidStringOffset, .InvalidString,
        .InvalidOffset]) := by
  obtain ⟨h1, h2, h3⟩ := new_io_errors cfg (readableFile file)
  have hf : ∀ ev ∈ TypeInformation.newTrace cfg (readableFile file), ∀ k : Error, ev.failed = some k → k.kind = .IOError := by
    intro ev hev k hk
    obtain ⟨text, rfl⟩ := faithful_io h1 hev hk
    rfl
  refine ⟨⟨fun h => ?_, ?_⟩, fun k h => ?_⟩
  · rcases new_error_kinds cfg _ (.inl hw) _ h with ⟨e, -, ev, rest, he, hk⟩ | h
    · exact ⟨ev, by rw [he]; simp, by rw [hk]; simp⟩
    · simp at h
  · rintro ⟨ev, hev, hne⟩
    obtain ⟨k, hk⟩ := Option.ne_none_iff_exists'.1 hne
    rw [← hf ev hev k hk]
    exact new_of_newE (h3 ev k hev hk).1
  · rcases new_error_kinds cfg _ (.inl hw) _ h with ⟨e, rfl, ev, rest, he, hk⟩ | h
    · exact .inl (hf ev (by rw [he]; simp) e hk)
    · exact .inr h

/-- C75: the message is the text of the operating system's error for the last request, which is the only one that failed. -/
theorem file_io_text (hw : cfg.width = .w64) (file : OsFile) (text : Str) :
    TypeInformation.newE cfg (readableFile file) = .err ⟨.IOError, text⟩ ↔
      ∃ offset len history, TypeInformation.newTrace cfg (readableFile file) = ⟨offset, len, some ⟨.IOError, text⟩⟩ :: history ∧
        file.readExactAt history offset len = .error text ∧ ∀ ev ∈ history, ev.failed = none := by
  obtain ⟨h1, h2, h3⟩ := new_io_errors cfg (readableFile file)
  constructor
  · intro h
    obtain ⟨ev, hev, hne⟩ := (file_io_error hw file).1.1 (new_of_newE h)
    obtain ⟨k, hk⟩ := Option.ne_none_iff_exists'.1 hne
    obtain ⟨h4, old, h5, h6⟩ := h3 ev k hev hk
    rw [h] at h4
    cases h4
    obtain ⟨offset, len, failed⟩ := ev
    simp only at hk
    subst hk
    refine ⟨offset, len, old, h5, ?_, h6⟩
    rw [h5] at h1
    cases h1 with
    | failed h7 _ =>
      simp only [readableFile] at h7
      split at h7 <;> cases h7
      assumption
  · rintro ⟨offset, len, old, h5, -, -⟩
    exact (h3 _ _ (by rw [h5]; exact List.mem_cons_self) rfl).1

/-! ### Examples -/

/-- A file system with one file, which contains `f`. -/
def oneFile (f : List UInt8) : Os where
  openFile path := if path = "btf" then some ⟨fun _ offset len =>
    if offset + len ≤ f.length then .ok (fun i => f.getD (offset + i) 0)
      else .error (str "failed to fill whole buffer")⟩ else none

theorem contains_oneFile (f : List UInt8) :
    ∃ file, (oneFile f).openFile "btf" = some file ∧ Contains file f := by
  refine ⟨_, rfl, fun history offset len hl => ?_⟩
  split
  · refine ⟨_, if_pos ‹_›, fun i hi => ?_⟩
    rw [List.getD_eq_getElem?_getD, List.getElem?_eq_getElem (by omega)]
    rfl
  · exact ⟨_, if_neg ‹_›⟩

open Samples in
/-- `get_type_size_prints`, `get_type_offset_prints`: the programs on the file of `zoo`. -/
example :
    getTypeSize dbg (oneFile (leFile zooTypes zooStrings)) 9 ["get-type-size", "btf", "outer"] =
      ⟨[.opening "btf", .size "outer" 7 80], .returned⟩ ∧
    getTypeOffset dbg (oneFile (leFile zooTypes zooStrings)) 9 ["get-type-offset", "btf", "outer", "arr[2]"] =
      ⟨[.opening "btf", .offset "outer" "arr[2]" 1 (.byteOffset 32)], .returned⟩ ∧
    getTypeSize dbg (oneFile (leFile zooTypes zooStrings)) 9 ["get-type-size", "btf", "nobody"] =
      ⟨[.opening "btf"], .panicked⟩ ∧
    dumpBtf dbg (oneFile (leFile zooTypes zooStrings)) ["dump-btf", "btf"] =
      ⟨[.opening "btf", .types zoo.get], .returned⟩ ∧
    dumpBtf dbg (oneFile [1, 2, 3]) ["dump-btf", "btf"] = ⟨[.opening "btf"], .panicked⟩ := by decide +kernel

/-- `file_io_error`, `file_io_text`: the file ends too early. -/
example : ∃ file, (oneFile [0x9F, 0xEB, 1]).openFile "btf" = some file ∧
    TypeInformation.new Samples.dbg (readableFile file) = .err .IOError ∧
    TypeInformation.newE Samples.dbg (readableFile file) = .err ⟨.IOError, str "failed to fill whole buffer"⟩ ∧
    (TypeInformation.newTrace Samples.dbg (readableFile file)).map (fun ev => (ev.offset, ev.len)) = [(3, 1), (2, 1), (0, 2)] :=
  ⟨_, rfl, by decide +kernel, by decide +kernel, by decide +kernel⟩

end Btf.Props

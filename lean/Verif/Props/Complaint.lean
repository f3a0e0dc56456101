import Verif.Spec.Complaint
import Verif.Props.Examples
import Verif.Props.Message
import Verif.Props.LoadMessage
import Verif.Props.Debug
import Verif.Props.Declared

/-!
# Property C111: what the example programs say when they fail
-/

namespace Btf.Props

open Btf Spec Examples TypeInformation

variable {cfg : Cfg} {os : Os} {file : OsFile} {f : List UInt8} {prog path name typePath : String}

/-- The run without what is said. -/
def accountRun (a : Account) : Run :=
  ⟨a.printed, match a.close with
    | .returned => .returned
    | .panicked _ => .panicked
    | .nofuel => .nofuel⟩

theorem newE_cases (cfg : Cfg) (R : Readable) :
    (∃ ti, newE cfg R = .ok ti ∧ TypeInformation.new cfg R = .ok ti) ∨
    (∃ e, newE cfg R = .err e ∧ TypeInformation.new cfg R = .err e.kind) ∨
    (newE cfg R = .panic ∧ TypeInformation.new cfg R = .panic) ∨
    (newE cfg R = .nofuel ∧ TypeInformation.new cfg R = .nofuel) := by
  unfold newE TypeInformation.new
  cases newT cfg R with
  | ok ti => exact .inl ⟨ti, rfl, rfl⟩
  | err q => exact .inr (.inl ⟨q.error, rfl, by cases q <;> rfl⟩)
  | panic => exact .inr (.inr (.inl ⟨rfl, rfl⟩))
  | nofuel => exact .inr (.inr (.inr ⟨rfl, rfl⟩))

/-- C111: these are the programs of C71 to C74; only what they say when they panic is added. -/
theorem says_same (cfg : Cfg) (os : Os) (k : Nat) (args : List String) :
    accountRun (dumpBtfSays cfg os args) = dumpBtf cfg os args ∧
    accountRun (getTypeSizeSays cfg os k args) = getTypeSize cfg os k args ∧
    accountRun (getTypeOffsetSays cfg os k args) = getTypeOffset cfg os k args := by
  refine ⟨?_, ?_, ?_⟩
  · unfold dumpBtfSays dumpBtf
    split
    · rename_i prog path
      dsimp only
      cases os.openFile path with
      | none => rfl
      | some file =>
        simp only [insistSome, unwrapOption]
        rcases newE_cases cfg (readableFile file) with ⟨ti, h, h'⟩ | ⟨e, h, h'⟩ | ⟨h, h'⟩ | ⟨h, h'⟩ <;> rw [h, h'] <;> rfl
    · rename_i hargs
      split
      · exact absurd rfl (hargs _ _)
      · rfl
  · unfold getTypeSizeSays getTypeSize
    split
    · rename_i prog path name
      dsimp only
      cases os.openFile path with
      | none => rfl
      | some file =>
        simp only [insistSome, unwrapOption]
        rcases newE_cases cfg (readableFile file) with ⟨ti, h, h'⟩ | ⟨e, h, h'⟩ | ⟨h, h'⟩ | ⟨h, h'⟩ <;> rw [h, h'] <;> try rfl
        simp only [insist, unwrapThen]
        cases ti.idOf (str name) with
        | none => rfl
        | some t =>
          simp only
          rw [← (told_same cfg ti k t []).2.1]
          cases sizeOfT cfg ti k t <;> rfl
    · rename_i hargs
      split
      · exact absurd rfl (hargs _ _ _)
      · rfl
  · unfold getTypeOffsetSays getTypeOffset
    split
    · rename_i prog path name typePath
      dsimp only
      cases os.openFile path with
      | none => rfl
      | some file =>
        simp only [insistSome, unwrapOption]
        rcases newE_cases cfg (readableFile file) with ⟨ti, h, h'⟩ | ⟨e, h, h'⟩ | ⟨h, h'⟩ | ⟨h, h'⟩ <;> rw [h, h'] <;> try rfl
        simp only [insist, unwrapThen]
        cases ti.idOf (str name) with
        | none => rfl
        | some t =>
          simp only
          rw [← (told_same cfg ti k t (str typePath)).1]
          cases offsetOfT cfg ti k t (str typePath) <;> rfl
    · rename_i hargs
      split
      · exact absurd rfl (hargs _ _ _ _)
      · rfl

/-- C111: `dump-btf` complains about an error of the crate exactly if `new` fails with this error. -/
theorem dump_btf_complains (hopen : os.openFile path = some file) (e : Error) :
    dumpBtfSays cfg os [prog, path] = ⟨[.opening path], .panicked (.error 44 e)⟩ ↔ newE cfg (readableFile file) = .err e := by
  simp only [dumpBtfSays, hopen, insistSome]
  cases newE cfg (readableFile file) <;> simp [insist]

/-- C111: and if the file gives the same error for the same request, that error is about the first flaw of the file. -/
theorem dump_btf_first_flaw (hopen : os.openFile path = some file) (hf : Contains file f) (ht : FitsTarget cfg f)
    (hd : SameWords (readableFile file)) (e : Error) :
    dumpBtfSays cfg os [prog, path] = ⟨[.opening path], .panicked (.error 44 e)⟩ ↔
      ∃ q, FirstFlaw (readableFile file) f q ∧ LoadSays q e := by
  rw [dump_btf_complains hopen, new_first_flaw_iff (serves_file cfg hf) ht hd]

/-- C111: what `get-type-size` complains about, exactly: in this order, a file that cannot be opened; the error of `new`; a name
that is not known; the error of `size_of`; or an overflow. -/
theorem get_type_size_complains (os : Os) (c : Complaint) :
    EndsWith (fun k => getTypeSizeSays cfg os k [prog, path, name]) ⟨[.opening path], .panicked c⟩ ↔
      (os.openFile path = none ∧ c = .notOpened path) ∨
      ∃ file, os.openFile path = some file ∧
        ((∃ e, newE cfg (readableFile file) = .err e ∧ c = .error 46 e) ∨
         (TypeInformation.new cfg (readableFile file) = .panic ∧ c = .arithmetic) ∨
         ∃ ti, TypeInformation.new cfg (readableFile file) = .ok ti ∧
          ((ti.idOf (str name) = none ∧ c = .nothing 48) ∨
           ∃ t, ti.idOf (str name) = some t ∧
            ((∃ r, SizeReason ti t r ∧ c = .error 49 ⟨r.kind, r.message TypeVariant.debug⟩) ∨
             (SizeOf cfg ti t .panic ∧ c = .arithmetic)))) := by
  simp only [EndsWith, getTypeSizeSays]
  cases hopen : os.openFile path with
  | none => simp [insistSome, eq_comm]
  | some file =>
    simp only [insistSome, reduceCtorEq, false_and, false_or, Option.some.injEq, exists_eq_left', ne_eq, not_false_eq_true, true_and]
    rcases newE_cases cfg (readableFile file) with ⟨ti, h, h'⟩ | ⟨e, h, h'⟩ | ⟨h, h'⟩ | ⟨h, h'⟩ <;> rw [h, h']
    · simp only [insist, reduceCtorEq, false_and, exists_false, false_or, Res.ok.injEq, exists_eq_left']
      cases hid : ti.idOf (str name) with
      | none => simp [eq_comm]
      | some t =>
        simp only [reduceCtorEq, false_and, false_or, Option.some.injEq, exists_eq_left']
        constructor
        · rintro ⟨k, hk⟩
          cases hT : sizeOfT cfg ti k t with
          | ok n => rw [hT] at hk; simp [Told.result] at hk
          | err r =>
            rw [hT] at hk
            simp only [Told.result, Account.mk.injEq, Close.panicked.injEq, true_and] at hk
            exact .inl ⟨r, (size_of_reason cfg ti t r).1 ⟨k, hT⟩, hk.symm⟩
          | panic =>
            rw [hT] at hk
            simp only [Told.result, Account.mk.injEq, Close.panicked.injEq, true_and] at hk
            refine .inr ⟨⟨by simp, k, ?_⟩, hk.symm⟩
            change TypeInformation.sizeOf cfg ti k t = _
            rw [← (told_same cfg ti k t []).2.1, hT]
            rfl
          | nofuel => rw [hT] at hk; simp [Told.result] at hk
        · rintro (⟨r, hr, rfl⟩ | ⟨⟨-, k, hk⟩, rfl⟩)
          · obtain ⟨k, hk⟩ := (size_of_reason cfg ti t r).2 hr
            exact ⟨k, by rw [hk]; rfl⟩
          · refine ⟨k, ?_⟩
            change TypeInformation.sizeOf cfg ti k t = _ at hk
            rw [← (told_same cfg ti k t []).2.1] at hk
            cases hT : sizeOfT cfg ti k t <;> rw [hT] at hk <;> first | rfl | cases hk
    · simp [insist, eq_comm]
    · simp [insist, eq_comm]
    · simp [insist]

/-- C111: the same for `get-type-offset`. -/
theorem get_type_offset_complains (os : Os) (c : Complaint) :
    EndsWith (fun k => getTypeOffsetSays cfg os k [prog, path, name, typePath]) ⟨[.opening path], .panicked c⟩ ↔
      (os.openFile path = none ∧ c = .notOpened path) ∨
      ∃ file, os.openFile path = some file ∧
        ((∃ e, newE cfg (readableFile file) = .err e ∧ c = .error 47 e) ∨
         (TypeInformation.new cfg (readableFile file) = .panic ∧ c = .arithmetic) ∨
         ∃ ti, TypeInformation.new cfg (readableFile file) = .ok ti ∧
          ((ti.idOf (str name) = none ∧ c = .nothing 49) ∨
           ∃ t, ti.idOf (str name) = some t ∧
            ((∃ r, (∃ n, offsetOfT cfg ti n t (str typePath) = .err r) ∧
                c = .error 50 ⟨r.kind, r.message TypeVariant.debug⟩) ∨
             (OffsetOf cfg ti t (str typePath) .panic ∧ c = .arithmetic)))) := by
  simp only [EndsWith, getTypeOffsetSays]
  cases hopen : os.openFile path with
  | none => simp [insistSome, eq_comm]
  | some file =>
    simp only [insistSome, reduceCtorEq, false_and, false_or, Option.some.injEq, exists_eq_left', ne_eq, not_false_eq_true, true_and]
    rcases newE_cases cfg (readableFile file) with ⟨ti, h, h'⟩ | ⟨e, h, h'⟩ | ⟨h, h'⟩ | ⟨h, h'⟩ <;> rw [h, h']
    · simp only [insist, reduceCtorEq, false_and, exists_false, false_or, Res.ok.injEq, exists_eq_left']
      cases hid : ti.idOf (str name) with
      | none => simp [eq_comm]
      | some t =>
        simp only [reduceCtorEq, false_and, false_or, Option.some.injEq, exists_eq_left']
        constructor
        · rintro ⟨k, hk⟩
          cases hT : offsetOfT cfg ti k t (str typePath) with
          | ok n => rw [hT] at hk; simp [Told.result] at hk
          | err r =>
            rw [hT] at hk
            simp only [Told.result, Account.mk.injEq, Close.panicked.injEq, true_and] at hk
            exact .inl ⟨r, ⟨k, hT⟩, hk.symm⟩
          | panic =>
            rw [hT] at hk
            simp only [Told.result, Account.mk.injEq, Close.panicked.injEq, true_and] at hk
            refine .inr ⟨⟨by simp, k, ?_⟩, hk.symm⟩
            change offsetOf cfg ti k t (str typePath) = _
            rw [← (told_same cfg ti k t (str typePath)).1, hT]
            rfl
          | nofuel => rw [hT] at hk; simp [Told.result] at hk
        · rintro (⟨r, ⟨k, hk⟩, rfl⟩ | ⟨⟨-, k, hk⟩, rfl⟩)
          · exact ⟨k, by rw [hk]; rfl⟩
          · refine ⟨k, ?_⟩
            change offsetOf cfg ti k t (str typePath) = _ at hk
            rw [← (told_same cfg ti k t (str typePath)).1] at hk
            cases hT : offsetOfT cfg ti k t (str typePath) <;> rw [hT] at hk <;> first | rfl | cases hk
    · simp [insist, eq_comm]
    · simp [insist, eq_comm]
    · simp [insist]

/-! ### The text -/

theorem errorKind_text (k : ErrorKind) : k.debug = str (printedErrorKind k) := by cases k <;> rfl

theorem errorKind_plain (k : ErrorKind) : Plain k.debug := by
  cases k <;> unfold Plain <;> decide +kernel

theorem errorKind_inj (a b : ErrorKind) (h : a.debug = b.debug) : a = b := by
  revert h
  cases a <;> cases b <;> decide +kernel

/-- C111: the message of the panic tells the error: its kind and its text. -/
theorem complaint_determines {quote : Str → Str} (hq : Quoting quote) (os : String → Str) (overflow : Str) (l l' : Nat) (e e' : Error) :
    ((Complaint.error l e).text quote os overflow = (Complaint.error l' e').text quote os overflow → e = e') ∧
    (Complaint.error l e).text quote os overflow ≠ (Complaint.nothing l').text quote os overflow := by
  constructor
  · intro h
    have h := List.append_cancel_left h
    simp only [Error.debug, debugStruct, commas, List.map_cons, List.map_nil, List.flatMap_cons, List.flatMap_nil,
      List.append_assoc] at h
    have h := List.append_cancel_left (List.append_cancel_left (List.append_cancel_left (List.append_cancel_left h)))
    have hs : ∀ r : Str, Stop (str ", " ++ r) := fun r => by
      show stopByte _ = true
      decide +kernel
    obtain ⟨h1, h2⟩ := word_apart (errorKind_plain e.kind) (errorKind_plain e'.kind) _ _ (hs _) (hs _) h
    have h2 := List.append_cancel_left (List.append_cancel_left (List.append_cancel_left h2))
    simp only [List.nil_append] at h2
    have h2 := hq.apart _ _ (List.append_cancel_right h2)
    cases e; cases e'
    simp only at h1 h2
    rw [errorKind_inj _ _ h1, h2]
  · intro h
    have h := congrArg (List.take 10) h
    simp only [Complaint.text] at h
    rw [List.take_append_of_le_length (by decide +kernel)] at h
    revert h
    decide +kernel

theorem printedChar_unescaped (c : Char) (h : 32 ≤ c.toNat ∧ c.toNat < 127 ∧ c ≠ '"' ∧ c ≠ '\\') : printedChar c = c.toString := by
  obtain ⟨h1, h2, h3, h4⟩ := h
  have hc : c = Char.ofNat c.toNat := by simp
  rw [hc] at h3 h4 ⊢
  generalize c.toNat = n at *
  have key : ∀ n < 127, 32 ≤ n → Char.ofNat n ≠ '"' → Char.ofNat n ≠ '\\' → printedChar (Char.ofNat n) = (Char.ofNat n).toString := by
    decide +kernel
  exact key n h2 h1 h3 h4

/-- How quoting works for ordinary texts. -/
theorem quoted_unescaped {quote : Str → Str} (hq : Quoting quote) (s : String) (h : Unescaped s) :
    quote (str s) = str ("\"" ++ s ++ "\"") := by
  have key : ∀ l : List Char, (∀ c ∈ l, 32 ≤ c.toNat ∧ c.toNat < 127 ∧ c ≠ '"' ∧ c ≠ '\\') →
      l.flatMap String.utf8EncodeChar = l.map (fun c => UInt8.ofNat c.toNat) ∧
      (l.map (fun c => UInt8.ofNat c.toNat)).flatMap (fun b => str (printedChar (Char.ofNat b.toNat))) =
        l.flatMap String.utf8EncodeChar ∧ ∀ b ∈ l.map (fun c => UInt8.ofNat c.toNat), b.toNat < 128 := by
    intro l hl
    induction l with
    | nil => simp
    | cons c l ih =>
      obtain ⟨i1, i2, i3⟩ := ih fun d hd => hl d (by simp [hd])
      have hc := hl c (by simp)
      have h1 : (UInt8.ofNat c.toNat).toNat = c.toNat := by simp; omega
      have h2 : String.utf8EncodeChar c = [UInt8.ofNat c.toNat] := by
        have hb := (encode_byte (UInt8.ofNat c.toNat)).1 (by rw [h1]; omega)
        rw [h1] at hb
        simpa using hb
      refine ⟨by simp only [List.flatMap_cons, List.map_cons, i1, h2, List.cons_append, List.nil_append], ?_, ?_⟩
      · simp only [List.flatMap_cons, List.map_cons, i2, h1, Char.ofNat_toNat]
        rw [printedChar_unescaped c hc]
        simp [str]
      · intro b hb
        rw [List.map_cons] at hb
        rcases List.mem_cons.1 hb with rfl | hb
        · rw [h1]; omega
        · exact i3 b hb
  obtain ⟨k1, k2, k3⟩ := key s.toList h
  have hs : str s = latin1 (s.toList.map fun c => UInt8.ofNat c.toNat) := by
    rw [latin1_ascii k3]
    exact k1
  rw [hs, hq.latin1 _ _ .bytes, printedBytes, str_append, str_append, str_append, str_append, str_join, List.flatMap_map, k2]
  rfl

theorem unescaped_append {a b : String} (ha : Unescaped a) (hb : Unescaped b) : Unescaped (a ++ b) := by
  intro c hc
  rw [String.toList_append, List.mem_append] at hc
  exact hc.elim (ha c) (hb c)

instance (s : String) : Decidable (Unescaped s) := by unfold Unescaped; infer_instance

theorem unescaped_hex (w n : Nat) : Unescaped (hexText w n) := by
  have hd : ∀ d < 16, 32 ≤ (Nat.digitChar d).toUpper.toNat ∧ (Nat.digitChar d).toUpper.toNat < 127 ∧
      (Nat.digitChar d).toUpper ≠ '"' ∧ (Nat.digitChar d).toUpper ≠ '\\' := by decide +kernel
  have key : ∀ m, ∀ c ∈ (Nat.toDigits 16 m).map Char.toUpper, 32 ≤ c.toNat ∧ c.toNat < 127 ∧ c ≠ '"' ∧ c ≠ '\\' := by
    intro m
    induction m using Nat.strongRecOn with
    | _ m ih =>
      intro c hc
      by_cases h16 : m < 16
      · rw [Nat.toDigits_of_lt_base h16] at hc
        simp only [List.map_cons, List.map_nil, List.mem_singleton] at hc
        exact hc ▸ hd m h16
      · rw [Nat.toDigits_of_base_le (by decide) (show 16 ≤ m by omega), List.map_append, List.mem_append] at hc
        rcases hc with hc | hc
        · exact ih _ (Nat.div_lt_self (by omega) (by decide)) c hc
        · simp only [List.map_cons, List.map_nil, List.mem_singleton] at hc
          exact hc ▸ hd _ (Nat.mod_lt _ (by decide))
  intro c hc
  simp only [hexText, String.toList_ofList, List.mem_append, List.mem_replicate] at hc
  rcases hc with ⟨-, rfl⟩ | hc
  · decide
  · exact key n c hc

theorem loadText_unescaped {q : LoadReason} {k : ErrorKind} {text : String} (h : LoadText q k text) : Unescaped text := by
  cases h <;> first
    | decide +kernel
    | exact unescaped_append (unescaped_append (by decide +kernel) (unescaped_hex _ _)) (by decide +kernel)
    | exact unescaped_append (by decide +kernel) (unescaped_hex _ _)

/-- C111: the message of the panic, if nothing in the text of the error has to be escaped. -/
theorem complaint_text {quote : Str → Str} (hq : Quoting quote) (os : String → Str) (overflow : Str) (l : Nat) (k : ErrorKind)
    (text : String) (h : Unescaped text) :
    (Complaint.error l ⟨k, str text⟩).text quote os overflow =
      str s!"called `Result::unwrap()` on an `Err` value: Error \{ kind: {printedErrorKind k}, message: \"{text}\" }" := by
  simp only [Complaint.text, Error.debug, debugStruct, commas, List.map_cons, List.map_nil, List.flatMap_cons, List.flatMap_nil,
    quoted_unescaped hq text h, errorKind_text]
  simp only [str_append, str_string, List.append_assoc, List.append_nil]
  have h1 : str "called `Result::unwrap()` on an `Err` value: Error { kind: " =
      str "called `Result::unwrap()` on an `Err` value: " ++ (str "Error" ++ (str " { " ++ (str "kind" ++ str ": "))) := by
    decide +kernel
  have h2 : str ", message: \"" = str ", " ++ (str "message" ++ (str ": " ++ str "\"")) := by decide +kernel
  have h3 : str "\" }" = str "\"" ++ str " }" := by decide +kernel
  rw [h1, h2, h3]
  simp only [List.append_assoc]

/-- C111: the errors that `new` makes are shown like this. -/
theorem load_complaint {quote : Str → Str} (hq : Quoting quote) (os : String → Str) (overflow : Str) (l : Nat) {q : LoadReason}
    {k : ErrorKind} {text : String} (h : LoadText q k text) :
    (Complaint.error l ⟨k, str text⟩).text quote os overflow =
      str s!"called `Result::unwrap()` on an `Err` value: Error \{ kind: {printedErrorKind k}, message: \"{text}\" }" :=
  complaint_text hq os overflow l k text (loadText_unescaped h)

/-- A way of quoting as assumed. -/
theorem quoting_exists : Quoting debugString := ⟨fun _ _ h => debugString_printer.inj h, fun _ _ h => text_string h⟩

open Samples in
/-- A wrong magic, an unknown name, an unknown member, a path to nowhere, a file that is not there. -/
example :
    dumpBtfSays dbg (oneFile [1, 2, 3, 4]) ["dump-btf", "btf"] =
      ⟨[.opening "btf"], .panicked (.error 44 ⟨.InvalidMagic, str "Invalid magic number: 0x0201"⟩)⟩ ∧
    getTypeSizeSays dbg (oneFile (leFile zooTypes zooStrings)) 9 ["get-type-size", "btf", "nobody"] =
      ⟨[.opening "btf"], .panicked (.nothing 48)⟩ ∧
    getTypeOffsetSays dbg (oneFile (leFile zooTypes zooStrings)) 9 ["get-type-offset", "btf", "outer", "nope"] =
      ⟨[.opening "btf"], .panicked (.error 50 ⟨.InvalidTypePath, str "Member 'nope' not found"⟩)⟩ ∧
    getTypeOffsetSays dbg (oneFile (leFile zooTypes zooStrings)) 9 ["get-type-offset", "btf", "outer", "arr[10]"] =
      ⟨[.opening "btf"], .panicked (.error 50 ⟨.InvalidTypePath, str "Index 10 is out of bounds " ++ str "for array of size 10"⟩)⟩ ∧
    dumpBtfSays dbg (oneFile []) ["dump-btf", "bft"] = ⟨[.opening "bft"], .panicked (.notOpened "bft")⟩ := by
  refine ⟨?_, ?_, ?_, ?_, ?_⟩ <;> decide +kernel

/-- What is said about the wrong magic. -/
example : (Complaint.error 44 ⟨.InvalidMagic, str "Invalid magic number: 0x0201"⟩).text debugString (fun _ => []) [] =
    str ("called `Result::unwrap()` on an `Err` value: Error { kind: InvalidMagic, message: \"Invalid magic number: 0x0201\" }") :=
  load_complaint (q := .invalidMagic 0x0201) (k := .InvalidMagic) (text := "Invalid magic number: 0x0201") quoting_exists _ _ _
    (by
      have : "Invalid magic number: 0x0201" = "Invalid magic number: 0x" ++ hexText 4 (0x0201 : UInt16).toNat := by decide +kernel
      rw [this]
      exact .magic)

end Btf.Props

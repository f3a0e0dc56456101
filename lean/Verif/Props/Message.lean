import Verif.Proofs.MessageRun
import Verif.Proofs.MessageText
import Verif.Spec.WellFormed
import Verif.SamplesWF

/-!
# C82: error messages
-/

namespace Btf.Props

open Btf Spec TypeInformation

/-- The queries with reasons are the queries of the model: they return, fail, panic or run on alike, and the reasons have
the kinds of the errors. -/
theorem told_same (cfg : Cfg) (ti : TypeInformation) (n : Nat) (t : UInt32) (s : Str) :
    (offsetOfT cfg ti n t s).outcome = offsetOf cfg ti n t s ∧ (sizeOfT cfg ti n t).outcome = TypeInformation.sizeOf cfg ti n t ∧
      (pointeeTidT ti n t).outcome = pointeeTid ti n t :=
  ⟨offsetOfImplT_outcome _ _ _ _ _ _, sizeOfT_outcome _ _ _ _, pointeeTidT_outcome _ _ _⟩

theorem steps_of_reason {cfg : Cfg} {ti : TypeInformation} {n : Nat} {t : UInt32} {s : String} {r : Reason}
    (h : offsetOfT cfg ti n t (str s) = .err r) :
    ∃ pre u it p, Steps cfg (PathIter.new (str s)) pre it ∧ Read cfg (str s) pre it p ∧ Walk cfg ti ⟨t, 0, none⟩ pre u ∧
      ((∃ c it', it.nextT cfg = (.ok (some c), it') ∧ Explains cfg ti u c r) ∨ (it.nextT cfg).1 = .err r) := by
  obtain ⟨pre, u, it, h1, h2, h3⟩ := offsetOfImplT_err h
  obtain ⟨p, hp⟩ := steps_read h1 (read_new (cfg := cfg) (utf8Like_str s))
  exact ⟨pre, u, it, p, h1, hp, h2, h3⟩

/-- **C82.** The reason `offset_of` gives is true: the path starts with components that can be followed, and either the
next one cannot be applied to the type reached, for the reason given, or there the text of the path is wrong, for the
reason given. -/
theorem offset_of_reason (cfg : Cfg) (ti : TypeInformation) (n : Nat) (t : UInt32) (s : String) (r : Reason)
    (h : offsetOfT cfg ti n t (str s) = .err r) :
    (∃ pre c u, Begins cfg.usizeMod (str s) (pre ++ [c]) ∧ Walk cfg ti ⟨t, 0, none⟩ pre u ∧ Explains cfg ti u c r) ∨
    (∃ pre u, Begins cfg.usizeMod (str s) pre ∧ Walk cfg ti ⟨t, 0, none⟩ pre u ∧ PathReason cfg.usizeMod (str s) r) := by
  obtain ⟨pre, u, it, p, h1, hp, h2, h3⟩ := steps_of_reason h
  rcases h3 with ⟨c, it', hn, he⟩ | hn
  · obtain ⟨p', hp'⟩ := read_step hp hn
    exact .inl ⟨pre, c, u, begins_of_read hp', h2, he⟩
  · exact .inr ⟨pre, u, begins_of_read hp, h2, pathReason_of_fault hp (nextT_err_state hn) (nextT_err hp.notInside hn)⟩

/-- **C82.** If the path is accepted, the reason is about one of its components. -/
theorem offset_of_reason_accepted (cfg : Cfg) (ti : TypeInformation) (n : Nat) (t : UInt32) (s : String)
    (cs : List PathComponent) (r : Reason) (hs : AcceptedPath cfg.usizeMod (str s) cs)
    (h : offsetOfT cfg ti n t (str s) = .err r) :
    ∃ pre c post u, cs = pre ++ c :: post ∧ Walk cfg ti ⟨t, 0, none⟩ pre u ∧ Explains cfg ti u c r := by
  obtain ⟨pre, u, it, p, h1, hp, h2, h3⟩ := steps_of_reason h
  obtain ⟨cs', rfl, hy⟩ := steps_yields h1 ((yields_iff cfg (utf8Like_str s) cs).2 hs)
  rcases h3 with ⟨c, it', hn, he⟩ | hn
  · obtain ⟨cs'', rfl, _⟩ := steps_yields (.step hn .refl) hy
    exact ⟨pre, c, cs'', u, rfl, h2, he⟩
  · exfalso
    have hn' : (it.next cfg).1 = .err r.kind := by
      rw [← nextT_outcome]
      show (it.nextT cfg).1.outcome = _
      rw [hn]; rfl
    generalize hb : true = b at hy
    cases hy with
    | stop h => rw [hn'] at h; cases h
    | fail => cases hb
    | tok h _ => rw [h] at hn'; cases hn'

/-- **C82.** Two of the messages are never given. -/
theorem offset_of_never (cfg : Cfg) (ti : TypeInformation) (n : Nat) (t : UInt32) (s : String) :
    offsetOfT cfg ti n t (str s) ≠ .err .expectedName ∧ offsetOfT cfg ti n t (str s) ≠ .err (.invalidIndexValue false) := by
  have size : ∀ {t r}, SizeReason ti t r → r ≠ .expectedName ∧ r ≠ .invalidIndexValue false := by
    intro t r h; cases h <;> simp
  have add : ∀ {a w b w' r}, AddReason a w b w' r → r ≠ .expectedName ∧ r ≠ .invalidIndexValue false := by
    intro a w b w' r h; cases h <;> simp
  have expl : ∀ {t c r}, Explains cfg ti t c r → r ≠ .expectedName ∧ r ≠ .invalidIndexValue false := by
    intro t c r h
    cases h with
    | elementSize _ _ h => exact size h
    | elementPlace _ _ _ _ h => exact add h
    | memberPlace _ _ _ _ h => exact add h
    | unnamedPlace _ _ _ _ h => exact add h
    | _ => simp
  have path : ∀ {s r}, PathReason cfg.usizeMod s r → r ≠ .expectedName ∧ r ≠ .invalidIndexValue false := by
    intro s r h; cases h <;> simp
  constructor
  · intro h
    rcases offset_of_reason cfg ti n t s _ h with ⟨_, _, _, _, _, he⟩ | ⟨_, _, _, _, he⟩
    · exact (expl he).1 rfl
    · exact (path he).1 rfl
  · intro h
    rcases offset_of_reason cfg ti n t s _ h with ⟨_, _, _, _, _, he⟩ | ⟨_, _, _, _, he⟩
    · exact (expl he).2 rfl
    · exact (path he).2 rfl

/-- **C82.** `size_of` gives a reason exactly if it is the reason for which the type has no size. -/
theorem size_of_reason (cfg : Cfg) (ti : TypeInformation) (t : UInt32) (r : Reason) :
    (∃ n, sizeOfT cfg ti n t = .err r) ↔ SizeReason ti t r := sizeOfT_err_iff

/-- **C82.** `pointee_tid` gives a reason exactly if it is the reason for which there is no pointee. -/
theorem pointee_tid_reason (ti : TypeInformation) (t : UInt32) (r : Reason) :
    (∃ n, pointeeTidT ti n t = .err r) ↔ PointeeReason ti t r := pointeeTidT_err_iff

/-- **C82.** The messages have the texts of the table. -/
theorem message_text (debug : TypeVariant → String) (r : Reason) (x : String) (h : Text debug r x) :
    r.message (fun v => str (debug v)) = str x := by
  have num : ∀ n : Nat, str (toString n) = Reason.decimal n := fun _ => rfl
  cases h <;> first
    | rfl
    | (simp only [Reason.message, str_append, ← num]; rfl)

/-- **C82.** A text belongs to one reason only: whoever reads the message knows the reason (up to types that are printed
alike). -/
theorem message_unique (debug : TypeVariant → Str) (r r' : Reason) (h : r.message debug = r'.message debug) :
    r = r' ∨ ∃ v w, r = .notSized v ∧ r' = .notSized w ∧ debug v = debug w := by
  by_cases hr : ∃ w, r' = .notSized w
  · obtain ⟨w, rfl⟩ := hr
    cases r with
    | notSized v =>
      simp only [Reason.message] at h
      exact .inr ⟨v, w, rfl, rfl, List.append_cancel_left (List.append_cancel_right h)⟩
    | _ => exact .inl (message_inj' h.symm (by simp)).symm
  · exact .inl (message_inj' h fun w hw => hr ⟨w, hw⟩)

/-- **C82.** "Invalid character at index I": the byte at index I (counted from 0) is the first that is wrong. -/
theorem offset_of_says_character (cfg : Cfg) (ti : TypeInformation) (n : Nat) (t : UInt32) (s : String) (r : Reason)
    (debug : TypeVariant → Str) (i : Nat) (h : offsetOfT cfg ti n t (str s) = .err r)
    (hm : r.message debug = str s!"Invalid character at index {i}") :
    i < (str s).length ∧ (∃ limit more cs, Path limit ((str s).take i ++ more) cs) ∧
      ∀ more cs, ¬ AcceptedPath cfg.usizeMod ((str s).take (i + 1) ++ more) cs := by
  have hr : r = .invalidCharacter i := by
    have hm' : r.message debug = (Reason.invalidCharacter i).message debug := by
      rw [hm, str_append]; rfl
    exact message_inj' hm' (by simp)
  subst hr
  rcases offset_of_reason cfg ti n t s _ h with ⟨_, _, _, _, _, he⟩ | ⟨_, _, _, _, he⟩
  · exfalso
    have add : ∀ {a w b w' r}, AddReason a w b w' r → r ≠ .invalidCharacter i := by
      intro a w b w' r h; cases h <;> simp
    cases he with
    | elementSize _ _ h => cases h
    | elementPlace _ _ _ _ h => exact add h rfl
    | memberPlace _ _ _ _ h => exact add h rfl
    | unnamedPlace _ _ _ _ h => exact add h rfl
  · cases he with
    | character h1 h2 h3 => exact ⟨h1, h2, h3⟩

/-- **C82.** "Index I is out of bounds for array of size N": a part of the path leads to an array of N elements, I is at
least N, and the path goes on with `[I]`. -/
theorem offset_of_says_bounds (cfg : Cfg) (ti : TypeInformation) (n : Nat) (t : UInt32) (s : String) (r : Reason)
    (debug : TypeVariant → Str) (i k : Nat) (hk : k < 2 ^ 32) (h : offsetOfT cfg ti n t (str s) = .err r)
    (hm : r.message debug = str s!"Index {i} is out of bounds for array of size {k}") :
    ∃ pre q hd d, Begins cfg.usizeMod (str s) (pre ++ [.index i]) ∧ Walk cfg ti ⟨t, 0, none⟩ pre q ∧
      Resolves ti q.type (.array hd d) ∧ d.elementCount.toNat = k ∧ k ≤ i := by
  have hr : r = .indexOutOfBounds i (UInt32.ofNat k) := by
    have hm' : r.message debug = (Reason.indexOutOfBounds i (UInt32.ofNat k)).message debug := by
      rw [hm, str_append, str_append, str_append, Reason.message]
      simp only [Reason.decimal, UInt32.toNat_ofNat', Nat.mod_eq_of_lt hk, List.append_assoc]
      rfl
    exact message_inj' hm' (by simp)
  subst hr
  rcases offset_of_reason cfg ti n t s _ h with ⟨pre, c, q, hb, hw, he⟩ | ⟨_, _, _, _, he⟩
  · have add : ∀ {a w b w' r}, AddReason a w b w' r → r ≠ .indexOutOfBounds i (UInt32.ofNat k) := by
      intro a w b w' r h; cases h <;> simp
    generalize hu : UInt32.ofNat k = u at he
    cases he with
    | elementSize _ _ h => cases h
    | elementPlace _ _ _ _ h => rw [← hu] at h; exact absurd rfl (add h)
    | memberPlace _ _ _ _ h => rw [← hu] at h; exact absurd rfl (add h)
    | unnamedPlace _ _ _ _ h => rw [← hu] at h; exact absurd rfl (add h)
    | @bounds hd d _ h1 h2 =>
      have : d.elementCount.toNat = k := by rw [← hu]; simp; omega
      exact ⟨pre, q, hd, d, hb, hw, h1, this, this ▸ h2⟩
  · cases he

/-- **C82.** "Member 'X' not found": a part of the path leads to a struct or union of which no member has the name X, and
the path goes on with X. -/
theorem offset_of_says_member (cfg : Cfg) (ti : TypeInformation) (n : Nat) (t : UInt32) (s : String) (r : Reason)
    (debug : TypeVariant → Str) (x : String) (h : offsetOfT cfg ti n t (str s) = .err r)
    (hm : r.message debug = str s!"Member '{x}' not found") :
    ∃ pre q v ms, Begins cfg.usizeMod (str s) (pre ++ [.name (str x)]) ∧ Walk cfg ti ⟨t, 0, none⟩ pre q ∧
      Resolves ti q.type v ∧ membersOf v = some ms ∧ ∀ m ∈ ms, m.name ≠ some (str x) := by
  have hr : r = .memberNotFound (str x) := by
    have hm' : r.message debug = (Reason.memberNotFound (str x)).message debug := by
      rw [hm, str_append, str_append]; rfl
    exact message_inj' hm' (by simp)
  subst hr
  rcases offset_of_reason cfg ti n t s _ h with ⟨pre, c, q, hb, hw, he⟩ | ⟨_, _, _, _, he⟩
  · have add : ∀ {a w b w' r}, AddReason a w b w' r → r ≠ .memberNotFound (str x) := by
      intro a w b w' r h; cases h <;> simp
    generalize hu : str x = u at he
    cases he with
    | elementSize _ _ h => cases h
    | elementPlace _ _ _ _ h => rw [← hu] at h; exact absurd rfl (add h)
    | memberPlace _ _ _ _ h => rw [← hu] at h; exact absurd rfl (add h)
    | unnamedPlace _ _ _ _ h => rw [← hu] at h; exact absurd rfl (add h)
    | noMember h1 h2 h3 => exact ⟨pre, q, _, _, hb, hw, h1, h2, h3⟩
  · cases he

open Samples

/-- **C82**, what does not hold: "Member 'b' not found" does not mean that there is no such member. In `zoo`, `b` is
a member of type 7 (inside an unnamed union), but `b.nosuch` is answered with that message. -/
theorem member_not_found_refuted :
    ∃ (ti : TypeInformation) (t : UInt32) (u : UInt32), offsetOf dbg ti 9 t (str "b") = .ok (u, .byteOffset 8) ∧
      Access ti t [.name (str "b")] u 64 none ∧
      offsetOfT dbg ti 9 t (str "b.nosuch") = .err (.memberNotFound (str "b")) := by
  refine ⟨zoo, 7, 3, by decide +kernel, ?_, by decide +kernel⟩
  exact Access.anonymous (bits := 0) ⟨7, .refl, rfl, rfl⟩ rfl (m := ⟨0, none, 6, .byteOffset 8⟩) (by simp) rfl rfl
    (Access.member (bits := 0) ⟨6, .refl, rfl, rfl⟩ rfl (m := ⟨33, some (str "b"), 3, .byteOffset 0⟩) (by simp) rfl rfl .here)

namespace Examples

/-- The messages of `zoo` and `bad`, `debug` being left open. -/
def told {α : Type} (debug : TypeVariant → Str) : Told α → Option (ErrorKind × Str)
  | .err r => some (r.kind, r.message debug)
  | _ => none

variable (debug : TypeVariant → Str)

example : told debug (offsetOfT dbg zoo 9 7 (str "x y")) = some (.InvalidTypePath, str "Invalid character at index 1") :=
  congrArg (told debug) (by decide +kernel : _ = Told.err (.invalidCharacter 1))
example : told debug (offsetOfT dbg zoo 9 7 (str "arr[1")) = some (.InvalidTypePath, str "Unclosed index bracket") :=
  congrArg (told debug) (by decide +kernel : _ = Told.err .unclosedIndex)
example : told debug (offsetOfT dbg zoo 9 7 (str "arr[]")) = some (.InvalidTypePath, str "Empty index") :=
  congrArg (told debug) (by decide +kernel : _ = Told.err .emptyIndex)
example : told debug (offsetOfT dbg zoo 9 7 (str "arr[18446744073709551616]"))
    = some (.InvalidTypePath, str "Invalid index value: ParseIntError { kind: PosOverflow }") :=
  congrArg (told debug) (by decide +kernel : _ = Told.err (.invalidIndexValue true))
example : told debug (offsetOfT dbg zoo 9 7 (str "arr[10]"))
    = some (.InvalidTypePath, str "Index 10 is out of bounds for array of size 10") :=
  congrArg (told debug) (by decide +kernel : _ = Told.err (.indexOutOfBounds 10 10))
example : told debug (offsetOfT dbg zoo 9 7 (str "head.next[0]"))
    = some (.InvalidTypePath, str "Type is a ptr, and dereferencing it would require a read operation") :=
  congrArg (told debug) (by decide +kernel : _ = Told.err .ptrNotIndexable)
example : told debug (offsetOfT dbg zoo 9 7 (str "x[0]")) = some (.InvalidTypePath, str "Type is not indexable") :=
  congrArg (told debug) (by decide +kernel : _ = Told.err .typeNotIndexable)
example : told debug (offsetOfT dbg zoo 9 7 (str "x.y")) = some (.InvalidTypePath, str "Type is not a struct or union") :=
  congrArg (told debug) (by decide +kernel : _ = Told.err .notStructOrUnion)
example : told debug (offsetOfT dbg zoo 9 7 (str "z")) = some (.InvalidTypePath, str "Member 'z' not found") :=
  congrArg (told debug) (by decide +kernel : _ = Told.err (.memberNotFound (str "z")))
example : told debug (offsetOfT dbg zoo 9 12 (str "a"))
    = some (.InvalidTypePath, str "The void type can't be dereferenced with a path") :=
  congrArg (told debug) (by decide +kernel : _ = Told.err .voidDereference)
example : told debug (offsetOfT dbg bad 9 6 (str "a")) = some (.InvalidTypeID, str "Invalid type id") :=
  congrArg (told debug) (by decide +kernel : _ = Told.err .invalidTypeId)
example : told debug (offsetOfT dbg bad 9 7 (str "g"))
    = some (.UnexpectedBitfield, str "Attempted to add a byte offset to a bitfield") :=
  congrArg (told debug) (by decide +kernel : _ = Told.err .bitfield)
example : told debug (sizeOfT dbg zoo 9 12) = some (.NotSized, str "Type " ++ debug (.fwd ⟨.Fwd, 56, 0, false, 0⟩ ⟨some (str "fwd"), 0⟩)
    ++ str " has no size") :=
  congrArg (told debug) (by decide +kernel : _ = Told.err (.notSized (.fwd ⟨.Fwd, 56, 0, false, 0⟩ ⟨some (str "fwd"), 0⟩)))
example : told debug (pointeeTidT zoo 9 2) = some (.InvalidTypeID, str "Type is not a pointer") :=
  congrArg (told debug) (by decide +kernel : _ = Told.err .notAPointer)

/-- `offset_of_reason_accepted`: an accepted path that fails at its second component. -/
example : AcceptedPath dbg.usizeMod (str "arr[10]") [.name (str "arr"), .index 10] ∧
    offsetOfT dbg zoo 9 7 (str "arr[10]") = .err (.indexOutOfBounds 10 10) ∧
    Walk dbg zoo ⟨7, 0, none⟩ [.name (str "arr")] ⟨5, 192, none⟩ ∧
    Explains dbg zoo ⟨5, 192, none⟩ (.index 10) (.indexOutOfBounds 10 10) :=
  ⟨(yields_iff dbg (utf8Like_str _) _).1 (.tok rfl (.tok rfl (.stop rfl))), by decide +kernel,
    .member (pre := [⟨41, some (str "x"), 1, .byteOffset 0⟩, ⟨0, none, 6, .byteOffset 8⟩]) ⟨7, .refl, rfl, rfl⟩ rfl rfl
      (by decide +kernel) .here,
    .bounds (hd := ⟨.Array, 0, 0, false, 0⟩) (d := ⟨1, 1, 10⟩) ⟨5, .refl, rfl, rfl⟩ (by decide)⟩

/-- Members far away: `a` of type 2 is at the last byte of 4 GiB and is a struct with `p` at byte 1 and the bitfields `q`
and `r`; `b` is at the last byte of 512 MiB. -/
def far : TypeInformation where
  idToType := ⟨[
    (1, .int ⟨.Int, 0, 0, false, 4⟩ ⟨some (str "int"), 4, false, false, false, 0, 32⟩),
    (2, .struct ⟨.Struct, 0, 2, true, 4⟩ ⟨none, 4, [⟨0, some (str "a"), 3, .byteOffset 0xffffffff⟩,
      ⟨0, some (str "b"), 3, .byteOffset 0x1fffffff⟩]⟩),
    (3, .struct ⟨.Struct, 0, 3, true, 4⟩ ⟨none, 4, [⟨0, some (str "p"), 1, .byteOffset 1⟩,
      ⟨0, some (str "q"), 1, .bitOffsetAndSize 8 4⟩, ⟨0, some (str "r"), 1, .bitOffsetAndSize 4 4⟩]⟩)]⟩
  nameToId := ⟨[]⟩
  idToName := ⟨[]⟩

example : told debug (offsetOfT dbg far 9 2 (str "a.p")) = some (.InvalidOffset, str "Byte offset addition overflow") :=
  congrArg (told debug) (by decide +kernel : _ = Told.err .byteOffsetOverflow)
example : told debug (offsetOfT dbg far 9 2 (str "a.q")) = some (.InvalidOffset, str "Bit offset multiplication overflow") :=
  congrArg (told debug) (by decide +kernel : _ = Told.err .bitOffsetMultiplication)
example : told debug (offsetOfT dbg far 9 2 (str "b.q")) = some (.InvalidOffset, str "Bit offset addition overflow") :=
  congrArg (told debug) (by decide +kernel : _ = Told.err .bitOffsetAddition)
example : offsetOfT dbg far 9 2 (str "b.r") = .ok (1, .bitOffsetAndSize 0xfffffffc 4) := by decide +kernel

/-- `offset_of_says_character`, `offset_of_says_bounds`, `offset_of_says_member`: all three messages occur. -/
example : (∃ r, offsetOfT dbg zoo 9 7 (str "x y") = .err r ∧ r.message debug = str s!"Invalid character at index {1}") ∧
    (∃ r, offsetOfT dbg zoo 9 7 (str "arr[10]") = .err r ∧
      r.message debug = str s!"Index {10} is out of bounds for array of size {10}") ∧
    (∃ r, offsetOfT dbg zoo 9 7 (str "z") = .err r ∧ r.message debug = str s!"Member '{"z"}' not found") :=
  ⟨⟨.invalidCharacter 1, by decide +kernel, by simp only [Reason.message]; decide +kernel⟩,
    ⟨.indexOutOfBounds 10 10, by decide +kernel, by simp only [Reason.message]; decide +kernel⟩,
    ⟨.memberNotFound (str "z"), by decide +kernel, by simp only [Reason.message]; decide +kernel⟩⟩

end Examples

end Btf.Props

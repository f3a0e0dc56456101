import Verif.Props.Obstacle
import Verif.Props.Short
import Verif.Props.Cache
import Verif.Props.Renumber
import Verif.Props.Compose
import Verif.Props.Disjoint
import Verif.Props.Builds
import Verif.Props.Parsed
import Verif.Props.Queries
import Verif.Props.Offset
import Verif.Props.Path
import Verif.Props.Parse
import Verif.Props.Debug
import Verif.Props.Cost
import Verif.SamplesWF

/-!
# The theorems about queries, applied

Each example applies a theorem of the manifest to a concrete case, whose hypotheses are proved on the spot. (Theorems that
are applied to a case in their own file are not repeated here.)
-/

set_option autoImplicit false

namespace Btf.Props.Witness

open Btf Spec TypeInformation Samples Examples

/-! ### Offsets and paths -/

/-- `accumulate_perm`. -/
example : addAll (.byteOffset 8) [1, 2, 3] = addAll (.byteOffset 8) [3, 1, 2] := accumulate_perm 8 _ _ (by decide)

/-- `path_language_partial`: `a.b[3]` ends neither with a dot nor with a bracket. -/
example : Yields dbg (PathIter.new (str "a.b[3]")) [.name (str "a"), .name (str "b"), .index 3] true :=
  (path_language_partial dbg "a.b[3]" _ (by decide +kernel) (by decide +kernel)).2 sample_path

/-- `path_dangling_open_accepted`. -/
example : Yields dbg (PathIter.new (str ("x" ++ "["))) [.name (str "x")] true :=
  (path_dangling_open_accepted dbg "x" _ _ rfl sample_x).1

/-- `path_consumed_partial`: of `x.` the dot is not consumed. -/
example : ∃ p tail, str "x." = p ++ tail ∧ Path dbg.usizeMod p [.name (str "x")] ∧ (tail = [] ∨ tail = [46] ∨ tail = [91]) :=
  path_consumed_partial dbg "x." _ (.tok rfl (.stop rfl))

/-- `path_never_panics`: in the middle of `a.b[3]`. -/
example := path_never_panics dbg "a.b[3]" _ (.step (.step .refl))

theorem digits {s : Str} (h : s.all (fun b => 48 ≤ b.toNat && b.toNat ≤ 57) = true) : ∀ d ∈ s, Digit d := by
  simpa [Digit] using h

theorem index_9 : IsIndex dbg.usizeMod (str "9") 9 := ⟨by decide +kernel, digits (by decide +kernel), by decide +kernel, by decide +kernel⟩

/-- `index_literal`: a number, and something else. -/
example : (PathIter.next dbg (PathIter.new ([91] ++ str "9" ++ [93]))).1 = .ok (some (.index 9)) :=
  ((index_literal dbg "9" (by decide +kernel)).1 9).2 (index_9)

/-- `breaks_unique`. -/
example (cs : List PathComponent) (h : Breaks dbg.usizeMod (str "arr[10]]") cs) : cs = [.name (str "arr"), .index 10] :=
  breaks_unique dbg _ _ _ h sample_broken

/-- `offset_of_rejects`. -/
example (ti : TypeInformation) (t : UInt32) (r : UInt32 × Offset) : ¬ OffsetOf dbg ti t (str "arr[10]]") (.ok r) :=
  offset_of_rejects dbg ti t "arr[10]]" sample_broken.2.2 r

/-! ### Sizes and pointers -/

theorem outer_size : HasSize none zoo 7 80 := zoo_sized (by decide)

/-- `size_of_no_wrong_number_partial`. -/
example : HasSize none zoo 7 80 := (size_of_no_wrong_number_partial dbg zoo 7 80 80 ⟨by simp, 9, by decide +kernel⟩).1 rfl

/-- `size_of_exact`. -/
example : Returns (fun k => TypeInformation.sizeOf dbg zoo k 1) (.ok 4) :=
  (size_of_exact dbg zoo 1 4 (.own (v := .int ⟨.Int, 1, 0, false, 4⟩ ⟨some (str "int"), 4, true, false, false, 0, 32⟩)
    (by decide +kernel) rfl) _).2 rfl

/-- `size_of_err_kinds`: a forward declaration. -/
example : ErrorKind.NotSized = .InvalidTypeID ∨ ErrorKind.NotSized = .NotSized :=
  size_of_err_kinds dbg zoo 12 _ ⟨by simp, 9, by decide +kernel⟩

/-- `queries_return_of_ranked_partial`: in `zoo` types refer to types with smaller numbers. -/
example (t : UInt32) : ∃ o, Returns (fun k => TypeInformation.sizeOf dbg zoo k t) o :=
  (queries_return_of_ranked_partial dbg zoo UInt32.toNat (fun t v u hv hu => by
    have := zoo_all (fun t v => match sizeRef v with | some u => decide (u.toNat < t.toNat) | none => true) (by decide +kernel) hv
    rw [hu] at this
    simpa using this) t).1

/-- `pointee_tid_depth`, `pointee_tid_diverges_iff_cycle`. -/
example : pointeeTid zoo (zoo.get.length + 1) 11 = .ok 8 :=
  pointee_tid_depth (addressable_of_target (serves _ (by decide +kernel)) (fits _)) zoo_parsed 11 _ ⟨by simp, 9, by decide +kernel⟩
example : Diverges (fun k => pointeeTid bad k 1) :=
  (pointee_tid_diverges_iff_cycle (addressable_of_target (serves _ (by decide +kernel)) (fits _)) bad_parsed 1).2
    ⟨1, .refl, .single ⟨_, bad_1, rfl⟩⟩

theorem bad_sizes {t : UInt32} {v : TypeVariant} (h : bad.fromId t = some v) : ∀ n, ownSize v = some n → n < 2 ^ 32 := by
  have := List.all_eq_true.1 (by decide +kernel : (entries bad).all (fun e => match ownSize e.2 with
    | some n => decide (n < 2 ^ 32) | none => true) = true) _ (mem_entries h)
  intro n hn
  rw [hn] at this
  simpa using this

/-- `size_of_alias`, `type_tag_transparent_partial`, `type_tag_opaque`. -/
example (o : Outcome Nat) : Props.SizeOf dbg zoo 8 o ↔ Props.SizeOf dbg zoo 7 o :=
  size_of_alias dbg zoo 8 7 (.const ⟨.Const, 0, 0, false, 7⟩ ⟨7⟩) (by decide +kernel) rfl o
example (o : Outcome Nat) : Props.SizeOf dbg zoo 9 o ↔ Props.SizeOf dbg zoo 7 o :=
  type_tag_transparent_partial dbg zoo 9 ⟨.TypeTag, 52, 0, false, 7⟩ ⟨some (str "tag"), 7⟩ (by decide +kernel) o
example : OffsetOf dbg zoo 9 (str "x") (.err .InvalidTypePath) :=
  (type_tag_opaque dbg zoo 9 9 ⟨.TypeTag, 52, 0, false, 7⟩ ⟨some (str "tag"), 7⟩ "x" (by decide +kernel)).2 .refl (by decide)

/-! ### Lookups -/

/-- `offset_of_index_bounds`, `offset_of_index_err`. -/
example : OffsetOf dbg zoo 5 ([91] ++ str "10" ++ [93]) (.err .InvalidTypePath) :=
  offset_of_index_bounds dbg zoo 5 _ _ "10" 10 zoo_5 ⟨by decide +kernel, digits (by decide +kernel), by decide +kernel, by decide +kernel⟩ (by decide)

/-- `offset_of_alias_chain`. -/
example : OffsetOf dbg zoo 8 (str "x") (.ok (1, .byteOffset 0)) :=
  (offset_of_alias_chain dbg zoo 8 7 "x" (by decide)
    (.step (v := .const ⟨.Const, 0, 0, false, 7⟩ ⟨7⟩) (by decide +kernel) rfl .refl) _).2 ⟨by simp, 9, by decide +kernel⟩

/-- `offset_of_sound`, `offset_of_sound_partial`, `offset_of_sound_parsed_partial`, `offset_of_consumes`: `b.prev` in `outer`. -/
example := offset_of_sound dbg rfl zoo 7 4 "b.prev" (.byteOffset 16) ⟨by simp, 20, by decide +kernel⟩
example := offset_of_consumes dbg zoo 7 "b.prev" (4, .byteOffset 16) ⟨by simp, 20, by decide +kernel⟩
theorem zoo_fits (t : UInt32) (n : Nat) (h : HasSize none zoo t n) : n < rel.usizeMod := by
  have := zooSize_le t
  rw [zoo_size h]
  exact Nat.lt_of_le_of_lt this (by decide +kernel)
example := offset_of_sound_partial rel zoo zoo_fits (fun t v n hv hn => by
  have := zoo_all (fun t v => match ownSize v with | some n => decide (n < 2 ^ 32) | none => true) (by decide +kernel) hv
  rw [hn] at this
  simpa using this) 7 4 "b.prev" (.byteOffset 16) ⟨by simp, 20, by decide +kernel⟩
example := offset_of_sound_parsed_partial (addressable_of_target (serves _ (by decide +kernel)) (fits _)) zoo_parsed zoo_fits
  7 4 "b.prev" (.byteOffset 16) ⟨by simp, 20, by decide +kernel⟩

/-- `offset_of_elements_disjoint`. -/
example := offset_of_elements_disjoint dbg zoo 5 _ _ "3" "9" 3 9 zoo_5
  ⟨by decide +kernel, digits (by decide +kernel), by decide +kernel, by decide +kernel⟩ (index_9) (by decide) 1 1 (.byteOffset 12) (.byteOffset 36)
  ⟨by simp, 9, by decide +kernel⟩ ⟨by simp, 9, by decide +kernel⟩

/-- `offset_of_bitfield_last`. -/
example := offset_of_bitfield_last dbg zoo 15 1 "lo" 3 5 (.inl rfl) ⟨by simp, 9, by decide +kernel⟩

/-- `offset_of_scalar`. -/
example : OffsetOf dbg zoo 1 (str "x") (.err .InvalidTypePath) :=
  offset_of_scalar dbg zoo 1 (.int ⟨.Int, 1, 0, false, 4⟩ ⟨some (str "int"), 4, true, false, false, 0, 32⟩) "x" (by decide)
    ⟨1, .refl, by decide +kernel, rfl⟩ (by simp [IsAggregate])

/-- `offset_of_error_kinds`, `offset_of_deterministic`. -/
example := offset_of_error_kinds dbg zoo 7 "arr[10]" .InvalidTypePath ⟨by simp, 9, by decide +kernel⟩
example (o : Outcome (UInt32 × Offset)) (h : OffsetOf dbg zoo 7 (str "b.prev") o) : o = .ok (4, .byteOffset 16) :=
  offset_of_deterministic dbg zoo 7 "b.prev" _ _ h ⟨by simp, 20, by decide +kernel⟩

/-- `offset_of_panics`: the element size of type 10 in `bad` does not fit in 64 bits. -/
example := offset_of_panics dbg bad 10 "[0]" ⟨by simp, 9, by decide +kernel⟩

/-- `offset_of_diverges`, `offset_of_builds_diverge`, `offset_of_diverges_iff_breaks`. -/
theorem loops : Diverges (fun k => offsetOf dbg bad k 1 (str "x")) :=
  (offset_of_diverges_iff dbg bad 1 "x" _ (sample_x' dbg)).2 ⟨_, .refl, .inl (.circle .refl (.single ⟨_, bad_1, rfl⟩))⟩
example := offset_of_diverges dbg bad 1 "x" loops
example : Diverges (fun k => offsetOf rel bad k 1 (str "x")) := offset_of_builds_diverge .w64 bad 1 "x" loops
example : Diverges (fun k => offsetOf dbg bad k 1 (str "arr[10]]")) :=
  (offset_of_diverges_iff_breaks dbg bad 1 "arr[10]]" _ sample_broken).2
    ⟨_, .refl, .inl (.circle .refl (.single ⟨_, bad_1, rfl⟩))⟩

/-- `leads_circle`. -/
example := leads_circle dbg bad true ⟨5, .byteOffset 0, [.name (str "x")]⟩ (.single
  (.unnamed (pre := []) ⟨5, .refl, bad_5, rfl⟩ rfl (by simp [FailsIn]) rfl ⟨by simp [IsBitfield, bitWidth], rfl, rfl⟩))

/-- `search_determined`, `first_obstacle_unique`: there is something to be determined. -/
example (r : Outcome (UInt32 × Offset))
    (h : Search dbg zoo true 7 (.byteOffset 0) [.name (str "b"), .name (str "prev")] r) : r = .ok (4, .byteOffset 16) :=
  search_determined dbg zoo true 7 _ _ _ _ h
    ((offset_of_search dbg zoo 7 "b.prev" _ sample_b_prev _).1 ⟨by simp, 20, by decide +kernel⟩)
example (r : Reason) (h : Obstacle dbg zoo (some (.invalidCharacter 7)) ⟨7, 0, none⟩ [.name (str "arr"), .index 10] r) :
    r = .indexOutOfBounds 10 10 :=
  first_obstacle_unique dbg zoo _ _ _ _ _ h
    ((offset_of_first_flaw dbg zoo 7 "arr[10]]" _ _ _ sample_flaw).1 ⟨20, by decide +kernel⟩).2

/-- `offset_of_reason`. -/
example := offset_of_reason dbg zoo 9 7 "arr[10]" (.indexOutOfBounds 10 10) (by decide +kernel)

/-- `size_of_unchecked`, `size_of_checked`: type 4 of `bad` needs 4 * (2^32 - 1)^2 bytes. -/
theorem huge : HasSize none bad 4 (4 * 4294967295 * 4294967295) :=
  .array (h := ⟨.Array, 0, 0, false, 0⟩) (d := ⟨3, 2, 4294967295⟩) (n := 4 * 4294967295) (by decide +kernel)
    (.array (h := ⟨.Array, 0, 0, false, 0⟩) (d := ⟨2, 2, 4294967295⟩) (n := 4) (by decide +kernel)
      (.own (v := .int ⟨.Int, 6, 0, false, 4⟩ ⟨some (str "int"), 4, false, false, false, 0, 32⟩) (by decide +kernel) rfl) (by simp))
    (by simp)
example : Returns (fun k => TypeInformation.sizeOf rel bad k 4) (.ok (4 * 4294967295 * 4294967295 % 2 ^ 64)) :=
  (size_of_unchecked rel rfl bad (fun _ _ n hv hn => bad_sizes hv n hn) 4 _).2 ⟨_, huge, rfl⟩
example : Returns (fun k => TypeInformation.sizeOf dbg bad k 4) .panic :=
  size_of_checked dbg rfl bad 4 _ huge fun h => by
    have hv : bad.fromId 4 = some (.array ⟨.Array, 0, 0, false, 0⟩ ⟨3, 2, 4294967295⟩) := by decide +kernel
    generalize hn : 4 * 4294967295 * 4294967295 = n at h
    cases h with
    | array _ _ hl =>
      have := hl _ rfl
      rw [← hn] at this
      exact absurd this (by decide +kernel)
    | own h ho => rw [hv] at h; cases h; cases ho
    | ptr h hp => rw [hv] at h; cases h; cases hp
    | «alias» h ho => rw [hv] at h; cases h; cases ho

/-- `lookup_bitfield`: `lo` of `struct flags`. -/
example : OffsetOf dbg zoo 15 (str "lo") (.ok (1, .bitOffsetAndSize 3 5)) :=
  (lookup_bitfield dbg zoo zoo_wf.toLayout 15 _ "lo" (str "lo") [] [] _ ⟨73, some (str "lo"), 1, .bitOffsetAndSize 3 5⟩
    ((yields_iff dbg (utf8Like_str _) _).1 (.tok rfl (.stop rfl))) ⟨15, .refl, zoo_15, rfl⟩ rfl (by simp) rfl (by simp)
    (by simp [IsBitfield, bitWidth])).1 rfl

/-- `lookup_blocked`: `g` of `struct bits`. -/
example : OffsetOf dbg bad 7 (str "g") (.err .UnexpectedBitfield) :=
  (lookup_blocked dbg bad 7 _ "g" (str "g") [] [⟨31, some (str "f"), 2, .bitOffsetAndSize 3 5⟩] _ ⟨0, none, 2, .bitOffsetAndSize 8 8⟩
    ((yields_iff dbg (utf8Like_str _) _).1 (.tok rfl (.stop rfl))) ⟨7, .refl, bad_7, rfl⟩ rfl rfl (by simp)
    (by simp [IsBitfield, bitWidth]) _).2 rfl

/-- `offset_of_member`, `offset_of_no_member`: `struct list_head`. -/
theorem zoo_3 : zoo.fromId 3 = some (.struct ⟨.Struct, 11, 2, false, 16⟩ ⟨some (str "list_head"), 16,
    [⟨21, some (str "next"), 4, .byteOffset 0⟩, ⟨26, some (str "prev"), 4, .byteOffset 8⟩]⟩) := by decide +kernel
example (o : Outcome (UInt32 × Offset)) : OffsetOf dbg zoo 3 (str "prev") o ↔ o = .ok (4, .byteOffset 8) :=
  offset_of_member dbg zoo 3 _ "prev" (str "prev") [⟨21, some (str "next"), 4, .byteOffset 0⟩] [] ⟨26, some (str "prev"), 4, .byteOffset 8⟩
    ((yields_iff dbg (utf8Like_str _) _).1 (.tok rfl (.stop rfl))) ⟨3, .refl, zoo_3, rfl⟩ rfl (by simp) rfl (by decide +kernel) o
example (o : Outcome (UInt32 × Offset)) : OffsetOf dbg zoo 3 (str "x") o ↔ o = .err .InvalidTypePath :=
  offset_of_no_member dbg zoo 3 _ "x" (str "x") [] _ (sample_x' dbg) ⟨3, .refl, zoo_3, rfl⟩ rfl (by decide +kernel) o

/-- `offset_of_takes_unique`. -/
example (o : Outcome (UInt32 × Offset)) (k : Nat) (h : OffsetOfTakes dbg zoo 14 (str "b.next") o k) :
    o = .ok (4, .byteOffset 8) ∧ k = 5 :=
  offset_of_takes_unique dbg zoo 14 _ _ _ _ _ h ⟨by simp, 10, by decide +kernel⟩

/-- `offset_of_beginning`, `offset_of_continue`: `head.next` of `struct outer`, and `b.next`. -/
theorem path_head : Path dbg.usizeMod (str "head") [.name (str "head")] := sample_ident _ 104 [101, 97, 100] (by decide) (by decide)
theorem path_next : Path dbg.usizeMod (str "next") [.name (str "next")] := sample_ident _ 110 [101, 120, 116] (by decide) (by decide)
theorem path_b : Path dbg.usizeMod (str "b") [.name (str "b")] := sample_ident _ 98 [] (by decide) (by decide)
example := offset_of_beginning dbg zoo zoo_wf zoo_unambiguous 7 4 "head" "next" _ _ (.byteOffset 64) path_head path_next
  ⟨by simp, 8, by decide +kernel⟩
example := offset_of_continue dbg zoo zoo_wf zoo_unambiguous 7 7 3 4 "head" "b" "next" _ _ _ (.byteOffset 64) (.byteOffset 8)
  (.byteOffset 64) path_head path_b path_next ⟨by simp, 8, by decide +kernel⟩ ⟨by simp, 8, by decide +kernel⟩
  ⟨by simp, 8, by decide +kernel⟩ (by decide)

/-- `offset_of_nested`: `head` and `head.next`. -/
example : bitPos (.byteOffset 64) ≤ bitPos (.byteOffset 64) ∧ bitPos (.byteOffset 64) + 64 ≤ bitPos (.byteOffset 64) + 128 :=
  offset_of_nested dbg zoo zoo_wf zoo_unambiguous 7 3 4 "head" "head.next" _ [.name (str "next")] _ _ 128 64 (.strict path_head)
    ((yields_iff dbg (utf8Like_str _) _).1 (.tok rfl (.tok rfl (.stop rfl)))) ⟨by simp, 8, by decide +kernel⟩
    ⟨by simp, 8, by decide +kernel⟩ ⟨16, ⟨by simp, 8, by decide +kernel⟩, rfl⟩ ⟨8, ⟨by simp, 8, by decide +kernel⟩, rfl⟩

/-- `offset_of_unique`: `a` of type 14, two unnamed members deep. -/
example : ∃ o, Denotes o 64 none ∧ ∀ r, OffsetOf dbg zoo 14 (str "a") r ↔ r = .ok (1, o) :=
  offset_of_unique dbg zoo zoo_wf 14 1 "a" [.name (str "a")] 64 none (.strict (sample_ident _ 97 [] (by decide) (by decide)))
    zoo_access fun _ _ _ h => access_unique zoo_unambiguous h zoo_access

/-! ### Other type graphs -/

/-- `size_of_renumber`, `pointee_tid_renumber`, `offset_of_renumber_diverges`: the integer types of `twice` merged. -/
example (o : Outcome Nat) : Props.SizeOf dbg twice 3 o ↔ Props.SizeOf dbg once 1 o :=
  size_of_renumber twice_once dbg 3 (.inr (.inr rfl)) o
example := pointee_tid_renumber twice_once 3 (.inr (.inr rfl))
example := offset_of_renumber_diverges twice_once dbg 3 (.inr (.inr rfl)) "a"

/-- `size_of_local`, `offset_of_local`: nothing but type 1 matters to type 1 of `twice`. -/
def alone : TypeInformation where
  idToType := ⟨[(1, .int ⟨.Int, 1, 0, false, 4⟩ ⟨some (str "int"), 4, true, false, false, 0, 32⟩)]⟩
  nameToId := ⟨[]⟩
  idToName := ⟨[]⟩

theorem only_1 {u : UInt32} (h : InvolvedIn twice 1 u) : u = 1 := by
  induction h with
  | self => rfl
  | step _ hv hw ih =>
    subst ih
    have : twice.fromId 1 = some (.int ⟨.Int, 1, 0, false, 4⟩ ⟨some (str "int"), 4, true, false, false, 0, 32⟩) := by decide +kernel
    rw [this] at hv
    cases hv
    obtain h | h | ⟨_, _, h, _⟩ := hw <;> cases h

theorem alone_same (u : UInt32) (h : InvolvedIn twice 1 u) : alone.fromId u = twice.fromId u := by
  rw [only_1 h]; decide +kernel

theorem alone_pointers (u : UInt32) (v : TypeVariant) (h : InvolvedIn twice 1 u) (hv : twice.fromId u = some v)
    (hp : IsPtr v) (n : Nat) : PointerSize twice n ↔ PointerSize alone n := by
  have : twice.fromId 1 = some (.int ⟨.Int, 1, 0, false, 4⟩ ⟨some (str "int"), 4, true, false, false, 0, 32⟩) := by decide +kernel
  rw [only_1 h, this] at hv
  cases hv
  exact hp.elim

example (o : Outcome Nat) : Props.SizeOf dbg twice 1 o ↔ Props.SizeOf dbg alone 1 o :=
  size_of_local dbg 1 alone_same alone_pointers o
example (s : String) (o : Outcome (UInt32 × Offset)) : OffsetOf dbg twice 1 (str s) o ↔ OffsetOf dbg alone 1 (str s) o :=
  offset_of_local dbg 1 alone_same alone_pointers s o

/-! ### Messages -/

/-- `message_text`, `message_unique`, `message_determines`. -/
example := message_text (fun _ => "") _ _ .unclosedIndex
example (r : Reason) (h : r.message TypeVariant.debug = str "Unclosed index bracket") : r = .unclosedIndex :=
  message_determines _ _ (h.trans rfl)

end Btf.Props.Witness

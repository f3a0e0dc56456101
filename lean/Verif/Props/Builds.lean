import Verif.Proofs.Width
import Verif.Props.OffsetOf
import Verif.SamplesWF

/-!
# Properties C67, C68: queries in different builds and on different targets
-/

namespace Btf.Props

open Btf Spec TypeInformation

theorem returns_unchecked {α : Type} {f g : Nat → Outcome α} (h : ∀ k, Unchecked (f k) (g k)) {o : Outcome α} :
    (o ≠ .panic → Returns f o → Returns g o) ∧ (Returns g o → Returns f o ∨ Returns f .panic) := by
  constructor
  · rintro hp ⟨hne, n, rfl⟩
    exact ⟨hne, n, (h n).resolve_left hp⟩
  · rintro ⟨hne, n, rfl⟩
    rcases h n with h | h
    · exact .inr ⟨by simp, n, h⟩
    · exact .inl ⟨hne, n, h.symm⟩

/-- C67: `size_of` in a debug build (overflow checks on) and a release build for the same target: what the
debug build answers (a size or an error), the release build answers too; and where the release build answers,
the debug build gives the same answer or panics. -/
theorem size_of_builds (w : Width) (ti : TypeInformation) (t : UInt32) (o : Outcome Nat) :
    (o ≠ .panic → SizeOf { width := w, overflowChecks := true } ti t o →
      SizeOf { width := w, overflowChecks := false } ti t o) ∧
    (SizeOf { width := w, overflowChecks := false } ti t o →
      SizeOf { width := w, overflowChecks := true } ti t o ∨
      SizeOf { width := w, overflowChecks := true } ti t .panic) :=
  returns_unchecked fun k => sizeOf_unchecked w ti k t

/-- C67: the same for `offset_of`, for every path. -/
theorem offset_of_builds (w : Width) (ti : TypeInformation) (t : UInt32) (s : String)
    (o : Outcome (UInt32 × Offset)) :
    (o ≠ .panic → OffsetOf { width := w, overflowChecks := true } ti t (str s) o →
      OffsetOf { width := w, overflowChecks := false } ti t (str s) o) ∧
    (OffsetOf { width := w, overflowChecks := false } ti t (str s) o →
      OffsetOf { width := w, overflowChecks := true } ti t (str s) o ∨
      OffsetOf { width := w, overflowChecks := true } ti t (str s) .panic) :=
  returns_unchecked fun k => impl_unchecked w ti k _ t _

/-- The debug build runs for ever only where the release build does. -/
theorem offset_of_builds_diverge (w : Width) (ti : TypeInformation) (t : UInt32) (s : String)
    (h : Diverges (fun k => offsetOf { width := w, overflowChecks := true } ti k t (str s))) :
    Diverges (fun k => offsetOf { width := w, overflowChecks := false } ti k t (str s)) := fun n => by
  rcases impl_unchecked w ti n (.byteOffset 0) t (PathIter.new (str s)) with h' | h'
  · exact absurd (h'.symm.trans (h n)) (by simp)
  · exact h'.trans (h n)

/-- C68: a 32-bit target answers `size_of` like a 64-bit target, or panics (with overflow checks). -/
theorem size_of_widths (ti : TypeInformation) (t : UInt32) (o : Outcome Nat) :
    (o ≠ .panic → SizeOf { width := .w32, overflowChecks := true } ti t o →
      SizeOf { width := .w64, overflowChecks := true } ti t o) ∧
    (SizeOf { width := .w64, overflowChecks := true } ti t o →
      SizeOf { width := .w32, overflowChecks := true } ti t o ∨
      SizeOf { width := .w32, overflowChecks := true } ti t .panic) :=
  returns_unchecked fun k => sizeOf_narrow ti k t

/-- C68: a 32-bit target locates exactly what a 64-bit target locates, unless it panics (with overflow
checks). -/
theorem offset_of_widths (ti : TypeInformation) (t : UInt32) (s : String) (r : UInt32 × Offset) :
    (OffsetOf { width := .w32, overflowChecks := true } ti t (str s) (.ok r) →
      OffsetOf { width := .w64, overflowChecks := true } ti t (str s) (.ok r)) ∧
    (OffsetOf { width := .w64, overflowChecks := true } ti t (str s) (.ok r) →
      OffsetOf { width := .w32, overflowChecks := true } ti t (str s) (.ok r) ∨
      OffsetOf { width := .w32, overflowChecks := true } ti t (str s) .panic) := by
  have key : ∀ {cs}, AcceptedPath narrow.usizeMod (str s) cs → AcceptedPath wide.usizeMod (str s) cs →
      ∀ k, Unchecked (offsetOf narrow ti k t (str s)) (offsetOf wide ti k t (str s)) := fun hn hw k => by
    rw [offsetOf_eq_of_accepted narrow ti t (utf8Like_str s) hn, offsetOf_eq_of_accepted wide ti t (utf8Like_str s) hw]
    exact impl_narrow ti true k _ _ _
  constructor
  · intro h
    obtain ⟨cs, hcs, -⟩ := accepted_of_ok (utf8Like_str s) h
    have hb := accepted_below hcs
    have hw : AcceptedPath wide.usizeMod (str s) cs :=
      accepted_limit hcs fun i hi => Nat.lt_of_lt_of_le (hb i hi) (by decide)
    exact (returns_unchecked (key hcs hw)).1 (by simp) h
  · intro h
    obtain ⟨cs, hcs, N, hN⟩ := accepted_of_ok (utf8Like_str s) h
    obtain ⟨bits, w, hA, -⟩ := impl_sound (sizesExact_checked rfl ti) (by rfl) (hN N (Nat.le_refl _))
    have hn : AcceptedPath narrow.usizeMod (str s) cs := accepted_limit hcs (access_below hA)
    exact (returns_unchecked (key hn hcs)).2 h

/-- Both builds answer (outer.arr[2]), and a case where they differ: the debug build panics. -/
example : OffsetOf { width := .w64, overflowChecks := true } Samples.zoo 7 (str "arr[2]") (.ok (1, .byteOffset 32)) ∧
    OffsetOf { width := .w32, overflowChecks := true } Samples.zoo 7 (str "arr[2]") (.ok (1, .byteOffset 32)) ∧
    OffsetOf { width := .w64, overflowChecks := true } Samples.bad 10 (str "[1]") .panic ∧
    OffsetOf { width := .w64, overflowChecks := false } Samples.bad 10 (str "[1]") (.ok (9, .byteOffset 0)) :=
  ⟨⟨by simp, 10, by decide +kernel⟩, ⟨by simp, 10, by decide +kernel⟩, ⟨by simp, 10, by decide +kernel⟩,
    ⟨by simp, 10, by decide +kernel⟩⟩

/-- A case where the targets differ: the element size (2^33) fits in 64 bits only. -/
example : OffsetOf { width := .w64, overflowChecks := true } Samples.bad 9 (str "[0]") (.ok (8, .byteOffset 0)) ∧
    OffsetOf { width := .w32, overflowChecks := true } Samples.bad 9 (str "[0]") .panic :=
  ⟨⟨by simp, 10, by decide +kernel⟩, ⟨by simp, 10, by decide +kernel⟩⟩

end Btf.Props

import Verif.Proofs.Buffer
import Verif.Samples

/-!
# `ReadableBuffer`
-/

namespace Btf.Props

open Btf Spec

/-- C53: on a 64-bit target, a request for `len` bytes at `offset` of an in-memory file returns exactly these bytes if
all of them exist (and `offset` is not the end), fails with `EOF` if `offset` is the end, and with `InvalidOffset`
otherwise, with a message that tells whether there are too few bytes or the end of the request is not a 64-bit number;
it never panics. (The addition of offset and length cannot wrap around.) -/
theorem buffer_read (cfg : Cfg) (hw : cfg.width = .w64) (f : List UInt8) (hf : f.length < 2 ^ 63) (offset len : Nat)
    (ho : offset < 2 ^ 64) :
    (offset = f.length → ReadableBuffer.read cfg f offset len = .err ⟨.EOF, str "There are no bytes left to read"⟩) ∧
    (offset < f.length → offset + len ≤ f.length →
      ∃ bytes, ReadableBuffer.read cfg f offset len = .ok bytes ∧ bytes.length = len ∧ ∀ i < len, bytes[i]? = f[offset + i]?) ∧
    (offset ≠ f.length → f.length < offset + len → offset + len < 2 ^ 64 → ReadableBuffer.read cfg f offset len =
      .err ⟨.InvalidOffset, str "There are not enough bytes left to complete the read request"⟩) ∧
    (offset ≠ f.length → 2 ^ 64 ≤ offset + len → ReadableBuffer.read cfg f offset len =
      .err ⟨.InvalidOffset, str "Buffer offset addition overflow"⟩) := by
  have hu : cfg.usizeMod = 2 ^ 64 := by unfold Cfg.usizeMod; rw [hw]
  rw [buffer_read_eq cfg f (by omega)]
  refine ⟨fun h => by rw [if_pos h], fun h1 h2 => ?_, fun h1 h2 h3 => ?_, fun h1 h2 => ?_⟩
  · rw [if_neg (by omega), if_pos (by omega)]
    refine ⟨_, rfl, by rw [List.length_take_of_le]; rw [List.length_drop]; omega, fun i hi => ?_⟩
    rw [List.getElem?_take_of_lt hi, List.getElem?_drop]
  · rw [if_neg h1, if_neg (by omega), if_pos (by omega)]
  · rw [if_neg h1, if_neg (by omega), if_neg (by omega)]

/-- C53: on every target, `ReadableBuffer` never panics and reports no other errors than `EOF` and `InvalidOffset`;
the answer does not depend on earlier requests. -/
theorem buffer_total (cfg : Cfg) (f : List UInt8) (offset len : Nat) :
    (∃ bytes, ReadableBuffer.read cfg f offset len = .ok bytes ∧ bytes.length = len) ∨
    ∃ e, ReadableBuffer.read cfg f offset len = .err e ∧ (e.kind = .EOF ∨ e.kind = .InvalidOffset) := by
  have hmod : offset % cfg.usizeMod < cfg.usizeMod := Nat.mod_lt _ (by have := usizeMod_ge cfg; omega)
  have : ReadableBuffer.read cfg f offset len = ReadableBuffer.read cfg f (offset % cfg.usizeMod) len := by
    unfold ReadableBuffer.read; rw [Nat.mod_mod]
  rw [this, buffer_read_eq cfg f hmod]
  by_cases h1 : offset % cfg.usizeMod = f.length
  · rw [if_pos h1]; exact .inr ⟨_, rfl, .inl rfl⟩
  · rw [if_neg h1]
    split
    · rename_i h
      exact .inl ⟨_, rfl, by rw [List.length_take_of_le]; rw [List.length_drop]; omega⟩
    · by_cases h2 : offset % cfg.usizeMod + len < cfg.usizeMod
      · rw [if_pos h2]; exact .inr ⟨_, rfl, .inr rfl⟩
      · rw [if_neg h2]; exact .inr ⟨_, rfl, .inr rfl⟩

/-- The errors of a `ReadableBuffer`. -/
theorem buffer_errors (cfg : Cfg) (f : List UInt8) (history : List ReadEvent) (offset len : Nat) (k : Error)
    (h : (readableBuffer cfg f).read history offset len = .error k) : k.kind = .EOF ∨ k.kind = .InvalidOffset := by
  unfold readableBuffer at h
  simp only [] at h
  rcases buffer_total cfg f offset len with ⟨b, h1, -⟩ | ⟨e, h1, h2⟩ <;> rw [h1] at h <;> cases h
  exact h2

/-- On a 32-bit target the offset is taken modulo `2^32`, so that `buffer_read` does not hold there. -/
theorem buffer_read_32_refuted :
    ReadableBuffer.read ⟨.w32, true⟩ [1, 2, 3] (2 ^ 32 + 1) 2 = .ok [2, 3] := by decide +kernel

/-- C53: on a 32-bit target the same holds for the offset modulo `2^32` (and only for it); in particular for all offsets
below `2^32`. -/
theorem buffer_read_32 (cfg : Cfg) (hw : cfg.width = .w32) (f : List UInt8) (hf : f.length < 2 ^ 31) (offset start wraps len : Nat)
    (ho : offset = start + 2 ^ 32 * wraps) (hs : start < 2 ^ 32) :
    (start = f.length → ReadableBuffer.read cfg f offset len = .err ⟨.EOF, str "There are no bytes left to read"⟩) ∧
    (start < f.length → start + len ≤ f.length →
      ∃ bytes, ReadableBuffer.read cfg f offset len = .ok bytes ∧ bytes.length = len ∧ ∀ i < len, bytes[i]? = f[start + i]?) ∧
    (start ≠ f.length → f.length < start + len → start + len < 2 ^ 32 → ReadableBuffer.read cfg f offset len =
      .err ⟨.InvalidOffset, str "There are not enough bytes left to complete the read request"⟩) ∧
    (start ≠ f.length → 2 ^ 32 ≤ start + len → ReadableBuffer.read cfg f offset len =
      .err ⟨.InvalidOffset, str "Buffer offset addition overflow"⟩) := by
  have hu : cfg.usizeMod = 2 ^ 32 := by unfold Cfg.usizeMod; rw [hw]
  have hmod : ReadableBuffer.read cfg f offset len = ReadableBuffer.read cfg f start len := by
    unfold ReadableBuffer.read
    rw [hu, ho, Nat.add_mul_mod_self_left]
  rw [hmod, buffer_read_eq cfg f (by omega)]
  refine ⟨fun h => by rw [if_pos h], fun h1 h2 => ?_, fun h1 h2 h3 => ?_, fun h1 h2 => ?_⟩
  · rw [if_neg (by omega), if_pos (by omega)]
    refine ⟨_, rfl, by rw [List.length_take_of_le]; rw [List.length_drop]; omega, fun i hi => ?_⟩
    rw [List.getElem?_take_of_lt hi, List.getElem?_drop]
  · rw [if_neg h1, if_neg (by omega), if_pos (by omega)]
  · rw [if_neg h1, if_neg (by omega), if_neg (by omega)]

/-- `buffer_read_32`, for an offset that does not fit in 32 bits. -/
example := buffer_read_32 ⟨.w32, false⟩ rfl [1, 2, 3] (by decide) (2 ^ 32 + 1) 1 1 2 rfl (by decide)

/-- `buffer_read`: the four cases occur. -/
example : ReadableBuffer.read Samples.dbg [1, 2, 3] 1 2 = .ok [2, 3] ∧ ReadableBuffer.read Samples.dbg [1, 2, 3] 3 0 = .err ⟨.EOF, str "There are no bytes left to read"⟩ ∧
    ReadableBuffer.read Samples.dbg [1, 2, 3] 2 2 = .err ⟨.InvalidOffset, str "There are not enough bytes left to complete the read request"⟩ ∧
    ReadableBuffer.read Samples.dbg [1, 2, 3] (2 ^ 64 - 1) 2 = .err ⟨.InvalidOffset, str "Buffer offset addition overflow"⟩ := by decide +kernel

end Btf.Props

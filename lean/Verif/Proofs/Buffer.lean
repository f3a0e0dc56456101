import Verif.Model.Buffer
import Verif.Spec.Shape
import Verif.Proofs.FileRecord

/-!
# `ReadableBuffer` serves its bytes; announced headers of files
-/

namespace Btf

open Spec

theorem buffer_read_eq (cfg : Cfg) (buffer : List UInt8) {offset len : Nat} (ho : offset < cfg.usizeMod) :
    ReadableBuffer.read cfg buffer offset len =
      if offset = buffer.length then .err ⟨.EOF, str "There are no bytes left to read"⟩
      else if offset + len < cfg.usizeMod ∧ offset + len ≤ buffer.length then .ok ((buffer.drop offset).take len)
      else if offset + len < cfg.usizeMod then .err ⟨.InvalidOffset, str "There are not enough bytes left to complete the read request"⟩
      else .err ⟨.InvalidOffset, str "Buffer offset addition overflow"⟩ := by
  unfold ReadableBuffer.read
  rw [Nat.mod_eq_of_lt ho]
  simp only []
  by_cases h1 : offset = buffer.length
  · rw [if_pos h1, if_pos h1]
  · rw [if_neg h1, if_neg h1]
    change Res.bind _ _ = _
    unfold Cfg.usizeCheckedAdd
    by_cases h2 : offset + len < cfg.usizeMod
    · rw [if_pos h2]
      change (if _ then _ else _) = _
      by_cases h3 : offset + len ≤ buffer.length
      · rw [if_pos h3, if_pos ⟨h2, h3⟩]
        change Res.bind _ _ = _
        unfold sliceRange
        rw [if_pos ⟨by omega, h3⟩]
        change copyFromSlice _ _ = _
        unfold copyFromSlice
        rw [Nat.add_sub_cancel_left, if_pos (by rw [List.length_take_of_le]; simp; omega)]
      · rw [if_neg h3, if_neg (fun h => h3 h.2), if_pos h2]
    · rw [if_neg h2, if_neg (fun h => h2 h.1), if_neg h2]
      rfl

/-- `ReadableBuffer` serves its bytes. (A Rust slice has at most `isize::MAX` bytes.) -/
theorem serves_buffer (cfg : Cfg) (f : List UInt8) (hf : f.length < cfg.usizeMod) : Serves cfg (readableBuffer cfg f) f := by
  intro history offset len hlen ho
  unfold readableBuffer
  simp only []
  rw [buffer_read_eq cfg f ho]
  split
  · rename_i h
    rw [if_neg (by omega), if_pos ⟨by omega, h⟩]
    refine ⟨_, rfl, fun i hi => ?_⟩
    rw [List.getD_eq_getElem?_getD, List.getElem?_take_of_lt hi, List.getElem?_drop, List.getElem?_eq_getElem (by omega)]
    rfl
  · rename_i h
    by_cases h1 : offset = f.length
    · rw [if_pos h1]; exact ⟨_, rfl⟩
    · rw [if_neg h1, if_neg (fun h' => h h'.2)]
      by_cases h2 : offset + len < cfg.usizeMod
      · rw [if_pos h2]; exact ⟨_, rfl⟩
      · rw [if_neg h2]; exact ⟨_, rfl⟩

section
variable {cfg : Cfg} {R : Readable} {f : List UInt8} {e : Endianness}

theorem answers_iff (hS : Serves cfg R f) {i off n v : Nat} (hpl : headerFields[i]? = some (off, n)) (hn : 0 < n) :
    Answers R e i v ↔ IntAt f e n off v := by
  have hmem : (off, n) ∈ headerFields := List.mem_of_getElem? hpl
  have hle : off + n ≤ 24 := by
    simp only [headerFields, List.mem_cons, List.not_mem_nil, or_false, Prod.mk.injEq] at hmem
    omega
  have hu := usizeMod_ge cfg
  have hs := hS (headerRequests i) off n hn (by omega)
  unfold Answers IntAt
  by_cases h : off + n ≤ f.length
  · rw [if_pos h] at hs
    obtain ⟨b, hb, hbytes⟩ := hs
    rw [take_drop_eq hbytes]
    constructor
    · rintro ⟨p, b', h1, h2, rfl⟩
      rw [hpl] at h1; cases h1
      rw [hb] at h2; cases h2
      exact ⟨h, rfl⟩
    · rintro ⟨-, rfl⟩
      exact ⟨_, b, hpl, hb, rfl⟩
  · rw [if_neg h] at hs
    obtain ⟨k, hk⟩ := hs
    constructor
    · rintro ⟨p, b', h1, h2, rfl⟩
      rw [hpl] at h1; cases h1
      rw [hk] at h2; cases h2
    · rintro ⟨h', -⟩; exact absurd h' h

theorem byteAt_iff {pos : Nat} {b : UInt8} : IntAt f e 1 pos b.toNat ↔ f[pos]? = some b := by
  unfold IntAt
  constructor
  · rintro ⟨h1, h2⟩
    rw [List.drop_eq_getElem_cons (by omega), List.take_succ_cons, List.take_zero] at h2
    have : intOf e [f[pos]] = f[pos].toNat := by cases e <;> simp [intOf]
    rw [this, UInt8.toNat_inj] at h2
    rw [h2, List.getElem?_eq_getElem (by omega)]
  · intro h
    obtain ⟨h1, h2⟩ := List.getElem?_eq_some_iff.1 h
    refine ⟨by omega, ?_⟩
    rw [List.drop_eq_getElem_cons h1, List.take_succ_cons, List.take_zero, h2]
    cases e <;> simp [intOf]

theorem magic_iff (hS : Serves cfg R f) {x y : UInt8} :
    (∃ b, R.read [] 0 2 = .ok b ∧ [b 0, b 1] = [x, y]) ↔ f.take 2 = [x, y] := by
  have hu := usizeMod_ge cfg
  have hs := hS [] 0 2 (by decide) (by omega)
  by_cases h : 0 + 2 ≤ f.length
  · rw [if_pos h] at hs
    obtain ⟨b, hb, hbytes⟩ := hs
    have : f.take 2 = [b 0, b 1] := by
      have := take_drop_eq hbytes
      rw [List.drop_zero] at this
      rw [this]; rfl
    rw [this, hb]
    constructor
    · rintro ⟨b', hb', h⟩; cases hb'; exact h
    · intro h; exact ⟨b, rfl, h⟩
  · rw [if_neg h] at hs
    obtain ⟨k, hk⟩ := hs
    rw [hk]
    constructor
    · rintro ⟨b', hb', h⟩; cases hb'
    · intro h'
      have := congrArg List.length h'
      simp at this; omega

/-- For a file, the announced header is the one stored at its start. -/
theorem announces_iff (hS : Serves cfg R f) {fh : FileHeader} : Announces R e fh ↔ Preamble f e fh := by
  have hm : ∀ e, (∃ b, R.read [] 0 2 = .ok b ∧ [b 0, b 1] = magic e) ↔ f.take 2 = magic e := by
    intro e; cases e <;> exact magic_iff hS
  constructor
  · intro h
    exact ⟨(hm e).1 h.magic, byteAt_iff.1 ((answers_iff hS rfl (by decide)).1 h.version),
      byteAt_iff.1 ((answers_iff hS rfl (by decide)).1 h.flags), (answers_iff hS rfl (by decide)).1 h.hdrLen,
      (answers_iff hS rfl (by decide)).1 h.typeOff, (answers_iff hS rfl (by decide)).1 h.typeLen,
      (answers_iff hS rfl (by decide)).1 h.strOff, (answers_iff hS rfl (by decide)).1 h.strLen⟩
  · intro h
    exact ⟨(hm e).2 h.magic, (answers_iff hS rfl (by decide)).2 (byteAt_iff.2 h.version),
      (answers_iff hS rfl (by decide)).2 (byteAt_iff.2 h.flags), (answers_iff hS rfl (by decide)).2 h.hdrLen,
      (answers_iff hS rfl (by decide)).2 h.typeOff, (answers_iff hS rfl (by decide)).2 h.typeLen,
      (answers_iff hS rfl (by decide)).2 h.strOff, (answers_iff hS rfl (by decide)).2 h.strLen⟩

end

end Btf

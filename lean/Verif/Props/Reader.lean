import Verif.Spec.Reader
import Verif.Proofs.FileRead
import Verif.Samples

/-!
# Property C96: the reader

`Reader` is the module all parsing rests on. These are the general forms of what the tests in src/utils/reader.rs check
on single buffers.
-/

namespace Btf.Props

open Btf Spec Reader

variable {cfg : Cfg} {r : Reader}

theorem read_delivers {bs : List UInt8} (hd : Delivers r bs) (hfit : r.offset + bs.length < cfg.usizeMod) :
    ∃ b, Reader.read cfg bs.length r = (.ok b, advanced r bs.length) ∧ (List.range bs.length).map b = bs := by
  obtain ⟨b, hb, hbs⟩ := hd
  refine ⟨fun i => if i < bs.length then b i else 0, ?_, ?_⟩
  · unfold Reader.read
    rw [hb]
    simp only [usizeAdd_lt hfit]
    rfl
  · conv_rhs => rw [← hbs]
    exact List.map_congr_left fun i hi => if_pos (List.mem_range.1 hi)

theorem read_refuses {n : Nat} {e : Error} (hd : Refuses r n e) :
    Reader.read cfg n r = (.err (.source e), refused r n e) := by
  unfold Reader.read
  rw [show r.readable.read r.trace r.offset n = .error e from hd]
  rfl

theorem int_delivers {α : Type} (mk : Nat → α) {bs : List UInt8} (hd : Delivers r bs)
    (hfit : r.offset + bs.length < cfg.usizeMod) :
    (Reader.read cfg bs.length >>= fun b => getEndianness >>= fun e => (Pure.pure (mk (decodeNat e b bs.length)) : P α)) r =
      (.ok (mk (intOf r.endianness bs)), advanced r bs.length) := by
  obtain ⟨b, h1, h2⟩ := read_delivers hd hfit
  simp only [Bind.bind, P.bind, h1, getEndianness, Pure.pure]
  rw [decodeNat_eq, h2]
  rfl

theorem int_refuses {α : Type} (mk : Nat → α) {n : Nat} {e : Error} (hd : Refuses r n e) :
    (Reader.read cfg n >>= fun b => getEndianness >>= fun e => (Pure.pure (mk (decodeNat e b n)) : P α)) r =
      (.err (.source e), refused r n e) := by
  simp only [Bind.bind, P.bind, read_refuses hd]

theorem u8_int : u8 cfg =
    (Reader.read cfg 1 >>= fun b => getEndianness >>= fun e => Pure.pure (UInt8.ofNat (decodeNat e b 1))) := by
  funext r
  simp only [u8, Bind.bind, P.bind, getEndianness, Pure.pure]
  cases h : Reader.read cfg 1 r with
  | mk o r' =>
    cases o with
    | ok b => simp [decodeNat, leNat, beNat]
    | _ => rfl

/-- C96: an unsigned integer is the one that the delivered bytes contain, in the byte order of the reader; the reader
advances by its size. -/
theorem reader_unsigned (cfg : Cfg) (r : Reader) (bs : List UInt8) (hd : Delivers r bs)
    (hfit : r.offset + bs.length < cfg.usizeMod) :
    (bs.length = 1 → ∃ v, u8 cfg r = (.ok v, advanced r 1) ∧ v.toNat = intOf r.endianness bs) ∧
    (bs.length = 2 → ∃ v, u16 cfg r = (.ok v, advanced r 2) ∧ v.toNat = intOf r.endianness bs) ∧
    (bs.length = 4 → ∃ v, u32 cfg r = (.ok v, advanced r 4) ∧ v.toNat = intOf r.endianness bs) ∧
    (bs.length = 8 → ∃ v, u64 cfg r = (.ok v, advanced r 8) ∧ v.toNat = intOf r.endianness bs) := by
  have hlt := intOf_lt r.endianness bs
  refine ⟨fun h => ?_, fun h => ?_, fun h => ?_, fun h => ?_⟩
  · refine ⟨UInt8.ofNat (intOf r.endianness bs), ?_, by rw [h] at hlt; simp; omega⟩
    have := int_delivers (cfg := cfg) UInt8.ofNat hd hfit
    rw [h] at this
    rw [u8_int]; exact this
  · refine ⟨UInt16.ofNat (intOf r.endianness bs), ?_, by rw [h] at hlt; simp; omega⟩
    have := int_delivers (cfg := cfg) UInt16.ofNat hd hfit
    rw [h] at this
    exact this
  · refine ⟨UInt32.ofNat (intOf r.endianness bs), ?_, by rw [h] at hlt; simp; omega⟩
    have := int_delivers (cfg := cfg) UInt32.ofNat hd hfit
    rw [h] at this
    exact this
  · refine ⟨UInt64.ofNat (intOf r.endianness bs), ?_, by rw [h] at hlt; simp; omega⟩
    have := int_delivers (cfg := cfg) UInt64.ofNat hd hfit
    rw [h] at this
    exact this

theorem signed8 (v : UInt8) : v.toInt8.toInt = signedOf 8 v.toNat := by
  unfold signedOf
  rw [UInt8.toInt8, Int8.toInt, BitVec.toInt_eq_toNat_cond]
  simp only [UInt8.toNat_toBitVec, Int8.toBitVec]
  split <;> split <;> omega

/-- C96: a signed integer is the unsigned one in two's complement. -/
theorem reader_signed (cfg : Cfg) (r : Reader) (bs : List UInt8) (hd : Delivers r bs)
    (hfit : r.offset + bs.length < cfg.usizeMod) :
    (bs.length = 1 → ∃ v, i8 cfg r = (.ok v, advanced r 1) ∧ v.toInt = signedOf 8 (intOf r.endianness bs)) ∧
    (bs.length = 2 → ∃ v, i16 cfg r = (.ok v, advanced r 2) ∧ v.toInt = signedOf 16 (intOf r.endianness bs)) ∧
    (bs.length = 4 → ∃ v, i32 cfg r = (.ok v, advanced r 4) ∧ v.toInt = signedOf 32 (intOf r.endianness bs)) ∧
    (bs.length = 8 → ∃ v, i64 cfg r = (.ok v, advanced r 8) ∧ v.toInt = signedOf 64 (intOf r.endianness bs)) := by
  obtain ⟨h8, h16, h32, h64⟩ := reader_unsigned cfg r bs hd hfit
  refine ⟨fun h => ?_, fun h => ?_, fun h => ?_, fun h => ?_⟩
  · obtain ⟨v, h1, h2⟩ := h8 h
    refine ⟨v.toInt8, by simp only [i8, Bind.bind, P.bind, h1, Pure.pure], ?_⟩
    rw [← h2]
    exact signed8 v
  · obtain ⟨v, h1, h2⟩ := h16 h
    refine ⟨v.toInt16, by simp only [i16, Bind.bind, P.bind, h1, Pure.pure], ?_⟩
    rw [← h2]
    unfold signedOf
    rw [UInt16.toInt16, Int16.toInt, BitVec.toInt_eq_toNat_cond]
    simp only [UInt16.toNat_toBitVec, Int16.toBitVec]
    split <;> split <;> omega
  · obtain ⟨v, h1, h2⟩ := h32 h
    refine ⟨v.toInt32, by simp only [i32, Bind.bind, P.bind, h1, Pure.pure], ?_⟩
    rw [← h2]
    unfold signedOf
    rw [UInt32.toInt32, Int32.toInt, BitVec.toInt_eq_toNat_cond]
    simp only [UInt32.toNat_toBitVec, Int32.toBitVec]
    split <;> split <;> omega
  · obtain ⟨v, h1, h2⟩ := h64 h
    refine ⟨v.toInt64, by simp only [i64, Bind.bind, P.bind, h1, Pure.pure], ?_⟩
    rw [← h2]
    unfold signedOf
    rw [UInt64.toInt64, Int64.toInt, BitVec.toInt_eq_toNat_cond]
    simp only [UInt64.toNat_toBitVec, Int64.toBitVec]
    split <;> split <;> omega

/-- C96: if the source refuses, the error is passed on unchanged and the reader stays where it is. -/
theorem reader_refused (cfg : Cfg) (r : Reader) (e : Error) :
    (Refuses r 1 e → u8 cfg r = (.err (.source e), refused r 1 e) ∧ i8 cfg r = (.err (.source e), refused r 1 e)) ∧
    (Refuses r 2 e → u16 cfg r = (.err (.source e), refused r 2 e) ∧ i16 cfg r = (.err (.source e), refused r 2 e)) ∧
    (Refuses r 4 e → u32 cfg r = (.err (.source e), refused r 4 e) ∧ i32 cfg r = (.err (.source e), refused r 4 e)) ∧
    (Refuses r 8 e → u64 cfg r = (.err (.source e), refused r 8 e) ∧ i64 cfg r = (.err (.source e), refused r 8 e)) := by
  refine ⟨fun h => ?_, fun h => ?_, fun h => ?_, fun h => ?_⟩
  · have h1 : u8 cfg r = (.err (.source e), refused r 1 e) := by rw [u8_int]; exact int_refuses _ h
    exact ⟨h1, by simp only [i8, Bind.bind, P.bind, h1]⟩
  · have h1 : u16 cfg r = (.err (.source e), refused r 2 e) := int_refuses _ h
    exact ⟨h1, by simp only [i16, Bind.bind, P.bind, h1]⟩
  · have h1 : u32 cfg r = (.err (.source e), refused r 4 e) := int_refuses _ h
    exact ⟨h1, by simp only [i32, Bind.bind, P.bind, h1]⟩
  · have h1 : u64 cfg r = (.err (.source e), refused r 8 e) := int_refuses _ h
    exact ⟨h1, by simp only [i64, Bind.bind, P.bind, h1]⟩

theorem u8_endianness : (u8 cfg r).2.endianness = r.endianness := by
  simp only [u8, Bind.bind, P.bind, Reader.read, Pure.pure]
  cases h : r.readable.read r.trace r.offset 1 with
  | error e => rfl
  | ok b =>
    cases h2 : (cfg.usizeAdd r.offset 1 : Res LoadReason Nat) <;> simp only []

theorem stringLoop_endianness (start : UInt32) (stop orig fuel : Nat) (acc : Str) (r : Reader) :
    (parseStringLoop cfg start stop orig fuel acc r).2.endianness = r.endianness := by
  induction fuel generalizing acc r with
  | zero => rfl
  | succ n ih =>
    unfold parseStringLoop
    have hu := u8_endianness (cfg := cfg) (r := r)
    split
    · split
      · rfl
      · split
        · rename_i h; rw [h] at hu
          split
          · exact hu
          · rw [ih]; exact hu
        · rename_i h; rw [h] at hu; exact hu
        · rename_i h; rw [h] at hu; exact hu
        · rename_i h; rw [h] at hu; exact hu
    all_goals rfl

theorem usizeAdd_noerr {a b : Nat} {q : LoadReason} : cfg.usizeAdd a b ≠ .err q := by
  unfold Cfg.usizeAdd Cfg.wrapOr
  split
  · simp
  · split <;> simp

theorem stringLoop_failed (start : UInt32) (stop orig fuel : Nat) (acc : Str) (r : Reader) (q : LoadReason)
    (h : (parseStringLoop cfg start stop orig fuel acc r).1 = .err q) (hq : q ≠ .unterminated start) :
    (parseStringLoop cfg start stop orig fuel acc r).2.offset = orig := by
  induction fuel generalizing acc r with
  | zero => cases h
  | succ n ih =>
    unfold parseStringLoop at h ⊢
    split
    · rename_i next hn
      rw [hn] at h
      simp only [] at h
      split
      · rename_i hs; rw [if_pos hs] at h; cases h; exact absurd rfl hq
      · rename_i hs
        rw [if_neg hs] at h
        split
        · rename_i b r' hu
          rw [hu] at h
          simp only [] at h
          split
          · rename_i hb; rw [if_pos hb] at h; cases h
          · rename_i hb; rw [if_neg hb] at h; exact ih _ _ h
        · rfl
        · rename_i hu; rw [hu] at h; cases h
        · rename_i hu; rw [hu] at h; cases h
    · rename_i e he; exact absurd he usizeAdd_noerr
    · rename_i he; rw [he] at h; cases h
    · rename_i he; rw [he] at h; cases h

/-- C96: reading a string leaves the byte order of the reader alone, and the reader where it was, whether it succeeds or
the source refuses a byte or the offset is wrong. -/
theorem reader_string (cfg : Cfg) (fh : FileHeader) (off : UInt32) (r : Reader) :
    (parseString cfg fh off r).2.endianness = r.endianness ∧
    ((∃ s, (parseString cfg fh off r).1 = .ok s) → (parseString cfg fh off r).2.offset = r.offset) ∧
    (∀ q, (parseString cfg fh off r).1 = .err q → (∀ start, q ≠ .unterminated start) →
      (parseString cfg fh off r).2.offset = r.offset) := by
  unfold parseString
  cases h1 : u32CheckedAdd fh.hdrLen fh.strOff with
  | none => simp [okOr, P.lift, Bind.bind, P.bind]
  | some a =>
    cases h2 : u32CheckedAdd a fh.strLen with
    | none => simp [okOr, P.lift, Bind.bind, P.bind, h2]
    | some b =>
      cases h3 : u32CheckedAdd a off with
      | none => simp [okOr, P.lift, Bind.bind, P.bind, h2, h3]
      | some c =>
        simp only [okOr, P.lift, Bind.bind, P.bind, h2, h3]
        split
        · simp [P.fail]
        · simp only [P.bind, getOffset, setOffset, Pure.pure]
          have he := stringLoop_endianness (cfg := cfg) c b.toNat r.offset (b.toNat - c.toNat + 1) [] { r with offset := c.toNat }
          have hf := stringLoop_failed (cfg := cfg) c b.toNat r.offset (b.toNat - c.toNat + 1) [] { r with offset := c.toNat }
          cases hl : parseStringLoop cfg c b.toNat r.offset (b.toNat - c.toNat + 1) [] { r with offset := c.toNat } with
          | mk o r' =>
            rw [hl] at he hf
            cases o with
            | ok s => exact ⟨he, fun _ => rfl, fun q h => by cases h⟩
            | err q => exact ⟨he, fun ⟨s, h⟩ => (by cases h), fun q' h hq => by cases h; exact hf q rfl (hq c)⟩
            | panic => exact ⟨he, fun ⟨s, h⟩ => (by cases h), fun q h => by cases h⟩
            | nofuel => exact ⟨he, fun ⟨s, h⟩ => (by cases h), fun q h => by cases h⟩

/-! ### Examples -/

/-- The buffer of the test `signed_values` (src/utils/reader.rs:165), with the reader at offset 2. -/
def atTwo (e : Endianness) : Reader :=
  { Reader.new (Samples.buffer [0xF8, 0xF9, 0xFA, 0xFB, 0xFC, 0xFD, 0xFE, 0xFF]) with offset := 2, endianness := e }

/-- `reader_unsigned`, `reader_signed`: two bytes in both byte orders. -/
example (e : Endianness) :
    Delivers (atTwo e) [0xFA, 0xFB] ∧ (atTwo e).offset + 2 < Samples.dbg.usizeMod ∧
    (i16 Samples.dbg (atTwo .little)).1 = .ok (-1030) ∧ (i16 Samples.dbg (atTwo .big)).1 = .ok (-1285) ∧
    signedOf 16 (intOf .little [0xFA, 0xFB]) = -1030 ∧ signedOf 16 (intOf .big [0xFA, 0xFB]) = -1285 := by
  refine ⟨⟨_, rfl, by cases e <;> decide +kernel⟩, by cases e <;> decide, by decide +kernel, by decide +kernel, by decide +kernel, by decide +kernel⟩

/-- `reader_refused`: eight bytes are not there. -/
example (e : Endianness) : ∃ x, Refuses (atTwo e) 8 x ∧ x.kind = .InvalidOffset :=
  ⟨_, rfl, by cases e <;> decide +kernel⟩

/-- A string section of four bytes at offset 0, of which the last three are not terminated. -/
def threeBytes : Reader := { Reader.new (Samples.buffer [0x00, 0x41, 0x42, 0x43, 0x00]) with offset := 5 }

/-- `reader_string`: the exception occurs. A string without terminator leaves the reader behind the section (`new` stops
there, so this cannot be seen from outside). -/
example : (parseString Samples.dbg ⟨1, 0, 0, 0, 0, 0, 5⟩ 1 threeBytes).1 = .ok (str "ABC") ∧
    (parseString Samples.dbg ⟨1, 0, 0, 0, 0, 0, 5⟩ 1 threeBytes).2.offset = 5 ∧
    (parseString Samples.dbg ⟨1, 0, 0, 0, 0, 0, 4⟩ 1 threeBytes).1 = .err (.unterminated 1) ∧
    (parseString Samples.dbg ⟨1, 0, 0, 0, 0, 0, 4⟩ 1 threeBytes).2.offset = 4 ∧
    (parseString Samples.dbg ⟨1, 0, 0, 0, 0, 0, 9⟩ 7 threeBytes).2.offset = 5 := by
  refine ⟨by decide +kernel, by decide +kernel, by decide +kernel, by decide +kernel, by decide +kernel⟩

end Btf.Props

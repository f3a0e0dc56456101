import Verif.Proofs.Keep
import Verif.Props.Fill

/-!
# Property C94: what `new` keeps, and what it loses
-/

namespace Btf.Props

open Btf Spec

variable {cfg cfg' : Cfg} {R R' : Readable} {f f' : List UInt8} {e : Endianness} {fh fh' : FileHeader} {ti : TypeInformation}

theorem reportedCells_eq {vs : List TypeVariant} (h : Holds ti vs) : reportedCells e ti = vs.flatMap (cells e) := by
  unfold reportedCells
  rw [h.get, List.flatMap_def, numbered_map (cells e), List.flatMap_def]

/-- C94: the words of the file, from the start of the type section on, are those that can be read off the reported types,
and where they lead to a name it is the reported one. -/
theorem new_keeps (hS : Serves cfg R f) (ha : FitsTarget cfg f) (hp : Preamble f e fh) (h : TypeInformation.new cfg R = .ok ti) :
    ∀ i c, (reportedCells e ti)[i]? = some c → CellAt f e fh (typeStart fh + 4 * i) c := by
  obtain ⟨vs, ⟨e', fh', next, hp', hE, hr, hn⟩, hh⟩ := new_sound hS ha h
  obtain ⟨rfl, rfl⟩ := preamble_unique hp hp'
  rw [reportedCells_eq hh]
  exact records_cells hr

/-- C94: these are all words of the type section. -/
theorem new_keeps_all (hS : Serves cfg R f) (ha : FitsTarget cfg f) (hp : Preamble f e fh)
    (h : TypeInformation.new cfg R = .ok ti) :
    ∀ i, 4 * i < fh.typeLen.toNat → ∃ c, (reportedCells e ti)[i]? = some c := by
  intro i hi
  obtain ⟨vs, h1, -, h3, -⟩ := new_filled (addressable_of_target hS ha) ((announces_iff hS).2 hp) h
  have hlen : ∀ vs : List TypeVariant, 4 * (vs.flatMap (cells e)).length = (vs.map recordBytes).sum := by
    intro vs
    induction vs with
    | nil => rfl
    | cons v vs ih => rw [List.flatMap_cons, List.length_append, List.map_cons, List.sum_cons, Nat.mul_add, ih, cells_length]
  have := hlen vs
  rw [reportedCells_eq h1]
  exact ⟨_, List.getElem?_eq_getElem (by omega)⟩

/-- C94: another file with a type section of the same length gives the same result exactly if its words match, too. So
nothing but the bits that are in no field is lost. -/
theorem new_keeps_iff (hS : Serves cfg R f) (ha : FitsTarget cfg f) (hp : Preamble f e fh) (h : TypeInformation.new cfg R = .ok ti)
    (hS' : Serves cfg' R' f') (ha' : FitsTarget cfg' f') (hp' : Preamble f' e fh') (hlen : fh'.typeLen = fh.typeLen)
    (hE' : typeEnd fh' < 2 ^ 32) :
    TypeInformation.new cfg' R' = .ok ti ↔
      ∀ i c, (reportedCells e ti)[i]? = some c → CellAt f' e fh' (typeStart fh' + 4 * i) c := by
  refine ⟨fun h' => new_keeps hS' ha' hp' h', fun hc => ?_⟩
  obtain ⟨vs, hd, hh⟩ := new_sound hS ha h
  obtain ⟨e', fh'', next, hp'', hE, hr, hn⟩ := id hd
  obtain ⟨rfl, rfl⟩ := preamble_unique hp hp''
  rw [reportedCells_eq hh] at hc
  have h1 : typeEnd fh = typeStart fh + fh.typeLen.toNat := rfl
  have h2 : typeEnd fh' = typeStart fh' + fh.typeLen.toNat := by rw [← hlen]; rfl
  obtain ⟨hr', hle⟩ := cells_records hr hc (by omega) (by omega)
  simp only [] at hn
  rw [← new_determined hS ha hS' ha' hd ⟨e, fh', _, hp', hE', hr', by simp only []; omega⟩]
  exact h

theorem field_bit {w w' : UInt32} {low width bit : Nat} (h : w.toNat / 2 ^ low % 2 ^ width = w'.toNat / 2 ^ low % 2 ^ width)
    (h1 : low ≤ bit) (h2 : bit < low + width) : w.toNat.testBit bit = w'.toNat.testBit bit := by
  have key : ∀ n : Nat, n.testBit bit = (n / 2 ^ low % 2 ^ width).testBit (bit - low) := by
    intro n
    rw [Nat.testBit_mod_two_pow, Nat.testBit_div_two_pow]
    simp only [show bit - low < width by omega, decide_true, Bool.true_and]
    rw [show bit - low + low = bit by omega]
  rw [key, key, h]

/-- C94: if a bit that is in a field differs, the results differ. -/
theorem new_tells_apart (hS : Serves cfg R f) (ha : FitsTarget cfg f) (hp : Preamble f e fh) (h : TypeInformation.new cfg R = .ok ti)
    (hS' : Serves cfg' R' f') (ha' : FitsTarget cfg' f') (hp' : Preamble f' e fh')
    {i bit : Nat} {c : Cell} {w w' : UInt32} (hc : (reportedCells e ti)[i]? = some c) (hk : Kept c bit)
    (hw : Word f e (typeStart fh + 4 * i) w) (hw' : Word f' e (typeStart fh' + 4 * i) w')
    (hb : w.toNat.testBit bit ≠ w'.toNat.testBit bit) : TypeInformation.new cfg' R' ≠ .ok ti := by
  intro h'
  obtain ⟨u, h1, h2, -⟩ := new_keeps hS ha hp h i c hc
  obtain ⟨u', h3, h4, -⟩ := new_keeps hS' ha' hp' h' i c hc
  cases word_unique hw h1
  cases word_unique hw' h3
  obtain ⟨x, hx, h5, h6⟩ := hk
  exact hb (field_bit ((h2 x hx).trans (h4 x hx).symm) h5 h6)

/-! ### The hypotheses can be met -/

section
open Samples

/-- The samples' file, with all bits set that are not used: bits 8-15 and 27-31 of the word of the first type (an integer). -/
def unusedBits : List UInt8 := ((leFile zooTypes zooStrings).set 37 0xFF).set 39 0xF9

theorem unused_preamble : Preamble unusedBits .little
    ⟨1, 0, 24, 0, UInt32.ofNat (4 * zooTypes.length), UInt32.ofNat (4 * zooTypes.length), UInt32.ofNat zooStrings.length⟩ :=
  ⟨by decide +kernel, by decide +kernel, by decide +kernel, by decide +kernel, by decide +kernel, by decide +kernel,
    by decide +kernel, by decide +kernel⟩

/-- `new_keeps`, `new_keeps_all`: the samples' file. -/
example := new_keeps (serves_buffer dbg _ (by decide +kernel)) (.inl rfl) zoo_preamble zoo_parsed
example := new_keeps_all (serves_buffer dbg _ (by decide +kernel)) (.inl rfl) zoo_preamble zoo_parsed

/-- The first record of the samples' file, as it can be read off the reported type. -/
example : (reportedCells .little zoo).take 4 = [⟨[⟨0, 32, 1⟩], some (str "int")⟩,
    ⟨[⟨0, 16, 0⟩, ⟨24, 5, 1⟩, ⟨31, 1, 0⟩], none⟩, ⟨[⟨0, 32, 4⟩], none⟩,
    ⟨[⟨0, 8, 32⟩, ⟨16, 8, 0⟩, ⟨24, 1, 1⟩, ⟨25, 1, 0⟩, ⟨26, 1, 0⟩], none⟩] := by decide +kernel

/-- `new_keeps_iff`: with the unused bits, the same result. -/
example : TypeInformation.new dbg (readableBuffer dbg unusedBits) = .ok zoo ∧ unusedBits ≠ leFile zooTypes zooStrings ∧
    ∀ i c, (reportedCells .little zoo)[i]? = some c → CellAt unusedBits .little
      ⟨1, 0, 24, 0, UInt32.ofNat (4 * zooTypes.length), UInt32.ofNat (4 * zooTypes.length), UInt32.ofNat zooStrings.length⟩ (24 + 4 * i) c := by
  have h : TypeInformation.new dbg (readableBuffer dbg unusedBits) = .ok zoo := by decide +kernel
  exact ⟨h, by decide +kernel, (new_keeps_iff (serves_buffer dbg _ (by decide +kernel)) (.inl rfl) zoo_preamble zoo_parsed
    (serves_buffer dbg unusedBits (by decide +kernel)) (.inl rfl) unused_preamble rfl (by decide +kernel)).1 h⟩

/-- `new_tells_apart`: with another width of the integer, another result. -/
example : TypeInformation.new dbg (readableBuffer dbg ((leFile zooTypes zooStrings).set 36 33)) ≠ .ok zoo := by
  refine new_tells_apart (serves_buffer dbg _ (by decide +kernel)) (.inl rfl) zoo_preamble zoo_parsed
    (serves_buffer dbg _ (by decide +kernel)) (.inl rfl)
    (fh' := ⟨1, 0, 24, 0, UInt32.ofNat (4 * zooTypes.length), UInt32.ofNat (4 * zooTypes.length), UInt32.ofNat zooStrings.length⟩)
    ⟨by decide +kernel, by decide +kernel, by decide +kernel, by decide +kernel, by decide +kernel, by decide +kernel,
      by decide +kernel, by decide +kernel⟩
    (i := 3) (bit := 0) (c := intCell ⟨some (str "int"), 4, true, false, false, 0, 32⟩) (w := 0x01000020) (w' := 0x01000021)
    (by decide +kernel) (by decide +kernel) (by decide +kernel) (by decide +kernel) (by decide +kernel)

end

end Btf.Props

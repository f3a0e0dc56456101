import Verif.Props.Split
import Verif.Props.Fill

/-!
# Property C93: many types can share a long name
-/

namespace Btf.Props

open Btf Spec TypeInformation

variable {cfg : Cfg} {R : Readable} {e : Endianness}

/-- The file with `n` floating-point types that share one name of `m` letters `a`. -/
def sharedName (e : Endianness) (n m : Nat) : List UInt8 :=
  fileOf e 1 0 ((List.replicate n (Decl.float (List.replicate m 97) 4)).flatMap (words fun _ => 1)) (0 :: (List.replicate m 97 ++ [0]))

theorem sharedName_words (n m : Nat) :
    ((List.replicate n (Decl.float (List.replicate m 97) 4)).flatMap (words fun _ => 1)).length = 3 * n := by
  rw [List.length_flatMap]
  simp [words, headWords, Nat.mul_comm]

/-- C93: the bound is of the right order: a file of `26 + 12 * n + m` bytes can have names of `n * m` characters in total, so the
memory for the result can grow with the square of the size of the file. -/
theorem new_size_attained (n m : Nat) (hm : 0 < m) (hsize : 26 + 12 * n + m < 2 ^ 32)
    (hS : Serves cfg R (sharedName e n m)) (ht : FitsTarget cfg (sharedName e n m)) :
    (sharedName e n m).length = 26 + 12 * n + m ∧ ∃ ti, TypeInformation.new cfg R = .ok ti ∧ ti.get.length = n ∧
      (ti.get.map fun x => ((strings x.2).map chars).sum).sum = n * m := by
  have hlen : 24 + 4 * ((List.replicate n (Decl.float (List.replicate m 97) 4)).flatMap (words fun _ => 1)).length +
      (0 :: (List.replicate m (97 : UInt8) ++ [0])).length < 2 ^ 32 := by
    rw [sharedName_words]; simp; omega
  obtain ⟨p1, p2, -, -⟩ := written_places (v := 1) (fl := 0) hlen
  have hne : List.replicate m (97 : UInt8) ≠ [] := by simp; omega
  have h0 : (0 : UInt8) ∉ List.replicate m (97 : UInt8) := by simp
  have hr := records_words (f := sharedName e n m) (e := e) (off := fun _ => 1) (fh := writtenHeader 1 0
      ((List.replicate n (Decl.float (List.replicate m 97) 4)).flatMap (words fun _ => 1)) (0 :: (List.replicate m 97 ++ [0])))
    (ds := List.replicate n (Decl.float (List.replicate m 97) 4)) (pos := 24)
    (fun d hd => by rw [(List.mem_replicate.1 hd).2]; exact h0)
    (fun d hd => by
      rw [(List.mem_replicate.1 hd).2]
      refine ⟨fun name hn => ?_, fun name hn => ?_⟩ <;> rw [List.mem_singleton.1 hn]
      · exact stringAt_fileOf hlen h0 (by simp) (by simp)
      · simp; omega)
    (fun j w h => word_fileOf e h) (by rw [p2])
  have hd : Decodes .documented (sharedName e n m)
      ((List.replicate n (Decl.float (List.replicate m 97) 4)).map (variantOf fun _ => 1)) :=
    ⟨e, _, _, preamble_fileOf e, by omega, by rw [p1]; exact hr, p2.symm⟩
  obtain ⟨ti, h1, h2⟩ := new_complete_documented_partial hS ht hd
    (fun th d hm => by obtain ⟨x, hx, hx'⟩ := List.mem_map.1 hm; rw [(List.mem_replicate.1 hx).2] at hx'; cases hx')
    (.inr fun v hv => by obtain ⟨x, hx, rfl⟩ := List.mem_map.1 hv; rw [(List.mem_replicate.1 hx).2]; rfl)
  refine ⟨by rw [sharedName, fileOf_length, sharedName_words]; simp; omega, ti, h1, by rw [h2.get, numbered]; simp, ?_⟩
  rw [h2.get, numbered_map (fun v => ((strings v).map chars).sum)]
  have hx : strings (variantOf (fun _ => 1) (Decl.float (List.replicate m 97) 4)) = [latin1 (List.replicate m 97)] := by
    simp only [variantOf, strings, nameStr, if_neg hne]
    rfl
  rw [List.map_replicate, List.map_replicate, hx, List.map_singleton, List.sum_singleton, chars_latin1, List.length_replicate,
    List.sum_replicate_nat]

/-- 100 types sharing a name of 1000 letters: 2226 bytes, 100000 characters. -/
example (R : Readable) (hS : Serves Samples.dbg R (sharedName .big 100 1000)) :
    ∃ ti, TypeInformation.new Samples.dbg R = .ok ti ∧ (ti.get.map fun x => ((strings x.2).map chars).sum).sum = 100000 := by
  obtain ⟨-, ti, h1, -, h2⟩ := new_size_attained 100 1000 (by decide) (by decide) hS (Examples.fits _)
  exact ⟨ti, h1, h2⟩

end Btf.Props

import Verif.Proofs.Fill
import Verif.Props.Requests
import Verif.Props.Same

/-!
# Property C93: the reported types fill the type section
-/

namespace Btf.Props

open Btf Spec

/-- A successful `new` ran its loop over a type section that ends below 4 GiB. -/
theorem new_ran {cfg : Cfg} {R : Readable} {ti : TypeInformation} (h : TypeInformation.new cfg R = .ok ti) :
    ∃ e fh r r', Announces R e fh ∧ typeEnd fh < 2 ^ 32 ∧ r.offset = typeStart fh ∧
      parseLoop cfg fh (typeEnd fh) (fh.typeLen.toNat + 1) 1 TypeInformation.empty r = (.ok ti, r') := by
  rw [new_ok] at h
  unfold TypeInformation.newT at h
  rw [newP_eq] at h
  change (P.bind _ _ _).1 = _ at h
  unfold P.bind at h
  rcases header_any (cfg := cfg) (R := R) with ⟨e, fh, r, h1, h2, h3⟩ | ⟨k, r', h1, -⟩
  swap
  · rw [h1] at h; cases h
  rw [h1] at h
  simp only [] at h
  unfold afterHeader at h
  cases hs : u32CheckedAdd fh.hdrLen fh.typeOff with
  | none => rw [hs] at h; cases h
  | some s =>
    rw [hs] at h
    have hst : s.toNat = typeStart fh := u32CheckedAdd_eq_some.1 hs
    have hslt := s.toNat_lt
    change (P.bind (P.lift (cfg.usizeCheckedAdd s.toNat fh.typeLen.toNat |> (okOr · .typeSectionEnd))) _ r).1 = _ at h
    unfold P.bind P.lift at h
    rw [hst] at h
    unfold Cfg.usizeCheckedAdd at h
    have hu := usizeMod_ge cfg
    by_cases hadd : typeStart fh + fh.typeLen.toNat < cfg.usizeMod
    swap
    · rw [if_neg hadd] at h; cases h
    rw [if_pos hadd] at h
    simp only [okOr] at h
    change (parseLoop cfg fh (typeEnd fh) (fh.typeLen.toNat + 1) 1 TypeInformation.empty { r with offset := typeStart fh }).1 = _ at h
    by_cases hE : typeEnd fh < 2 ^ 32
    swap
    · rw [loop_overflow (by omega) (by omega) _ _ _ (by simp only []; omega)] at h; cases h
    exact ⟨e, fh, _, _, h2, hE, rfl, Prod.ext h rfl⟩

theorem numbered_map {α : Type} (g : TypeVariant → α) (vs : List TypeVariant) :
    (numbered vs).map (fun x => g x.2) = vs.map g := by
  unfold numbered
  rw [List.map_map]
  have : ∀ (vs : List TypeVariant) n, vs.map g =
      (vs.zipIdx n).map ((fun x => g x.2) ∘ fun p => (UInt32.ofNat (p.2 + 1), p.1)) := by
    intro vs
    induction vs with
    | nil => intro n; rfl
    | cons v vs ih => intro n; rw [List.zipIdx_cons, List.map_cons, List.map_cons, ih (n + 1)]; rfl
  exact (this vs 0).symm

/-- The types of a successful `new`, in the order of their ids, with the facts about their records. -/
theorem new_filled {cfg : Cfg} {R : Readable} (hR : Addressable cfg R) {e : Endianness} {fh : FileHeader}
    (hA : Announces R e fh) {ti : TypeInformation} (h : TypeInformation.new cfg R = .ok ti) :
    ∃ vs, Holds ti vs ∧ 12 * vs.length ≤ fh.typeLen.toNat ∧ fh.typeLen.toNat ≤ (vs.map recordBytes).sum ∧
      (fh.typeLen.toNat < (vs.map recordBytes).sum →
        (vs.map recordBytes).sum ≤ fh.typeLen.toNat + 12 ∧ ∃ h d, vs.getLast? = some (.array h d)) := by
  obtain ⟨e', fh', r, r', h1, hE, hoff, hl⟩ := new_ran h
  obtain ⟨rfl, rfl⟩ := announces_unique hA h1
  have hf := fits_of_addressable hR e fh hA
  obtain ⟨vs, rfl, h5, h6, h7⟩ := fill_loop hf hE _ _ _ _ (by omega) (by simp [hoff]) _ _ hl
  have hend : typeEnd fh = typeStart fh + fh.typeLen.toNat := rfl
  rw [hoff] at h5 h6 h7
  have hlen : 12 * vs.length ≤ fh.typeLen.toNat := by
    rcases h5 with rfl | h5
    · exact Nat.zero_le _
    · omega
  have hlt := fh.typeLen.toNat_lt
  refine ⟨vs, holds_build (by omega), hlen, by omega, fun hgt => ?_⟩
  have hne : vs ≠ [] := by rintro rfl; simp at hgt
  rcases h7 hne with h8 | ⟨h8, h9⟩
  · omega
  · exact ⟨by omega, h9⟩

/-- C93: whatever the source answers, if `new` succeeds, the records of the reported types fill the type section
exactly, unless the last one is an array; its record may reach up to 12 bytes beyond the end. -/
theorem new_fills (cfg : Cfg) (R : Readable) (hR : Addressable cfg R) (e : Endianness) (fh : FileHeader)
    (hA : Announces R e fh) (ti : TypeInformation) (h : TypeInformation.new cfg R = .ok ti) :
    (ti.get.map fun x => recordBytes x.2).sum = fh.typeLen.toNat ∨
    fh.typeLen.toNat < (ti.get.map fun x => recordBytes x.2).sum ∧
      (ti.get.map fun x => recordBytes x.2).sum ≤ fh.typeLen.toNat + 12 ∧
      ∃ t h d, ti.get.getLast? = some (t, .array h d) := by
  obtain ⟨vs, h1, -, h3, h4⟩ := new_filled hR hA h
  rw [h1.get, numbered_map recordBytes]
  by_cases hlt : fh.typeLen.toNat < (vs.map recordBytes).sum
  · obtain ⟨h5, h', d, h6⟩ := h4 hlt
    refine .inr ⟨hlt, h5, ?_⟩
    have h7 := congrArg List.getLast? (numbered_map id vs)
    rw [List.getLast?_map, List.map_id, h6] at h7
    cases hl : (numbered vs).getLast? with
    | none => rw [hl] at h7; cases h7
    | some x =>
      rw [hl] at h7
      obtain ⟨t, v⟩ := x
      cases h7
      exact ⟨t, h', d, rfl⟩
  · exact .inl (by omega)

/-- C93: so the number of types, the number of their members, values, parameters and variables, and the number of
characters of all names are limited by what the header announces. -/
theorem new_size_bound (cfg : Cfg) (R : Readable) (hR : Addressable cfg R) (e : Endianness) (fh : FileHeader)
    (hA : Announces R e fh) (ti : TypeInformation) (h : TypeInformation.new cfg R = .ok ti) :
    12 * ti.get.length ≤ fh.typeLen.toNat ∧
    8 * (ti.get.map fun x => itemCount x.2).sum ≤ fh.typeLen.toNat ∧
    4 * (ti.get.map fun x => ((strings x.2).map chars).sum).sum ≤ (fh.typeLen.toNat + 12) * (fh.strLen.toNat + 1) := by
  obtain ⟨vs, h1, h2, h3, h4⟩ := new_filled hR hA h
  refine ⟨?_, ?_, ?_⟩
  · rw [h1.get]
    have := congrArg List.length (numbered_map id vs)
    rw [List.length_map, List.length_map] at this
    omega
  · rw [h1.get, numbered_map itemCount]
    have hle : ∀ vs : List TypeVariant, 8 * (vs.map itemCount).sum ≤ (vs.map recordBytes).sum := by
      intro vs
      induction vs with
      | nil => exact Nat.le_refl _
      | cons v vs ih =>
        rw [List.map_cons, List.map_cons, List.sum_cons, List.sum_cons]
        have : 8 * itemCount v ≤ recordBytes v := by cases v <;> simp only [itemCount, recordBytes] <;> omega
        omega
    have hall := hle vs
    by_cases hlt : fh.typeLen.toNat < (vs.map recordBytes).sum
    · obtain ⟨h5, h', d, h6⟩ := h4 hlt
      obtain ⟨ws, rfl⟩ : ∃ ws, vs = ws ++ [.array h' d] := by
        obtain ⟨ws, hws⟩ := List.getLast?_eq_some_iff.1 h6
        exact ⟨ws, hws⟩
      have := hle ws
      simp only [List.map_append, List.map_cons, List.map_nil, List.sum_append, List.sum_cons, List.sum_nil, itemCount,
        recordBytes] at *
      omega
    · omega
  · have hb := new_requests_bound cfg R hR e fh hA
    rw [new_requests_exact cfg R hR ti h] at hb
    have hle : ∀ l : List (UInt32 × TypeVariant), (l.map fun x => ((strings x.2).map chars).sum).sum ≤
        (l.map fun x => variantRequests x.2).sum := by
      intro l
      induction l with
      | nil => exact Nat.le_refl _
      | cons x l ih =>
        rw [List.map_cons, List.map_cons, List.sum_cons, List.sum_cons]
        have := strings_requests x.2
        omega
    have := hle ti.get
    omega

/-! ### The hypotheses can be met -/

section
open Samples

/-- The header of the samples' file: 352 bytes of types. -/
theorem zoo_preamble : Preamble (leFile zooTypes zooStrings) .little
    ⟨1, 0, 24, 0, UInt32.ofNat (4 * zooTypes.length), UInt32.ofNat (4 * zooTypes.length), UInt32.ofNat zooStrings.length⟩ :=
  ⟨by decide +kernel, by decide +kernel, by decide +kernel, by decide +kernel, by decide +kernel, by decide +kernel,
    by decide +kernel, by decide +kernel⟩

/-- `new_fills` for the samples' file: the sixteen records fill the type section. -/
example := new_fills dbg (buffer (leFile zooTypes zooStrings)) (.inl rfl) .little _
  ((announces_iff (serves_buffer _ _ (by decide +kernel))).2 zoo_preamble) zoo zoo_parsed


example : zoo.get.map (fun x => recordBytes x.2) = [16, 12, 36, 12, 24, 36, 60, 12, 12, 12, 12, 12, 12, 36, 36, 12] ∧
    4 * zooTypes.length = 352 := by decide +kernel

/-- `new_size_bound` for the samples' file. -/
example := new_size_bound dbg (buffer (leFile zooTypes zooStrings)) (.inl rfl) .little _
  ((announces_iff (serves_buffer _ _ (by decide +kernel))).2 zoo_preamble) zoo zoo_parsed

theorem overrun_preamble : Preamble overrun .little ⟨1, 0, 24, 0, 12, 12, 12⟩ :=
  ⟨by decide +kernel, by decide +kernel, by decide +kernel, by decide +kernel, by decide +kernel, by decide +kernel,
    by decide +kernel, by decide +kernel⟩

/-- The second case of `new_fills` occurs: the type section has 12 bytes, the record of the array 24. -/
example : ∃ ti, TypeInformation.new dbg (readableBuffer dbg overrun) = .ok ti ∧
    Announces (readableBuffer dbg overrun) .little ⟨1, 0, 24, 0, 12, 12, 12⟩ ∧
    (ti.get.map fun x => recordBytes x.2).sum = 24 :=
  ⟨_, new_overrun_refuted.1, (announces_iff (serves_buffer _ _ (by decide +kernel))).2 overrun_preamble, by decide +kernel⟩

end

end Btf.Props

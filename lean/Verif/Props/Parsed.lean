import Verif.Props.Source
import Verif.Props.Queries
import Verif.Props.OffsetOf
import Verif.Props.Parse
import Verif.Props.Buffer
import Verif.SamplesWF
import Verif.Proofs.DepthOffset

/-!
# The queries on the result of `TypeInformation::new`
-/

namespace Btf.Props

open Btf Spec

section
variable {cfg : Cfg} {R : Readable} {ti : TypeInformation}

/-- The sizes recorded in a parsed file are 32-bit numbers. -/
theorem parsed_sizes_fit (hR : Addressable cfg R) (h : TypeInformation.new cfg R = .ok ti) : SizesFit ti := by
  intro t v n hv hn
  rcases types_sane cfg R hR ti h t v hv with ⟨-, rfl⟩ | ⟨-, th, -, hs⟩
  · cases hn
  · have hlt := th.sizeOrType.toNat_lt
    cases v <;> simp only [ownSize, Option.some.injEq, reduceCtorEq] at hn <;> subst hn
    · obtain ⟨-, -, -, hs, -⟩ := hs; omega
    · obtain ⟨-, -, -, hs, -⟩ := hs; omega
    · obtain ⟨-, -, -, hs, -⟩ := hs; omega
    · obtain ⟨-, -, -, hs, -⟩ := hs; omega
    · obtain ⟨-, -, -, hs, -⟩ := hs; omega
    · obtain ⟨-, -, -, hs⟩ := hs; omega
    · obtain ⟨-, -, -, hs, -⟩ := hs; omega

/-- C58: on every parsed file, a build without overflow checks answers the size modulo the number of
`usize` values. -/
theorem size_of_release_parsed (hc : cfg.overflowChecks = false) (hR : Addressable cfg R)
    (h : TypeInformation.new cfg R = .ok ti) (t : UInt32) (n : Nat) :
    Returns (fun k => TypeInformation.sizeOf cfg ti k t) (.ok n) ↔ ∃ m, HasSize none ti t m ∧ n = m % cfg.usizeMod :=
  size_of_unchecked cfg hc ti (parsed_sizes_fit hR h) t n

/-- C37 (partial): on every parsed file whose types are not larger than `usize` can express, whatever `offset_of`
answers is a C access denoted by the path, at its exact offset, in every build. Missing: larger types
(`offset_of_sound_refuted`). -/
theorem offset_of_sound_parsed_partial (hR : Addressable cfg R) (h : TypeInformation.new cfg R = .ok ti)
    (hfit : ∀ t n, HasSize none ti t n → n < cfg.usizeMod) (t u : UInt32) (s : String) (o : Offset)
    (ho : OffsetOf cfg ti t (str s) (.ok (u, o))) :
    ∃ cs bits w, AcceptedPath cfg.usizeMod (str s) cs ∧ Access ti t cs u bits w ∧ Denotes o bits w :=
  offset_of_sound_partial cfg ti hfit (parsed_sizes_fit hR h) t u s o ho

/-! ### How deep the queries recurse -/

/-- The ids of a parsed file: every type except `void` is listed by `get()`. -/
theorem parsed_listed (hR : Addressable cfg R) (h : TypeInformation.new cfg R = .ok ti) {t : UInt32} {v : TypeVariant}
    (hv : ti.fromId t = some v) (hne : v ≠ .void) : t ∈ ti.get.map Prod.fst := by
  obtain ⟨n, hn, h1, h2, h3, -⟩ := ids_dense cfg R hR ti h
  have ht : t ≠ 0 := by rintro rfl; rw [h2] at hv; cases hv; exact hne rfl
  have ht' : t.toNat ≠ 0 := fun h0 => ht (UInt32.toNat_inj.1 h0)
  rw [h3 t (by omega)] at hv
  cases hg : ti.get[t.toNat - 1]? with
  | none => rw [hg] at hv; cases hv
  | some p =>
    have hm := List.mem_of_getElem? hg
    have hid : (ti.get.map fun p => p.1.toNat)[t.toNat - 1]? = some p.1.toNat := by rw [List.getElem?_map, hg]; rfl
    rw [h1, List.getElem?_map, List.getElem?_range (by
      have := (List.getElem?_eq_some_iff.1 hg).1
      have hl := congrArg List.length h1
      simp only [List.length_map, List.length_range] at hl
      omega)] at hid
    have : t = p.1 := UInt32.toNat_inj.1 (by simp only [Option.map_some, Option.some.injEq] at hid; omega)
    rw [this]
    exact List.mem_map.2 ⟨p, hm, rfl⟩

theorem parsed_ids (ti : TypeInformation) : (ti.get.map Prod.fst).toFinset.card ≤ ti.get.length := by
  have := List.toFinset_card_le (ti.get.map Prod.fst)
  rwa [List.length_map] at this

/-- C56: on every parsed file with `N` types, `size_of` either recurses for ever or has returned before reaching depth
`N + 2`. (The depth of recursion is the fuel that the model needs.) -/
theorem size_of_depth (hR : Addressable cfg R) (h : TypeInformation.new cfg R = .ok ti) (cfg' : Cfg) (t : UInt32)
    (o : Outcome Nat) (ho : Returns (fun k => TypeInformation.sizeOf cfg' ti k t) o) :
    TypeInformation.sizeOf cfg' ti (ti.get.length + 1) t = o := by
  have := (sizeOf_follows cfg' ti).depth (sizeLeaf_ne_nofuel ti) (sizePost_ne_nofuel cfg') (ti.get.map Prod.fst).toFinset
    (fun t u ⟨v, h1, h2⟩ => List.mem_toFinset.2 (parsed_listed hR h h1 (by rintro rfl; cases h2))) t o ho
  rw [(sizeOf_mono cfg' ti t).le (Nat.succ_le_succ (parsed_ids ti)) (by rw [this]; exact ho.1), this]

/-- C56: the same for `pointee_tid`. -/
theorem pointee_tid_depth (hR : Addressable cfg R) (h : TypeInformation.new cfg R = .ok ti) (t : UInt32)
    (o : Outcome UInt32) (ho : Returns (fun k => TypeInformation.pointeeTid ti k t) o) :
    TypeInformation.pointeeTid ti (ti.get.length + 1) t = o := by
  have hf := pointeeTid_follows ti
  have := hf.depth pointeeLeaf_ne_nofuel (by simp) (ti.get.map Prod.fst).toFinset
    (fun t u ⟨v, h1, h2⟩ => List.mem_toFinset.2 (parsed_listed hR h h1 (by rintro rfl; cases h2))) t o ho
  rw [(hf.mono t).le (Nat.succ_le_succ (parsed_ids ti)) (by rw [this]; exact ho.1), this]

/-- C57: on every parsed file, `size_of(t)` runs for ever exactly if the references lead from `t` to a type
that refers back to itself. -/
theorem size_of_diverges_iff_cycle (hR : Addressable cfg R) (h : TypeInformation.new cfg R = .ok ti) (cfg' : Cfg)
    (t : UInt32) : Diverges (fun k => TypeInformation.sizeOf cfg' ti k t) ↔
      ∃ u, Chain ti sizeRef t u ∧ Relation.TransGen (Refers ti sizeRef) u u :=
  (sizeOf_follows cfg' ti).diverges_iff_cycle (sizeLeaf_ne_nofuel ti) (sizePost_ne_nofuel cfg') (ti.get.map Prod.fst).toFinset
    (fun t u ⟨v, h1, h2⟩ => List.mem_toFinset.2 (parsed_listed hR h h1 (by rintro rfl; cases h2))) t

/-- C57: the same for `pointee_tid` and its references. -/
theorem pointee_tid_diverges_iff_cycle (hR : Addressable cfg R) (h : TypeInformation.new cfg R = .ok ti)
    (t : UInt32) : Diverges (fun k => TypeInformation.pointeeTid ti k t) ↔
      ∃ u, Chain ti aliasOf t u ∧ Relation.TransGen (Refers ti aliasOf) u u :=
  (pointeeTid_follows ti).diverges_iff_cycle pointeeLeaf_ne_nofuel (by simp) (ti.get.map Prod.fst).toFinset
    (fun t u ⟨v, h1, h2⟩ => List.mem_toFinset.2 (parsed_listed hR h h1 (by rintro rfl; cases h2))) t

/-- C56: on every parsed file with `N` types none of which depends on itself, `offset_of` returns, and neither the
iterations of its loops nor its recursion exceed `(N + 2)·(L + 1)` for a path of `L` bytes. -/
theorem offset_of_depth (hR : Addressable cfg R) (h : TypeInformation.new cfg R = .ok ti) (hac : Acyclic ti) (cfg' : Cfg)
    (t : UInt32) (s : String) :
    OffsetOf cfg' ti t (str s) (TypeInformation.offsetOf cfg' ti ((ti.get.length + 2) * ((str s).length + 1)) t (str s)) := by
  refine ⟨?_, _, rfl⟩
  obtain ⟨cs, b, -, hy, he⟩ := offsetOf_cases cfg' ti t (utf8Like_str s)
  have hlen := yields_length (utf8Like_str s) hy
  rw [congrFun he]
  have hids : ∀ t u, Depends ti t u → t ∈ (ti.get.map Prod.fst).toFinset := by
    intro t u hd
    cases hd with
    | «alias» h1 h2 => exact List.mem_toFinset.2 (parsed_listed hR h h1 (by rintro rfl; cases h2))
    | size h1 h2 => exact List.mem_toFinset.2 (parsed_listed hR h h1 (by rintro rfl; cases h2))
    | anonymous h1 h2 _ _ => exact List.mem_toFinset.2 (parsed_listed hR h h1 (by rintro rfl; cases h2))
  have hcard := parsed_ids ti
  refine impl_enough hac hids _ t _ cs ∅ (by simp) (by simp) ?_
  have h1 := Nat.mul_le_mul (show (ti.get.map Prod.fst).toFinset.card + 2 ≤ ti.get.length + 2 by omega) hlen
  rw [Nat.mul_add, Nat.mul_one]
  simp only [Finset.card_empty]
  omega

end

namespace Examples

open Samples

/-- `parsed_sizes_fit`, `size_of_release_parsed`: the release build on `bad`, where a size does not fit. -/
example : TypeInformation.new rel (buffer (leFile badTypes badStrings)) = .ok bad ∧
    ∃ m, HasSize none bad 4 m ∧ 18446744039349813252 = m % rel.usizeMod := by
  have hp : TypeInformation.new rel (buffer (leFile badTypes badStrings)) = .ok bad := by decide +kernel
  exact ⟨hp, (size_of_release_parsed rfl (.inl rfl) hp 4 _).1 ⟨by simp, 3, by decide +kernel⟩⟩

/-- `size_of_depth`, `offset_of_depth`: `zoo`, with 16 types. -/
example : TypeInformation.sizeOf dbg zoo 17 7 = .ok 80 :=
  size_of_depth (R := buffer (leFile zooTypes zooStrings)) (.inl rfl) zoo_parsed dbg 7 (.ok 80) ⟨by simp, 5, by decide +kernel⟩

example : OffsetOf dbg zoo 7 (str "arr[3]") (.ok (1, .byteOffset 36)) := by
  have := offset_of_depth (cfg := dbg) (R := buffer (leFile zooTypes zooStrings)) (.inl rfl) zoo_parsed zoo_acyclic dbg 7 "arr[3]"
  rwa [show TypeInformation.offsetOf dbg zoo ((zoo.get.length + 2) * ((str "arr[3]").length + 1)) 7 (str "arr[3]") =
    .ok (1, .byteOffset 36) by decide +kernel] at this

/-- `size_of_diverges_iff_cycle`: the typedef of itself. -/
example : Diverges (fun k => TypeInformation.sizeOf dbg bad k 1) :=
  (size_of_diverges_iff_cycle (R := buffer (leFile badTypes badStrings)) (.inl rfl) bad_parsed dbg 1).2
    ⟨1, .refl, .single ⟨_, bad_1, rfl⟩⟩

/-- `new_bad_magic`: a buffer. -/
example : TypeInformation.new dbg (buffer [0x9F, 0xEC, 0]) = .err .InvalidMagic :=
  (new_bad_magic (serves _ (by decide)) (fits _) (fun history offset len e h => by
    rcases buffer_errors dbg _ history offset len _ h with h | h <;> rw [h] <;> decide)).2 ⟨by decide, by decide, by decide⟩

/-- `new_byte_order`: a big-endian file. -/
example : ∃ fh vs n, Preamble (zooFile .big) .big fh ∧ Records .crate (zooFile .big) .big fh (typeStart fh) vs n ∧ Holds zoo vs := by
  rcases new_byte_order (serves _ (by decide +kernel)) (fits _) zoo_parsed_big with ⟨h, -⟩ | ⟨-, h⟩
  · exact absurd h (by decide +kernel)
  · exact h

end Examples

end Btf.Props

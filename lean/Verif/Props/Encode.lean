import Verif.Proofs.Encode
import Verif.Props.Examples

/-!
# Property C76: reading back what was written
-/

namespace Btf.Props

open Btf Spec TypeInformation

variable {cfg : Cfg} {R : Readable} {e : Endianness} {ds : List Decl}

/-- C76: every list of declarations (in little-endian files; in big-endian ones, if there are no 64-bit
enumerations) written to a file of less than 4 GiB is read back: `new` succeeds, and type `i` says what
declaration `i` says. -/
theorem round_trip (hg : ∀ d ∈ ds, Good d)
    (hsize : 24 + 4 * (typeWords ds).length + (stringTable ds).length < 2 ^ 32)
    (he : e = .little ∨ ∀ d ∈ ds, d.isEnum64 = false)
    (hS : Serves cfg R (encode e ds)) (ht : FitsTarget cfg (encode e ds)) :
    ∃ ti vs, TypeInformation.new cfg R = .ok ti ∧ Holds ti vs ∧ List.Forall₂ Says ds vs := by
  have hd := encode_decodes hsize e hg
  obtain ⟨ti, h1, h2⟩ := new_complete_documented_partial hS ht hd
    (fun th d hm => by
      obtain ⟨x, -, hx⟩ := List.mem_map.1 hm
      cases x <;> cases hx
      rfl)
    (by
      rcases he with rfl | he
      · left
        simp only [encode, fileOf, List.append_assoc]
        rfl
      · right
        intro v hv
        obtain ⟨x, hx, rfl⟩ := List.mem_map.1 hv
        have := he x hx
        cases x <;> first | rfl | cases this)
  exact ⟨ti, _, h1, h2, forall₂_map fun d hd => says_variantOf (hg d hd)⟩

/-- C76: on a 32-bit target it is enough that the file ends 1 MiB before the end of the address space. -/
theorem encode_fits (h : 24 + 4 * (typeWords ds).length + (stringTable ds).length + 2 ^ 20 < 2 ^ 32) :
    FitsTarget cfg (encode e ds) := by
  refine .inr fun e' fh hp => ?_
  obtain ⟨h1, h2, h3, h4⟩ := encode_places (ds := ds) (by omega)
  have hp' : Preamble (encode e ds) e (encodeHeader ds) := preamble_fileOf e
  obtain ⟨rfl, rfl⟩ := preamble_unique hp hp'
  omega

theorem says_name {d : Decl} {v : TypeVariant} (h : Says d v) : typeName v = nameStr (declName d) := by
  cases d <;> cases v <;> first | exact h.elim | skip
  all_goals first | rfl | exact h.1 | (simp only [Says] at h; subst h; rfl)

/-- C76: what the lookups answer: id `i + 1` is declaration `i`, with its name; there are no other ids. -/
theorem round_trip_lookup (hg : ∀ d ∈ ds, Good d)
    (hsize : 24 + 4 * (typeWords ds).length + (stringTable ds).length < 2 ^ 32)
    (he : e = .little ∨ ∀ d ∈ ds, d.isEnum64 = false)
    (hS : Serves cfg R (encode e ds)) (ht : FitsTarget cfg (encode e ds)) :
    ∃ ti, TypeInformation.new cfg R = .ok ti ∧ ti.get.length = ds.length ∧
      ∀ i (h : i < ds.length), ∃ v, ti.fromId (UInt32.ofNat (i + 1)) = some v ∧ Says ds[i] v ∧
        ti.nameOf (UInt32.ofNat (i + 1)) = nameStr (declName ds[i]) := by
  obtain ⟨ti, vs, h1, h2, h3⟩ := round_trip hg hsize he hS ht
  have hl := h3.length_eq
  have hlen := decodes_length (encode_decodes hsize e hg)
  rw [List.length_map] at hlen
  refine ⟨ti, h1, by rw [h2.get, numbered]; simp [hl], fun i hi => ?_⟩
  have hv := (List.forall₂_iff_get.1 h3).2 i hi (hl ▸ hi)
  have hi' : (UInt32.ofNat (i + 1)).toNat = i + 1 := UInt32.toNat_ofNat_of_lt' (by rw [UInt32.size]; omega)
  rw [h2.fromId, h2.nameOf, hi', typeAt]
  have hg : (TypeVariant.void :: vs)[i + 1]? = some (vs[i]'(hl ▸ hi)) := by simp
  exact ⟨_, hg, hv, by rw [hg]; exact says_name hv⟩

/-! ### Example -/

/-- `struct s { int a : 3; int b[2]; }` and an enumeration with a negative value. -/
def someDecls : List Decl :=
  [.int [105, 110, 116] 4 true false false 0 32, .array 1 1 2,
   .struct [115] 12 [⟨[97], 1, 0, some 3⟩, ⟨[98], 2, 32, none⟩],
   .enum [] 4 true [([110], -1), ([112], 7)], .typedef [105, 110] 1, .enum64 [119] 8 false [([98], 2 ^ 40 + 5)]]

theorem someDecls_good : ∀ d ∈ someDecls, Good d := by
  intro d hd
  simp only [someDecls, List.mem_cons, List.not_mem_nil, or_false] at hd
  rcases hd with rfl | rfl | rfl | rfl | rfl | rfl <;> simp [Good, GoodMember, hasBitfield, InRange]

/-- The names are shared: `b` is stored once, and `n` is found at the end of another name. -/
example : stringTable someDecls = [0, 105, 110, 116, 0, 115, 0, 97, 0, 98, 0, 0, 110, 0, 112, 0, 105, 110, 0, 119, 0, 98, 0] ∧
    nameOffset (stringTable someDecls) [98] = 9 := by decide +kernel

example : ∃ ti vs, TypeInformation.new Samples.dbg (Samples.buffer (encode .little someDecls)) = .ok ti ∧ Holds ti vs ∧
    List.Forall₂ Says someDecls vs :=
  round_trip someDecls_good (by decide +kernel) (.inl rfl) (Examples.serves _ (by decide +kernel)) (Examples.fits _)

end Btf.Props

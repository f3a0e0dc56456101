import Verif.Proofs.Split
import Verif.Props.Encode

/-!
# Property C114: the BTF of kernel modules
-/

namespace Btf.Props

open Btf Spec TypeInformation

variable {cfg : Cfg} {R : Readable} {e : Endianness} {ds : List Decl}

theorem stored_iff {table : List UInt8} {name : Name} :
    stored table name = true ↔ ∃ i < table.length, (name ++ [0]).isPrefixOf (table.drop i) = true := by
  simp only [stored, List.any_eq_true, List.mem_range]

theorem table_ends (names : List Name) : ∀ h : names.flatMap (· ++ [0]) ≠ [], (names.flatMap (· ++ [(0 : UInt8)])).getLast h = 0 := by
  intro h
  rcases List.eq_nil_or_concat names with rfl | ⟨ys, z, rfl⟩
  · exact absurd rfl h
  · simp [List.flatMap_append]

/-- Only the empty name has offset 0. -/
theorem splitOffset_zero {rest own : List UInt8} {name : Name} (hb : (0 :: rest).length + own.length < 2 ^ 32) (h0 : (0 : UInt8) ∉ name) :
    splitOffset (0 :: rest) own name = 0 ↔ name = [] := by
  constructor
  · intro h
    by_contra hne
    unfold splitOffset at h
    rw [if_neg (by simpa using hne)] at h
    split at h
    · next hst =>
      obtain ⟨-, h2⟩ := nameOffset_spec (stored_iff.1 hst) (by omega)
      rw [h] at h2
      cases name with
      | nil => exact hne rfl
      | cons b bs =>
        rw [UInt32.toNat_zero, List.drop_zero, List.cons_append, List.cons_prefix_cons] at h2
        exact h0 (by simp [h2.1])
    · have := congrArg UInt32.toNat h
      have hle : (nameOffset own name).toNat ≤ own.length := by
        unfold nameOffset
        have := List.findIdx_le_length (p := fun i => (name ++ [0]).isPrefixOf (own.drop i)) (xs := List.range own.length)
        rw [List.length_range] at this
        rw [UInt32.toNat_ofNat_of_lt' (by rw [UInt32.size]; omega)]
        exact this
      rw [UInt32.toNat_ofNat_of_lt' (by rw [UInt32.size]; omega), List.length_cons] at this
      simp at this
  · rintro rfl; rfl

section
variable {v fl : UInt8} {table : List UInt8} {off : Name → UInt32}

/-- C114: a file written with any string table and any offsets of names: `new` succeeds exactly if all offsets that are looked up are
inside the table. -/
theorem written_accepted_iff (hg : ∀ d ∈ ds, Good d) (hsize : 24 + 4 * (ds.flatMap (words off)).length + table.length < 2 ^ 32)
    (hlast : ∀ h : table ≠ [], table.getLast h = 0) (hS : Serves cfg R (fileOf e v fl (ds.flatMap (words off)) table))
    (ht : FitsTarget cfg (fileOf e v fl (ds.flatMap (words off)) table)) :
    (∃ ti, TypeInformation.new cfg R = .ok ti) ↔
      ∀ d ∈ ds, ∀ name ∈ namesOf d, off name ≠ 0 ∨ name ∈ valueNames d → (off name).toNat < table.length := by
  rw [new_accepts_iff hS ht]
  constructor
  · rintro ⟨vs, h⟩ d hd name hn h0
    exact written_ok hg hsize h hd hn h0
  · intro h
    rcases newT_file hS (fits_of_target ht) with ⟨vs, h1, -⟩ | ⟨q, -, h1, -⟩
    · exact ⟨vs, h1⟩
    · obtain ⟨-, d, hd, name, hn, h2, h3⟩ := written_flaw hg hsize hlast h1
      have := h d hd name hn h2
      omega

/-- C114: otherwise the error is `InvalidStringOffset`. -/
theorem written_refused_iff (hg : ∀ d ∈ ds, Good d) (hsize : 24 + 4 * (ds.flatMap (words off)).length + table.length < 2 ^ 32)
    (hlast : ∀ h : table ≠ [], table.getLast h = 0) (hS : Serves cfg R (fileOf e v fl (ds.flatMap (words off)) table))
    (ht : FitsTarget cfg (fileOf e v fl (ds.flatMap (words off)) table)) :
    TypeInformation.new cfg R = .err .InvalidStringOffset ↔
      ∃ d ∈ ds, ∃ name ∈ namesOf d, (off name ≠ 0 ∨ name ∈ valueNames d) ∧ table.length ≤ (off name).toNat := by
  constructor
  · intro h
    obtain ⟨q, hq, -⟩ := new_err.1 h
    exact (written_flaw hg hsize hlast (new_err_sound hS ht hq)).2
  · rintro ⟨d, hd, name, hn, h0, hl⟩
    rcases newT_file hS (fits_of_target ht) with ⟨vs, h1, -⟩ | ⟨q, h2, h1, -⟩
    · have := written_ok hg hsize h1 hd hn h0
      omega
    · exact new_err.2 ⟨q, h2, (written_flaw hg hsize hlast h1).1⟩

end

section
variable {rest : List UInt8}

/-- C114: the BTF of a module is read without its base: `new` succeeds exactly if the offsets of all names, also of those in the
base, happen to be inside the module's own string table. -/
theorem split_accepted_iff (hg : ∀ d ∈ ds, Good d) (hv : ∀ d ∈ ds, ∀ name ∈ valueNames d, name ≠ [])
    (hb : (0 :: rest).length + (ownTable (0 :: rest) ds).length < 2 ^ 32)
    (hsize : 24 + 4 * (splitWords (0 :: rest) ds).length + (ownTable (0 :: rest) ds).length < 2 ^ 32)
    (hS : Serves cfg R (encodeSplit e (0 :: rest) ds)) (ht : FitsTarget cfg (encodeSplit e (0 :: rest) ds)) :
    (∃ ti, TypeInformation.new cfg R = .ok ti) ↔ ∀ d ∈ ds, ∀ name ∈ namesOf d, name ≠ [] →
      (splitOffset (0 :: rest) (ownTable (0 :: rest) ds) name).toNat < (ownTable (0 :: rest) ds).length := by
  rw [written_accepted_iff hg hsize (table_ends _) hS ht]
  refine forall₂_congr fun d hd => forall₂_congr fun name hn => imp_congr_left ?_
  have := splitOffset_zero hb (good_names (hg d hd) name hn)
  rw [Ne, this]
  exact ⟨fun h => h.elim id fun h => hv d hd name h, .inl⟩

/-- C114: otherwise it is refused, with the error `InvalidStringOffset`. -/
theorem split_refused_iff (hg : ∀ d ∈ ds, Good d) (hv : ∀ d ∈ ds, ∀ name ∈ valueNames d, name ≠ [])
    (hb : (0 :: rest).length + (ownTable (0 :: rest) ds).length < 2 ^ 32)
    (hsize : 24 + 4 * (splitWords (0 :: rest) ds).length + (ownTable (0 :: rest) ds).length < 2 ^ 32)
    (hS : Serves cfg R (encodeSplit e (0 :: rest) ds)) (ht : FitsTarget cfg (encodeSplit e (0 :: rest) ds)) :
    TypeInformation.new cfg R = .err .InvalidStringOffset ↔ ∃ d ∈ ds, ∃ name ∈ namesOf d, name ≠ [] ∧
      (ownTable (0 :: rest) ds).length ≤ (splitOffset (0 :: rest) (ownTable (0 :: rest) ds) name).toNat := by
  rw [written_refused_iff hg hsize (table_ends _) hS ht]
  refine exists_congr fun d => and_congr_right fun hd => exists_congr fun name => and_congr_right fun hn => and_congr_left' ?_
  have := splitOffset_zero hb (good_names (hg d hd) name hn)
  rw [Ne, this]
  exact ⟨fun h => h.elim id fun h => hv d hd name h, .inl⟩

/-- C114: in particular, every module with a name of its own and with a string table that is not longer than that of the base (as
those of all real modules) is refused. -/
theorem split_refused (hg : ∀ d ∈ ds, Good d) (hv : ∀ d ∈ ds, ∀ name ∈ valueNames d, name ≠ [])
    (hb : (0 :: rest).length + (ownTable (0 :: rest) ds).length < 2 ^ 32)
    (hsize : 24 + 4 * (splitWords (0 :: rest) ds).length + (ownTable (0 :: rest) ds).length < 2 ^ 32)
    (hS : Serves cfg R (encodeSplit e (0 :: rest) ds)) (ht : FitsTarget cfg (encodeSplit e (0 :: rest) ds))
    (hown : ownNames (0 :: rest) ds ≠ []) (hlong : (ownTable (0 :: rest) ds).length ≤ (0 :: rest).length) :
    TypeInformation.new cfg R = .err .InvalidStringOffset := by
  rw [split_refused_iff hg hv hb hsize hS ht]
  obtain ⟨name, hm⟩ := List.exists_mem_of_ne_nil _ hown
  obtain ⟨hm1, hm2⟩ := List.mem_filter.1 hm
  obtain ⟨d, hd, hn⟩ := List.mem_flatMap.1 hm1
  simp only [Bool.not_eq_true', Bool.or_eq_false_iff] at hm2
  refine ⟨d, hd, name, hn, by simpa using hm2.1, ?_⟩
  have hle : (nameOffset (ownTable (0 :: rest) ds) name).toNat ≤ (ownTable (0 :: rest) ds).length := by
    unfold nameOffset
    have := List.findIdx_le_length (p := fun i => (name ++ [0]).isPrefixOf ((ownTable (0 :: rest) ds).drop i))
      (xs := List.range (ownTable (0 :: rest) ds).length)
    rw [List.length_range] at this
    rw [UInt32.toNat_ofNat_of_lt' (by rw [UInt32.size]; omega)]
    exact this
  rw [splitOffset, if_neg (by simp [hm2.1]), if_neg (by simp [hm2.2]), UInt32.toNat_ofNat_of_lt' (by rw [UInt32.size]; omega)]
  omega

end

/-! ### What is reported if it is accepted -/

theorem readName_of_nameAt {v fl : UInt8} {types : List UInt32} {table : List UInt8} (hsize : 24 + 4 * types.length + table.length < 2 ^ 32)
    {o : UInt32} {n : Option Str} (h : NameAt (fileOf e v fl types table) (writtenHeader v fl types table) o n) : n = readName table o := by
  obtain ⟨-, -, p3, -⟩ := written_places (v := v) (fl := fl) hsize
  cases n with
  | none =>
    change o = 0 at h
    simp [readName, h]
  | some s =>
    obtain ⟨h0, -, bs, -, h2, h3, rfl⟩ := h
    have hd : (fileOf e v fl types table).drop (24 + 4 * types.length + o.toNat) = table.drop o.toNat := by
      apply List.ext_getElem?
      intro i
      rw [List.getElem?_drop, strings_fileOf e (by omega), List.getElem?_drop]
      congr 1
      omega
    rw [p3, hd] at h3
    rw [readName, if_neg h0]
    have h4 : table.drop o.toNat = bs ++ 0 :: (table.drop o.toNat).drop (bs.length + 1) := by
      conv => lhs; rw [← List.take_append_drop (bs.length + 1) (table.drop o.toNat), h3, List.append_assoc]
      rfl
    have h5 : ∀ b ∈ bs, decide (b ≠ (0 : UInt8)) = true := fun b hb => decide_eq_true fun h => h2 (by subst h; exact hb)
    rw [h4, List.takeWhile_append_of_pos h5]
    simp

theorem written_typeName {f : List UInt8} {fh : FileHeader} {off : Name → UInt32} (h0 : off [] = 0) {d : Decl} {th : Header} {p : Nat}
    {v : TypeVariant} (h : headerOf (variantOf off d) = some th) (hb : Body .crate f e fh th p v) : NameAt f fh (off (declName d)) (typeName v) := by
  cases d <;> cases h <;> cases v <;>
    simp only [Body, reduceCtorEq, false_and, and_false] at hb <;> obtain ⟨rfl, -, hb⟩ := hb
  case ptr | array | volatile | const | restrict | funcProto => exact h0
  case int => obtain ⟨w, -, h, -⟩ := hb; exact h
  all_goals exact hb.1

/-- C114: if the BTF of a module is accepted, then the types of the module have the ids 1, 2, … (not those behind the base), and each
has the name that is found at the offset in the module's own string table. -/
theorem split_names {rest : List UInt8} (hg : ∀ d ∈ ds, Good d)
    (hsize : 24 + 4 * (splitWords (0 :: rest) ds).length + (ownTable (0 :: rest) ds).length < 2 ^ 32)
    (hS : Serves cfg R (encodeSplit e (0 :: rest) ds)) (ht : FitsTarget cfg (encodeSplit e (0 :: rest) ds))
    {ti : TypeInformation} (h : TypeInformation.new cfg R = .ok ti) :
    ti.get.length = ds.length ∧ ∀ i (hi : i < ds.length), ti.nameOf (UInt32.ofNat (i + 1)) =
      readName (ownTable (0 :: rest) ds) (splitOffset (0 :: rest) (ownTable (0 :: rest) ds) (declName ds[i])) := by
  obtain ⟨vs, hd, hh⟩ := new_sound hS ht h
  have hlen := decodes_length hd
  obtain ⟨e', fh, n, hp, hE, hr, hn'⟩ := hd
  obtain ⟨rfl, rfl⟩ := preamble_unique hp (preamble_fileOf _)
  obtain ⟨p1, p2, -, -⟩ := written_places (v := 1) (fl := 0) hsize
  rw [p1] at hr
  have hall := records_written hg (fun j w h => word_fileOf _ h) p2 hr hn'
  obtain ⟨hl, hall⟩ := List.forall₂_iff_get.1 hall
  refine ⟨by rw [hh.get, numbered]; simp [hl], fun i hi => ?_⟩
  obtain ⟨p, th, h1, h2, -⟩ := hall i hi (by omega)
  have hi' : (UInt32.ofNat (i + 1)).toNat = i + 1 := UInt32.toNat_ofNat_of_lt' (by rw [UInt32.size]; omega)
  have hg : (TypeVariant.void :: vs)[i + 1]? = some (vs[i]'(hl ▸ hi)) := by simp
  rw [hh.nameOf, hi', typeAt, hg]
  exact readName_of_nameAt hsize (written_typeName rfl h1 h2)

/-! ### Kernel and module in one file -/

theorem stringAt_fileOf {v fl : UInt8} {types : List UInt32} {table : List UInt8} (hsize : 24 + 4 * types.length + table.length < 2 ^ 32)
    {o : UInt32} {name : Name} (h0 : (0 : UInt8) ∉ name) (h1 : o.toNat ≤ table.length) (h2 : name ++ [0] <+: table.drop o.toNat) :
    StringAt (fileOf e v fl types table) (writtenHeader v fl types table) o (latin1 name) := by
  obtain ⟨-, -, p3, p4⟩ := written_places (v := v) (fl := fl) hsize
  have hl := h2.length_le
  rw [List.length_append, List.length_drop, List.length_singleton] at hl
  refine ⟨by omega, name, by omega, h0, ?_, rfl⟩
  have hd : (fileOf e v fl types table).drop (24 + 4 * types.length + o.toNat) = table.drop o.toNat := by
    apply List.ext_getElem?
    intro i
    rw [List.getElem?_drop, strings_fileOf e (by omega), List.getElem?_drop]
    congr 1
    omega
  rw [p3, hd]
  have := List.prefix_iff_eq_take.1 h2
  rw [List.length_append, List.length_singleton] at this
  exact this.symm

theorem stored_in_own {names : List Name} {name : Name} (h : name ∈ names) :
    ∃ i < (names.flatMap (· ++ [(0 : UInt8)])).length, (name ++ [0]).isPrefixOf ((names.flatMap (· ++ [(0 : UInt8)])).drop i) = true := by
  obtain ⟨s, t, rfl⟩ := List.append_of_mem h
  refine ⟨(s.flatMap (· ++ [0])).length, ?_, ?_⟩
  · simp only [List.flatMap_append, List.flatMap_cons, List.length_append, List.length_cons]
    omega
  · rw [List.isPrefixOf_iff_prefix, List.flatMap_append, List.drop_left, List.flatMap_cons]
    exact List.prefix_append _ _

/-- Where the names of the module are in the two string tables. -/
theorem splitOffset_spec {base : List UInt8} {rest : List UInt8} (hbase : base = 0 :: rest)
    (hb : base.length + (ownTable base ds).length < 2 ^ 32) {name : Name} (hn : name ∈ ds.flatMap namesOf) :
    (splitOffset base (ownTable base ds) name).toNat ≤ (base ++ ownTable base ds).length ∧
    name ++ [0] <+: (base ++ ownTable base ds).drop (splitOffset base (ownTable base ds) name).toNat := by
  unfold splitOffset
  split
  · next h =>
    simp only [List.isEmpty_iff] at h
    subst h hbase
    exact ⟨Nat.zero_le _, by simp⟩
  · next h =>
    split
    · next hst =>
      obtain ⟨h1, h2⟩ := nameOffset_spec (stored_iff.1 hst) (by omega)
      refine ⟨by rw [List.length_append]; omega, ?_⟩
      rw [List.drop_append_of_le_length (by omega)]
      exact h2.trans (List.prefix_append _ _)
    · next hst =>
      have hm : name ∈ ownNames base ds := List.mem_filter.2 ⟨hn, by simp [hst, h]⟩
      obtain ⟨h1, h2⟩ := nameOffset_spec (table := ownTable base ds) (stored_in_own hm) (by omega)
      rw [UInt32.toNat_ofNat_of_lt' (by rw [UInt32.size]; omega)]
      refine ⟨by rw [List.length_append]; omega, ?_⟩
      rw [List.drop_length_add_append]
      exact h2

/-- What the file contains. -/
theorem merged_decodes {kernel : List Decl} (hk : ∀ d ∈ kernel, Good d) (hg : ∀ d ∈ ds, Good d)
    (hsize : 24 + 4 * ((typeWords kernel).length + (splitWords (stringTable kernel) ds).length) +
      ((stringTable kernel).length + (ownTable (stringTable kernel) ds).length) < 2 ^ 32) :
    Decodes .documented (merged e kernel ds) (kernel.map (variantOf (nameOffset (stringTable kernel))) ++
      ds.map (variantOf (splitOffset (stringTable kernel) (ownTable (stringTable kernel) ds)))) := by
  have hsize' : 24 + 4 * (typeWords kernel ++ splitWords (stringTable kernel) ds).length +
      (stringTable kernel ++ ownTable (stringTable kernel) ds).length < 2 ^ 32 := by simpa only [List.length_append] using hsize
  obtain ⟨p1, p2, -, -⟩ := written_places (v := 1) (fl := 0) hsize'
  have hw : ∀ j w, (typeWords kernel ++ splitWords (stringTable kernel) ds)[j]? = some w → Word (merged e kernel ds) e (24 + 4 * j) w :=
    fun j w h => word_fileOf e h
  rw [List.length_append] at p2
  have hr1 := records_words (f := merged e kernel ds) (e := e) (off := nameOffset (stringTable kernel))
    (fh := writtenHeader 1 0 (typeWords kernel ++ splitWords (stringTable kernel) ds)
      (stringTable kernel ++ ownTable (stringTable kernel) ds)) (ds := kernel) (pos := 24) hk
    (fun d hd => by
      refine ⟨fun name hn => ?_, fun name hn => ?_⟩
      · obtain ⟨h1, h2⟩ := nameOffset_spec (stored_in_table (List.mem_flatMap.2 ⟨d, hd, hn⟩)) (by rw [← stringTable]; omega)
        refine stringAt_fileOf hsize' (good_names (hk d hd) name hn) (by rw [List.length_append, stringTable]; omega) ?_
        rw [List.drop_append_of_le_length (by rw [stringTable]; omega)]
        exact h2.trans (List.prefix_append _ _)
      · exact (encode_names (e := e) (ds := kernel) (by omega) hk hd).zero name hn)
    (fun j w h => by
      change (typeWords kernel)[j]? = some w at h
      exact hw j w (by rw [List.getElem?_append_left (List.getElem?_eq_some_iff.1 h).1]; exact h))
    (by rw [p2]; change _ + 4 * (typeWords kernel).length ≤ _; omega)
  have hr2 := records_words (f := merged e kernel ds) (e := e) (off := splitOffset (stringTable kernel) (ownTable (stringTable kernel) ds))
    (fh := writtenHeader 1 0 (typeWords kernel ++ splitWords (stringTable kernel) ds)
      (stringTable kernel ++ ownTable (stringTable kernel) ds)) (ds := ds) (pos := 24 + 4 * (typeWords kernel).length) hg
    (fun d hd => by
      refine ⟨fun name hn => ?_, fun name hn => ?_⟩
      · obtain ⟨h1, h2⟩ := splitOffset_spec (base := stringTable kernel) rfl (by omega) (List.mem_flatMap.2 ⟨d, hd, hn⟩)
        exact stringAt_fileOf hsize' (good_names (hg d hd) name hn) h1 h2
      · exact splitOffset_zero (by rw [← stringTable]; omega) (good_names (hg d hd) name hn))
    (fun j w h => by
      have := hw ((typeWords kernel).length + j) w (by
        rw [List.getElem?_append_right (by omega), Nat.add_sub_cancel_left]; exact h)
      rwa [Nat.mul_add, ← Nat.add_assoc] at this)
    (by rw [p2]; change _ + 4 * (splitWords (stringTable kernel) ds).length ≤ _; omega)
  refine ⟨e, _, 24 + 4 * (typeWords kernel).length + 4 * (splitWords (stringTable kernel) ds).length, preamble_fileOf e, by omega, ?_, ?_⟩
  · rw [p1]
    exact records_append hr1 hr2
  · change _ = typeEnd _
    omega

/-- C114: kernel and module in one file are read back: the types of the kernel, then those of the module, as declared; so the module's
types have the ids that they have behind the kernel's. -/
theorem merged_read {kernel : List Decl} (hk : ∀ d ∈ kernel, Good d) (hg : ∀ d ∈ ds, Good d)
    (hsize : 24 + 4 * ((typeWords kernel).length + (splitWords (stringTable kernel) ds).length) +
      ((stringTable kernel).length + (ownTable (stringTable kernel) ds).length) < 2 ^ 32)
    (he : e = .little ∨ ∀ d ∈ kernel ++ ds, d.isEnum64 = false)
    (hS : Serves cfg R (merged e kernel ds)) (ht : FitsTarget cfg (merged e kernel ds)) :
    ∃ ti vs, TypeInformation.new cfg R = .ok ti ∧ Holds ti vs ∧ List.Forall₂ Says (kernel ++ ds) vs := by
  have hd := merged_decodes (e := e) hk hg hsize
  obtain ⟨ti, h1, h2⟩ := new_complete_documented_partial hS ht hd
    (fun th d hm => by
      rcases List.mem_append.1 hm with hm | hm <;>
      · obtain ⟨x, -, hx⟩ := List.mem_map.1 hm
        cases x <;> cases hx
        rfl)
    (by
      rcases he with rfl | he
      · left
        simp only [merged, fileOf, List.append_assoc]
        rfl
      · right
        intro v hv
        rcases List.mem_append.1 hv with hv | hv <;>
        · obtain ⟨x, hx, rfl⟩ := List.mem_map.1 hv
          have := he x (by simp [hx])
          cases x <;> first | rfl | cases this)
  exact ⟨ti, _, h1, h2, List.rel_append (forall₂_map fun d hd => says_variantOf (hk d hd)) (forall₂_map fun d hd => says_variantOf (hg d hd))⟩

/-- C114: everything that was known about the kernel alone stays: the types of the kernel are the first ones of the merged file (what
this means for the queries: C100). -/
theorem merged_keeps {kernel : List Decl} (hk : ∀ d ∈ kernel, Good d) (hg : ∀ d ∈ ds, Good d)
    (hsize : 24 + 4 * ((typeWords kernel).length + (splitWords (stringTable kernel) ds).length) +
      ((stringTable kernel).length + (ownTable (stringTable kernel) ds).length) < 2 ^ 32)
    (he : e = .little ∨ ∀ d ∈ kernel ++ ds, d.isEnum64 = false)
    (hS : Serves cfg R (encode e kernel)) (ht : FitsTarget cfg (encode e kernel)) {ti : TypeInformation}
    (h : TypeInformation.new cfg R = .ok ti) {cfg' : Cfg} {R' : Readable}
    (hS' : Serves cfg' R' (merged e kernel ds)) (ht' : FitsTarget cfg' (merged e kernel ds)) {ti' : TypeInformation}
    (h' : TypeInformation.new cfg' R' = .ok ti') : ti.get <+: ti'.get := by
  have harr : ∀ (off : Name → UInt32) (l : List Decl) th d, TypeVariant.array th d ∈ l.map (variantOf off) → th.vlen = 0 := by
    intro off l th d hm
    obtain ⟨x, -, hx⟩ := List.mem_map.1 hm
    cases x <;> cases hx
    rfl
  have h64 : ∀ (off : Name → UInt32) (l : List Decl), (∀ d ∈ l, d.isEnum64 = false) → ∀ v ∈ l.map (variantOf off), isEnum64 v = false := by
    intro off l hl v hv
    obtain ⟨x, hx, rfl⟩ := List.mem_map.1 hv
    have := hl x hx
    cases x <;> first | rfl | cases this
  obtain ⟨ti1, h1, h2⟩ := new_complete_documented_partial hS ht (encode_decodes (by omega) e hk)
    (fun th d hm => harr _ _ th d hm) (he.imp (by rintro rfl; simp only [encode, fileOf, List.append_assoc]; rfl)
      (fun he => h64 _ _ fun d hd => he d (by simp [hd])))
  obtain ⟨ti2, h3, h4⟩ := new_complete_documented_partial hS' ht' (merged_decodes hk hg hsize)
    (fun th d hm => (List.mem_append.1 hm).elim (harr _ _ th d) (harr _ _ th d))
    (he.imp (by rintro rfl; simp only [merged, fileOf, List.append_assoc]; rfl)
      (fun he v hm => (List.mem_append.1 hm).elim (h64 _ _ (fun d hd => he d (by simp [hd])) v) (h64 _ _ (fun d hd => he d (by simp [hd])) v)))
  cases h.symm.trans h1
  cases h'.symm.trans h3
  rw [h2.get, h4.get, numbered, numbered, List.zipIdx_append, List.map_append]
  exact List.prefix_append _ _

/-! ### Examples -/

/-- The names `int` and `char`. -/
def baseTable : List UInt8 := [0, 105, 110, 116, 0, 99, 104, 97, 114, 0]

/-- `struct ab { … int; }` of a module, with a member named `int`. -/
def moduleDecls : List Decl := [.struct [97, 98] 4 [⟨[105, 110, 116], 1, 0, none⟩], .ptr 3]

theorem moduleDecls_good : ∀ d ∈ moduleDecls, Good d := by
  intro d hd
  simp only [moduleDecls, List.mem_cons, List.not_mem_nil, or_false] at hd
  rcases hd with rfl | rfl <;> simp [Good, GoodMember, hasBitfield]

/-- Only `ab` is stored in the module: at place 10, behind the base. -/
example : ownTable baseTable moduleDecls = [97, 98, 0] ∧ splitOffset baseTable (ownTable baseTable moduleDecls) [97, 98] = 10 ∧
    splitOffset baseTable (ownTable baseTable moduleDecls) [105, 110, 116] = 1 := by decide +kernel

/-- `split_refused`, `split_refused_iff`: -/
example : TypeInformation.new Samples.dbg (Samples.buffer (encodeSplit .little baseTable moduleDecls)) = .err .InvalidStringOffset :=
  split_refused moduleDecls_good (by simp [moduleDecls, valueNames]) (by decide +kernel) (by decide +kernel)
    (Examples.serves _ (by decide +kernel)) (Examples.fits _) (by decide +kernel) (by decide +kernel)

/-- `merged_read`: together with its kernel the same module is read: the struct has id 3 and its name. -/
example : ∃ ti v, TypeInformation.new Samples.dbg
      (Samples.buffer (merged .little [.int [105, 110, 116] 4 true false false 0 32, .int [99, 104, 97, 114] 1 true true false 0 8] moduleDecls)) = .ok ti ∧
    ti.fromId 3 = some v ∧ Says (.struct [97, 98] 4 [⟨[105, 110, 116], 1, 0, none⟩]) v := by
  obtain ⟨ti, vs, h1, h2, h3⟩ := merged_read (e := .little)
    (kernel := [.int [105, 110, 116] 4 true false false 0 32, .int [99, 104, 97, 114] 1 true true false 0 8])
    (by intro d hd; simp only [List.mem_cons, List.not_mem_nil, or_false] at hd; rcases hd with rfl | rfl <;> simp [Good])
    moduleDecls_good (by decide +kernel) (.inl rfl) (Examples.serves _ (by decide +kernel)) (Examples.fits _)
  obtain ⟨hl, hall⟩ := List.forall₂_iff_get.1 h3
  have hl' : vs.length = 4 := hl.symm
  refine ⟨ti, vs[2], h1, ?_, hall 2 (by decide) (by omega)⟩
  rw [h2.fromId, typeAt]
  simp

/-- `merged_keeps` for the same two files. -/
example (R R' : Readable) (ti ti' : TypeInformation)
    (hS : Serves Samples.dbg R (encode .big [.int [105, 110, 116] 4 true false false 0 32, .int [99, 104, 97, 114] 1 true true false 0 8]))
    (hS' : Serves Samples.dbg R'
      (merged .big [.int [105, 110, 116] 4 true false false 0 32, .int [99, 104, 97, 114] 1 true true false 0 8] moduleDecls))
    (h : TypeInformation.new Samples.dbg R = .ok ti) (h' : TypeInformation.new Samples.dbg R' = .ok ti') : ti.get <+: ti'.get :=
  merged_keeps (by intro d hd; simp only [List.mem_cons, List.not_mem_nil, or_false] at hd; rcases hd with rfl | rfl <;> simp [Good])
    moduleDecls_good (by decide +kernel) (.inr (by simp [moduleDecls, Decl.isEnum64])) hS (Examples.fits _) h hS' (Examples.fits _) h'

/-- A module with a long name, whose base has a short string table with the name `a`. -/
def longDecls : List Decl := [.float [120, 121, 122, 117, 118, 119] 4, .float [97] 8]

theorem longDecls_good : ∀ d ∈ longDecls, Good d := by
  intro d hd
  simp only [longDecls, List.mem_cons, List.not_mem_nil, or_false] at hd
  rcases hd with rfl | rfl <;> simp [Good]

/-- `split_accepted_iff`, `split_names`: `xyzuvw` is read as `uvw` and `a` as `yzuvw`. -/
example : ∃ ti, TypeInformation.new Samples.dbg (Samples.buffer (encodeSplit .little [0, 97, 0] longDecls)) = .ok ti ∧
    ti.get.length = 2 ∧ ti.nameOf 1 = some (latin1 [117, 118, 119]) ∧ ti.nameOf 2 = some (latin1 [121, 122, 117, 118, 119]) := by
  have hS := Examples.serves (encodeSplit .little [0, 97, 0] longDecls) (by decide +kernel)
  have ht := Examples.fits (encodeSplit .little [0, 97, 0] longDecls)
  obtain ⟨ti, h⟩ := (split_accepted_iff (e := .little) longDecls_good (by simp [longDecls, valueNames]) (by decide +kernel)
    (by decide +kernel) hS ht).2 (by decide +kernel)
  obtain ⟨h1, h2⟩ := split_names longDecls_good (by decide +kernel) hS ht h
  exact ⟨ti, h, h1, (h2 0 (by decide)).trans (by decide +kernel), (h2 1 (by decide)).trans (by decide +kernel)⟩

end Btf.Props

import Verif.Spec.Split
import Verif.Proofs.Encode
import Verif.Props.Parse

namespace Btf

open Spec

section
variable {f : List UInt8} {e : Endianness} {fh : FileHeader} {off : Name → UInt32}

theorem header_words {pos : Nat} {d : Decl} (hg : Good d)
    (hw : ∀ j w, (words off d)[j]? = some w → Word f e (pos + 4 * j) w) :
    ∃ th, headerOf (variantOf off d) = some th ∧ HeaderAt f e pos th := by
  cases d
  case ptr | fwd | typedef | volatile | const | restrict | func | float | typeTag =>
    exact ⟨_, rfl, headerAt_words (rest := []) (by decide) (by simpa [words] using hw)⟩
  case int | array | var | declTag => exact ⟨_, rfl, headerAt_words (by decide) hw⟩
  case struct | union | enum | enum64 => exact ⟨_, rfl, headerAt_words hg.2.1 hw⟩
  case funcProto => exact ⟨_, rfl, headerAt_words hg.1 hw⟩
  case dataSec => exact ⟨_, rfl, headerAt_words hg.2 hw⟩

theorem bounded_words {d : Decl} {th : Header} (h : headerOf (variantOf off d) = some th) :
    boundedSize .crate th.kind th.vlen ≤ bodySize th.kind th.vlen := by
  cases d <;> cases h <;> simp [boundedSize, bodySize]

theorem ref_of_name {pos : Nat} {d : Decl} (hw : ∀ j w, (words off d)[j]? = some w → Word f e (pos + 4 * j) w)
    {th : Header} (h : headerOf (variantOf off d) = some th) {name : Name} (hn : name ∈ namesOf d)
    (h0 : off name ≠ 0 ∨ name ∈ valueNames d) : StringRef f e th (pos + 12) (off name) := by
  cases d <;> cases h <;> simp only [namesOf, valueNames, List.mem_cons, List.not_mem_nil, or_false, List.mem_map] at hn h0
  case int | fwd | typedef | func | var | float | declTag | typeTag | dataSec => subst hn; exact .name rfl rfl h0
  case struct name size ms =>
    rcases hn with rfl | ⟨m, hm, rfl⟩
    · exact .name rfl rfl h0
    · obtain ⟨i, hi, rfl⟩ := List.getElem_of_mem hm
      exact .item i (.inl rfl) hi (item_words (k := 3) (fun _ => rfl) (fun j w => body_words hw) hi (j := 0) rfl) h0
  case union name size ms =>
    rcases hn with rfl | ⟨m, hm, rfl⟩
    · exact .name rfl rfl h0
    · obtain ⟨i, hi, rfl⟩ := List.getElem_of_mem hm
      exact .item i (.inr (.inl rfl)) hi (item_words (k := 3) (fun _ => rfl) (fun j w => body_words hw) hi (j := 0) rfl) h0
  case funcProto =>
    obtain ⟨m, hm, rfl⟩ := hn
    obtain ⟨i, hi, rfl⟩ := List.getElem_of_mem hm
    exact .item i (.inr (.inr rfl)) hi (item_words (k := 2) (fun _ => rfl) (fun j w => body_words hw) hi (j := 0) rfl) h0
  case enum name' size signed vs =>
    by_cases hv : ∃ a ∈ vs, a.1 = name
    · obtain ⟨m, hm, rfl⟩ := hv
      obtain ⟨i, hi, rfl⟩ := List.getElem_of_mem hm
      exact .enumerator i (.inl rfl) hi (item_words (k := 2) (g := fun v : Name × Int => [off v.1, lowWord v.2 0]) (fun _ => rfl)
        (fun j w => body_words hw) hi (j := 0) rfl)
    · rw [or_iff_left hv] at hn h0
      subst hn
      exact .name rfl rfl h0
  case enum64 name' size signed vs =>
    by_cases hv : ∃ a ∈ vs, a.1 = name
    · obtain ⟨m, hm, rfl⟩ := hv
      obtain ⟨i, hi, rfl⟩ := List.getElem_of_mem hm
      exact .enumerator i (.inr rfl) hi (item_words (k := 3) (g := fun v : Name × Int => [off v.1, lowWord v.2 0, lowWord v.2 32])
        (fun _ => rfl) (fun j w => body_words hw) hi (j := 0) rfl)
    · rw [or_iff_left hv] at hn h0
      subst hn
      exact .name rfl rfl h0

theorem name_of_ref {pos : Nat} {d : Decl} (hw : ∀ j w, (words off d)[j]? = some w → Word f e (pos + 4 * j) w)
    {th : Header} (h : headerOf (variantOf off d) = some th) {o : UInt32} (hr : StringRef f e th (pos + 12) o) :
    ∃ name ∈ namesOf d, o = off name ∧ (o ≠ 0 ∨ name ∈ valueNames d) := by
  cases hr with
  | name h1 h2 h3 =>
    cases d <;> cases h <;> first | (cases h1; done) | exact ⟨_, by simp [namesOf], h2, .inl h3⟩
  | item i h1 h2 h3 h4 =>
    cases d <;> cases h <;> simp at h1
    case item.struct.refl name size ms =>
      have := item_words (k := 3) (g := words.memberWords off) (fun _ => rfl) (fun j w => body_words hw) h2 (j := 0) rfl
      exact ⟨ms[i].name, by simp [namesOf]; exact .inr ⟨_, List.getElem_mem h2, rfl⟩, word_unique h3 this, .inl h4⟩
    case item.union.refl name size ms =>
      have := item_words (k := 3) (g := words.memberWords off) (fun _ => rfl) (fun j w => body_words hw) h2 (j := 0) rfl
      exact ⟨ms[i].name, by simp [namesOf]; exact .inr ⟨_, List.getElem_mem h2, rfl⟩, word_unique h3 this, .inl h4⟩
    case item.funcProto.refl result ps =>
      have := item_words (k := 2) (g := fun p : Name × UInt32 => [off p.1, p.2]) (fun _ => rfl) (fun j w => body_words hw) h2 (j := 0) rfl
      exact ⟨ps[i].1, List.mem_map.2 ⟨_, List.getElem_mem h2, rfl⟩, word_unique h3 this, .inl h4⟩
  | enumerator i h1 h2 h3 =>
    cases d <;> cases h <;> simp at h1
    case enumerator.enum.refl name size signed vs =>
      have := item_words (k := 2) (g := fun v : Name × Int => [off v.1, lowWord v.2 0]) (fun _ => rfl)
        (fun j w => body_words hw) h2 (j := 0) rfl
      have hm : vs[i].1 ∈ vs.map Prod.fst := List.mem_map.2 ⟨_, List.getElem_mem h2, rfl⟩
      exact ⟨vs[i].1, List.mem_cons_of_mem _ hm, word_unique h3 this, .inr hm⟩
    case enumerator.enum64.refl name size signed vs =>
      have := item_words (k := 3) (g := fun v : Name × Int => [off v.1, lowWord v.2 0, lowWord v.2 32]) (fun _ => rfl)
        (fun j w => body_words hw) h2 (j := 0) rfl
      have hm : vs[i].1 ∈ vs.map Prod.fst := List.mem_map.2 ⟨_, List.getElem_mem h2, rfl⟩
      exact ⟨vs[i].1, List.mem_cons_of_mem _ hm, word_unique h3 this, .inr hm⟩

theorem not_misaligned {pos : Nat} {d : Decl} (hg : Good d) (hw : ∀ j w, (words off d)[j]? = some w → Word f e (pos + 4 * j) w)
    {th : Header} (h : headerOf (variantOf off d) = some th) (hk : th.kind = .Struct ∨ th.kind = .Union) (hf : th.kindFlag = false)
    {i : Nat} (hi : i < th.vlen) {raw : UInt32} (hr : Word f e (pos + 12 + i * 12 + 8) raw) : 8 ∣ raw.toNat := by
  cases d <;> cases h <;> simp at hk
  case struct name size ms =>
    have := item_words (k := 3) (g := words.memberWords off) (fun _ => rfl) (fun j w => body_words hw) hi (j := 2) rfl
    cases word_unique hr this
    have h1 := offset_words (List.getElem_mem hi) (hg.2.2 _ (List.getElem_mem hi))
    replace hf : hasBitfield ms = false := hf
    rw [hf] at h1
    exact aligned_of_memberOffset h1
  case union name size ms =>
    have := item_words (k := 3) (g := words.memberWords off) (fun _ => rfl) (fun j w => body_words hw) hi (j := 2) rfl
    cases word_unique hr this
    have h1 := offset_words (List.getElem_mem hi) (hg.2.2 _ (List.getElem_mem hi))
    replace hf : hasBitfield ms = false := hf
    rw [hf] at h1
    exact aligned_of_memberOffset h1

/-- The words of the head and of the rest. -/
theorem words_cons {d : Decl} {ds : List Decl} {pos : Nat}
    (hw : ∀ j w, ((d :: ds).flatMap (words off))[j]? = some w → Word f e (pos + 4 * j) w) :
    (∀ j w, (words off d)[j]? = some w → Word f e (pos + 4 * j) w) ∧
    ∀ j w, (ds.flatMap (words off))[j]? = some w → Word f e (pos + 4 * (words off d).length + 4 * j) w := by
  rw [List.flatMap_cons] at hw
  refine ⟨fun j w h => hw j w ?_, fun j w h => ?_⟩
  · rw [List.getElem?_append_left (List.getElem?_eq_some_iff.1 h).1]; exact h
  · have := hw ((words off d).length + j) w (by rw [List.getElem?_append_right (by omega), Nat.add_sub_cancel_left]; exact h)
    rwa [Nat.mul_add, ← Nat.add_assoc] at this

/-- What a reading of the written records consists of. -/
theorem records_written {vs : List TypeVariant} {n : Nat} : ∀ {ds : List Decl} {pos : Nat}, (∀ d ∈ ds, Good d) →
    (∀ j w, (ds.flatMap (words off))[j]? = some w → Word f e (pos + 4 * j) w) →
    typeEnd fh = pos + 4 * (ds.flatMap (words off)).length → Records .crate f e fh pos vs n → typeEnd fh ≤ n →
    List.Forall₂ (fun d v => ∃ p th, headerOf (variantOf off d) = some th ∧ Body .crate f e fh th (p + 12) v ∧
      ∀ j w, (words off d)[j]? = some w → Word f e (p + 4 * j) w) ds vs := by
  intro ds
  induction ds generalizing vs with
  | nil =>
    intro pos _ _ hE h hn
    cases h with
    | nil => exact .nil
    | cons hr _ =>
      obtain ⟨th, -, -, hb, -⟩ := hr
      simp at hE
      omega
  | cons d ds ih =>
    intro pos hg hw hE h hn
    obtain ⟨hw1, hw2⟩ := words_cons hw
    obtain ⟨th, h1, h2⟩ := header_words (hg d (by simp)) hw1
    have hl := words_length off d th h1
    rw [List.flatMap_cons, List.length_append] at hE
    cases h with
    | nil => omega
    | cons hr hrest =>
      obtain ⟨th', h3, h4, -, rfl⟩ := hr
      cases headerAt_unique h2 h3
      refine .cons ⟨pos, th, h1, h4, hw1⟩ (ih (fun d hd => hg d (by simp [hd])) hw2 (by omega) ?_ hn)
      rwa [Nat.add_assoc, ← hl] at hrest

/-- Where a reading of the written records stops. -/
theorem records_reach {vs : List TypeVariant} {n : Nat} : ∀ {ds : List Decl} {pos : Nat}, (∀ d ∈ ds, Good d) →
    (∀ j w, (ds.flatMap (words off))[j]? = some w → Word f e (pos + 4 * j) w) →
    typeEnd fh = pos + 4 * (ds.flatMap (words off)).length → Records .crate f e fh pos vs n → n < typeEnd fh →
    ∃ d ∈ ds, (∀ j w, (words off d)[j]? = some w → Word f e (n + 4 * j) w) ∧ n + 4 * (words off d).length ≤ typeEnd fh := by
  intro ds
  induction ds generalizing vs with
  | nil =>
    intro pos _ _ hE h hn
    have := records_next h
    simp at hE
    omega
  | cons d ds ih =>
    intro pos hg hw hE h hn
    obtain ⟨hw1, hw2⟩ := words_cons hw
    obtain ⟨th, h1, h2⟩ := header_words (hg d (by simp)) hw1
    have hl := words_length off d th h1
    rw [List.flatMap_cons, List.length_append] at hE
    cases h with
    | nil => exact ⟨d, by simp, hw1, by omega⟩
    | cons hr hrest =>
      obtain ⟨th', h3, h4, -, rfl⟩ := hr
      cases headerAt_unique h2 h3
      rw [Nat.add_assoc, ← hl] at hrest
      obtain ⟨d', hd', h5⟩ := ih (fun d hd => hg d (by simp [hd])) hw2 (by omega) hrest hn
      exact ⟨d', by simp [hd'], h5⟩

end

/-! ### A file written with any string table -/

theorem written_places {v fl : UInt8} {types : List UInt32} {table : List UInt8} (hsize : 24 + 4 * types.length + table.length < 2 ^ 32) :
    typeStart (writtenHeader v fl types table) = 24 ∧ typeEnd (writtenHeader v fl types table) = 24 + 4 * types.length ∧
    strStart (writtenHeader v fl types table) = 24 + 4 * types.length ∧
    strEnd (writtenHeader v fl types table) = 24 + 4 * types.length + table.length := by
  have h1 : (UInt32.ofNat (4 * types.length)).toNat = 4 * types.length :=
    UInt32.toNat_ofNat_of_lt' (by rw [UInt32.size]; omega)
  have h2 : (UInt32.ofNat table.length).toNat = table.length :=
    UInt32.toNat_ofNat_of_lt' (by rw [UInt32.size]; omega)
  have h3 : (24 : UInt32).toNat = 24 := rfl
  have h4 : (0 : UInt32).toNat = 0 := rfl
  refine ⟨?_, ?_, ?_, ?_⟩ <;> simp only [typeStart, typeEnd, strStart, strEnd, writtenHeader, h1, h2, h3, h4]

theorem fileOf_length (e : Endianness) (v fl : UInt8) (types : List UInt32) (table : List UInt8) :
    (fileOf e v fl types table).length = 24 + 4 * types.length + table.length := by
  simp only [fileOf, List.length_append, wordBytes_length, magic_length, flatMap_length, List.length_cons, List.length_nil]

section
variable {v fl : UInt8} {e : Endianness} {ds : List Decl} {table : List UInt8} {off : Name → UInt32}

/-- The only flaw of a written file is an offset that is not in the string table. -/
theorem written_flaw (hg : ∀ d ∈ ds, Good d) (hsize : 24 + 4 * (ds.flatMap (words off)).length + table.length < 2 ^ 32)
    (hlast : ∀ h : table ≠ [], table.getLast h = 0) {q : LoadReason}
    (h : FileFlaw (fileOf e v fl (ds.flatMap (words off)) table) q) :
    q.kind = .InvalidStringOffset ∧
      ∃ d ∈ ds, ∃ name ∈ namesOf d, (off name ≠ 0 ∨ name ∈ valueNames d) ∧ table.length ≤ (off name).toNat := by
  have hp0 := preamble_fileOf (version := v) (flags := fl) (types := ds.flatMap (words off)) (strings := table) e
  obtain ⟨p1, p2, p3, p4⟩ := written_places (v := v) (fl := fl) hsize
  have hlen := fileOf_length e v fl (ds.flatMap (words off)) table
  cases h with
  | truncated h => omega
  | magic h => exact absurd hp0.magic (h e)
  | sectionStart hp h => obtain ⟨rfl, rfl⟩ := preamble_unique hp hp0; omega
  | sectionEnd hp _ h => obtain ⟨rfl, rfl⟩ := preamble_unique hp hp0; omega
  | @record e' fh vs pos _ hp hE hr hpos hf =>
    obtain ⟨rfl, rfl⟩ := preamble_unique hp hp0
    rw [p1] at hr
    obtain ⟨d, hd, hw, hend⟩ := records_reach hg (fun j w h => word_fileOf _ h) p2 hr hpos
    obtain ⟨th, h1, h2⟩ := header_words (hg d hd) hw
    have hl := words_length off d th h1
    have hb := bounded_words h1
    cases hf with
    | header h => omega
    | headerTruncated _ h => have := word_le h2.2.1; omega
    | kind _ h3 h4 h5 =>
      obtain ⟨-, -, info, h6, h7, -⟩ := h2
      cases word_unique h3 h6
      exact absurd (h7.trans h4.symm) (h5 _)
    | body _ h3 h4 => cases headerAt_unique h2 h3; omega
    | bodyTruncated _ h3 h4 => cases headerAt_unique h2 h3; omega
    | misaligned _ h3 h4 h5 h6 h7 h8 =>
      cases headerAt_unique h2 h3
      exact absurd (not_misaligned (hg d hd) hw h1 h4 h5 h6 h7) h8
    | string _ h3 h4 h5 =>
      cases headerAt_unique h2 h3
      obtain ⟨name, hn, rfl, h0⟩ := name_of_ref hw h1 h4
      refine (fun hh : q.kind = .InvalidStringOffset ∧ table.length ≤ (off name).toNat => ⟨hh.1, d, hd, name, hn, h0, hh.2⟩) ?_
      cases h5 with
      | sectionStart h => omega
      | sectionEnd _ h => omega
      | overflow _ h => exact ⟨rfl, by omega⟩
      | outside _ h h' => exact ⟨rfl, by omega⟩
      | unterminated _ h h' h'' =>
        have hne : table ≠ [] := fun h0 => by rw [← List.length_eq_zero_iff] at h0; omega
        have hpos' := List.length_pos_iff.2 hne
        obtain ⟨b, hb1, hb2⟩ := h'' (24 + 4 * (ds.flatMap (words off)).length + (table.length - 1)) (by omega) (by omega)
        rw [strings_fileOf _ (by omega), Nat.add_sub_cancel_left] at hb1
        have := hlast hne
        rw [List.getLast_eq_getElem] at this
        rw [List.getElem?_eq_getElem (by omega), this] at hb1
        cases hb1
        exact absurd rfl hb2
      | truncated _ _ h => omega

/-- An accepted file has only offsets that are in the string table. -/
theorem written_ok (hg : ∀ d ∈ ds, Good d) (hsize : 24 + 4 * (ds.flatMap (words off)).length + table.length < 2 ^ 32)
    {vs : List TypeVariant} (h : Decodes .crate (fileOf e v fl (ds.flatMap (words off)) table) vs) {d : Decl} (hd : d ∈ ds) {name : Name}
    (hn : name ∈ namesOf d) (h0 : off name ≠ 0 ∨ name ∈ valueNames d) : (off name).toNat < table.length := by
  have hp0 := preamble_fileOf (version := v) (flags := fl) (types := ds.flatMap (words off)) (strings := table) e
  obtain ⟨p1, p2, p3, p4⟩ := written_places (v := v) (fl := fl) hsize
  obtain ⟨e', fh, n, hp, hE, hr, hn'⟩ := h
  obtain ⟨rfl, rfl⟩ := preamble_unique hp hp0
  rw [p1] at hr
  have hall := records_written hg (fun j w h => word_fileOf _ h) p2 hr hn'
  obtain ⟨i, hi, rfl⟩ := List.getElem_of_mem hd
  obtain ⟨hl, hall⟩ := List.forall₂_iff_get.1 hall
  obtain ⟨p, th, h1, h2, h3⟩ := hall i hi (by omega)
  obtain ⟨s, hs⟩ := body_string h2 (ref_of_name h3 h1 hn h0)
  obtain ⟨-, bs, hs, -⟩ := hs
  omega

end
end Btf

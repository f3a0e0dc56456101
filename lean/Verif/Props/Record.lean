import Verif.Props.Parse
import Verif.Spec.Record

/-!
# The parts of the reported types, word by word
-/

namespace Btf.Props

open Btf Spec

section
variable {cfg : Cfg} {f : List UInt8} {R : Readable}

/-- Every type is a record of the file: the record with id `t` follows after the `t - 1` records before it. -/
theorem new_record (hS : Serves cfg R f) (ha : FitsTarget cfg f) {ti : TypeInformation}
    (h : TypeInformation.new cfg R = .ok ti) {t : UInt32} {v : TypeVariant} (hne : v ≠ .void) (hv : ti.fromId t = some v) :
    ∃ e fh pos next, StartsAt f t e fh pos ∧ RecordAt .crate f e fh pos v next := by
  have ht : t ≠ 0 := by
    rintro rfl
    obtain ⟨vs, -, hh⟩ := new_sound hS ha h
    rw [hh.fromId] at hv
    cases hv
    exact hne rfl
  obtain ⟨vs, ⟨e, fh, n, hp, hE, hr, -⟩, hh⟩ := new_sound hS ha h
  rw [hh.fromId] at hv
  unfold typeAt at hv
  obtain ⟨m, hm⟩ : ∃ m, t.toNat = m + 1 := ⟨t.toNat - 1, by
    have : t.toNat ≠ 0 := fun h0 => ht (UInt32.toNat_inj.1 h0)
    omega⟩
  rw [hm, List.getElem?_cons_succ] at hv
  obtain ⟨p, q, h1, h2, -⟩ := records_get hr m hv
  obtain ⟨hlt, -⟩ := List.getElem?_eq_some_iff.1 hv
  exact ⟨e, fh, p, q, ⟨hp, hE, _, by rw [List.length_take_of_le (by omega), hm], h1⟩, h2⟩

/-- C14: the kind of every reported type is the documented one for bits 24-28 of its second word; the length
are bits 0-15, the kind flag bit 31, and the other bits are ignored. -/
theorem new_kind (hS : Serves cfg R f) (ha : FitsTarget cfg f) {ti : TypeInformation}
    (h : TypeInformation.new cfg R = .ok ti) {t : UInt32} {v : TypeVariant} (hne : v ≠ .void) (hv : ti.fromId t = some v) :
    ∃ e fh pos info th, StartsAt f t e fh pos ∧ Word f e (pos + 4) info ∧ headerOf v = some th ∧
      kindCode th.kind = info.toNat / 2 ^ 24 % 32 ∧ th.vlen = info.toNat % 2 ^ 16 ∧ th.kindFlag = bit info 31 ∧
      Word f e pos th.nameOffset ∧ Word f e (pos + 8) th.sizeOrType := by
  obtain ⟨e, fh, pos, next, hp, th, hh, hb, -, -⟩ := new_record hS ha h hne hv
  obtain ⟨h1, h2, info, h3, h4, h5, h6⟩ := hh
  refine ⟨e, fh, pos, info, th, hp, h3, body_header hb, h4, h5, ?_, h1, h2⟩
  have := info.toNat_lt
  unfold bit
  rw [Bool.eq_iff_iff, h6, beq_iff_eq]
  omega

theorem memberOffset_eq {kf : Bool} {raw : UInt32} {o : Offset} (h : MemberOffset kf raw o) :
    o = documentedOffset kf raw.toNat := by
  have hlt := raw.toNat_lt
  cases kf with
  | false =>
    obtain ⟨h1, h2⟩ := h
    cases o with
    | byteOffset b =>
      simp only [bitPos] at h1
      simp only [documentedOffset, Bool.false_eq_true, if_false]
      congr 1
      apply UInt32.toNat_inj.1
      rw [ofNat_toNat_lt (by omega)]; omega
    | bitOffsetAndSize b w => cases h2
  | true =>
    obtain ⟨h1, h2⟩ := h
    simp only [documentedOffset, if_true]
    cases o with
    | byteOffset b =>
      simp only [bitPos, bitWidth] at h1 h2
      rw [if_pos ⟨h2, by omega⟩]
      congr 1
      apply UInt32.toNat_inj.1
      rw [ofNat_toNat_lt (by omega)]; omega
    | bitOffsetAndSize b w =>
      simp only [bitPos, bitWidth] at h1 h2
      rw [if_neg]
      · congr 1
        · apply UInt32.toNat_inj.1
          rw [ofNat_toNat_lt (by omega)]; omega
        · apply UInt32.toNat_inj.1
          rw [ofNat_toNat_lt (by omega)]; omega
      · rintro ⟨h3, h4⟩
        rcases h2.2 with h5 | h5
        · exact h5 (UInt32.toNat_inj.1 (by rw [h2.1, h3]; rfl))
        · exact h5 (Nat.dvd_of_mod_eq_zero h4)

/-- C16: the members of every reported struct or union, computed from the words of the file. -/
theorem new_members (hS : Serves cfg R f) (ha : FitsTarget cfg f) {ti : TypeInformation}
    (h : TypeInformation.new cfg R = .ok ti) {t : UInt32} {th : Header} {d : StructData}
    (hv : ti.fromId t = some (.struct th d) ∨ ti.fromId t = some (.union th d)) :
    ∃ e fh pos, StartsAt f t e fh pos ∧ d.memberList.length = th.vlen ∧
      ∀ i m, d.memberList[i]? = some m → ∃ raw : UInt32,
        Word f e (pos + 12 + 12 * i) m.nameOffset ∧ NameAt f fh m.nameOffset m.name ∧
        Word f e (pos + 12 + 12 * i + 4) m.tid ∧
        Word f e (pos + 12 + 12 * i + 8) raw ∧ m.offset = documentedOffset th.kindFlag raw.toNat ∧
        (th.kindFlag = false → 8 ∣ raw.toNat) := by
  have key : ∃ e fh pos, StartsAt f t e fh pos ∧ StructBody f e fh th (pos + 12) d := by
    rcases hv with hv | hv
    · obtain ⟨e, fh, pos, next, hp, th', hh, hb, -⟩ := new_record hS ha h (by simp) hv
      obtain ⟨rfl, -, hb⟩ := hb
      exact ⟨e, fh, pos, hp, hb⟩
    · obtain ⟨e, fh, pos, next, hp, th', hh, hb, -⟩ := new_record hS ha h (by simp) hv
      obtain ⟨rfl, -, hb⟩ := hb
      exact ⟨e, fh, pos, hp, hb⟩
  obtain ⟨e, fh, pos, hp, -, -, hl, hit⟩ := key
  refine ⟨e, fh, pos, hp, hl, fun i m hm => ?_⟩
  obtain ⟨hlt, rfl⟩ := List.getElem?_eq_some_iff.1 hm
  obtain ⟨h1, h2, h3, raw, h4, h5⟩ := hit i hlt
  rw [Nat.mul_comm] at h1 h3 h4
  exact ⟨raw, h1, h2, h3, h4, memberOffset_eq h5, fun hkf => aligned_of_memberOffset (by rw [hkf] at h5; exact h5)⟩

/-- C17: the fields of every reported integer. -/
theorem new_int (hS : Serves cfg R f) (ha : FitsTarget cfg f) {ti : TypeInformation}
    (h : TypeInformation.new cfg R = .ok ti) {t : UInt32} {th : Header} {d : IntData}
    (hv : ti.fromId t = some (.int th d)) :
    ∃ e fh pos size w, StartsAt f t e fh pos ∧ Word f e (pos + 8) size ∧ Word f e (pos + 12) w ∧
      d.size = size.toNat ∧ d.bits = w.toNat % 2 ^ 8 ∧ d.offset = w.toNat / 2 ^ 16 % 2 ^ 8 ∧
      d.signed = bit w 24 ∧ d.char = bit w 25 ∧ d.boolean = bit w 26 := by
  obtain ⟨e, fh, pos, next, hp, th', hh, hb, -⟩ := new_record hS ha h (by simp) hv
  obtain ⟨rfl, -, w, h1, h2, h3, h4, h5, h6, h7, h8⟩ := hb
  refine ⟨e, fh, pos, _, w, hp, hh.2.1, h1, h3, h8, h7, ?_, ?_, ?_⟩ <;>
    (unfold bit; rw [Bool.eq_iff_iff, beq_iff_eq]; assumption)

/-- C17: the values of every reported enumeration: read as two's complement if the kind flag is set, as
unsigned numbers otherwise. -/
theorem new_enum (hS : Serves cfg R f) (ha : FitsTarget cfg f) {ti : TypeInformation}
    (h : TypeInformation.new cfg R = .ok ti) {t : UInt32} {th : Header} {d : EnumData}
    (hv : ti.fromId t = some (.enum th d)) :
    ∃ e fh pos, StartsAt f t e fh pos ∧ d.namedValueList.length = th.vlen ∧ d.signed = th.kindFlag ∧
      ∀ i x, d.namedValueList[i]? = some x → ∃ name w : UInt32,
        Word f e (pos + 12 + 8 * i) name ∧ StringAt f fh name x.name ∧ Word f e (pos + 12 + 8 * i + 4) w ∧
        Value32 th.kindFlag w.toNat x.value := by
  obtain ⟨e, fh, pos, next, hp, th', hh, hb, -⟩ := new_record hS ha h (by simp) hv
  obtain ⟨rfl, -, h1, h2, h3, h4, hit⟩ := hb
  refine ⟨e, fh, pos, hp, h4, h3, fun i x hx => ?_⟩
  obtain ⟨hlt, rfl⟩ := List.getElem?_eq_some_iff.1 hx
  obtain ⟨off, v, h5, h6, h7, h8⟩ := hit i hlt
  rw [Nat.mul_comm] at h5 h7
  obtain ⟨w, hw⟩ := word_exists (e := e) h7.1
  have : v = w.toNat := by rw [h7.2, hw.2]
  subst this
  exact ⟨off, w, h5, h6, hw, h8⟩

/-- C17: the values of every reported 64-bit enumeration. In little-endian files the first word is the low
half, as documented; in big-endian files the crate takes it as the high half. -/
theorem new_enum64 (hS : Serves cfg R f) (ha : FitsTarget cfg f) {ti : TypeInformation}
    (h : TypeInformation.new cfg R = .ok ti) {t : UInt32} {th : Header} {d : Enum64Data}
    (hv : ti.fromId t = some (.enum64 th d)) :
    ∃ e fh pos, StartsAt f t e fh pos ∧ d.namedValueList.length = th.vlen ∧ d.signed = th.kindFlag ∧
      ∀ i x, d.namedValueList[i]? = some x → ∃ name first second : UInt32,
        Word f e (pos + 12 + 12 * i) name ∧ StringAt f fh name x.name ∧
        Word f e (pos + 12 + 12 * i + 4) first ∧ Word f e (pos + 12 + 12 * i + 8) second ∧
        Value64 th.kindFlag (match e with
          | .little => first.toNat + 2 ^ 32 * second.toNat
          | .big => second.toNat + 2 ^ 32 * first.toNat) x.value := by
  obtain ⟨e, fh, pos, next, hp, th', hh, hb, -⟩ := new_record hS ha h (by simp) hv
  obtain ⟨rfl, -, h1, h2, h3, h4, hit⟩ := hb
  refine ⟨e, fh, pos, hp, h4, h3, fun i x hx => ?_⟩
  obtain ⟨hlt, rfl⟩ := List.getElem?_eq_some_iff.1 hx
  obtain ⟨off, v, h5, h6, h7, h8⟩ := hit i hlt
  rw [Nat.mul_comm] at h5 h7
  have hlen := h7.1
  obtain ⟨lo, hlo⟩ := word_exists (e := e) (f := f) (pos := pos + 12 + 12 * i + 4) (by omega)
  obtain ⟨hi, hhi⟩ := word_exists (e := e) (f := f) (pos := pos + 12 + 12 * i + 4 + 4) (by omega)
  refine ⟨off, lo, hi, h5, h6, hlo, hhi, ?_⟩
  cases e with
  | little =>
    have : WideAt .crate f .little (pos + 12 + 12 * i + 4) (lo.toNat + 2 ^ 32 * hi.toNat) :=
      wide_little.1 ⟨lo, hi, hlo, hhi, rfl⟩
    rw [this.2, ← h7.2]; exact h8
  | big =>
    have := (wide_big hlo hhi).2
    rw [this.2, ← h7.2]; exact h8

theorem body_typeName {dl : Dialect} {e : Endianness} {fh : FileHeader} {pos : Nat} {th : Header} {v : TypeVariant}
    (h : Body dl f e fh th pos v) : if named th.kind then NameAt f fh th.nameOffset (typeName v) else typeName v = none := by
  cases v with
  | void => exact h.elim
  | int hd d => obtain ⟨-, hk, w, hw, h, -⟩ := h; rw [hk]; exact h
  | ptr hd d => rw [h.2.1]; rfl
  | array hd d => rw [h.2.1]; rfl
  | const hd d => rw [h.2.1]; rfl
  | volatile hd d => rw [h.2.1]; rfl
  | restrict hd d => rw [h.2.1]; rfl
  | funcProto hd d => rw [h.2.1]; rfl
  | _ => rw [h.2.1]; exact h.2.2.1

/-- C10: the name of every reported type is the string its first word refers to, none if that word is 0 (and
for the kinds without names). -/
theorem new_name (hS : Serves cfg R f) (ha : FitsTarget cfg f) {ti : TypeInformation}
    (h : TypeInformation.new cfg R = .ok ti) {t : UInt32} {v : TypeVariant} (hne : v ≠ .void) (hv : ti.fromId t = some v) :
    ∃ e fh pos off th, StartsAt f t e fh pos ∧ Word f e pos off ∧ headerOf v = some th ∧
      if named th.kind then NameAt f fh off (ti.nameOf t) else ti.nameOf t = none := by
  obtain ⟨e, fh, pos, next, hp, th, hh, hb, -⟩ := new_record hS ha h hne hv
  have hn : ti.nameOf t = typeName v := by
    obtain ⟨vs, -, hh⟩ := new_sound hS ha h
    rw [hh.nameOf, ← hh.fromId, hv]; rfl
  refine ⟨e, fh, pos, _, th, hp, hh.1, body_header hb, ?_⟩
  rw [hn]
  exact body_typeName hb

/-- C18 (partial): every record starts at least 12 bytes before the end of the type section, and ends inside
unless it is an array; then it ends at most 12 bytes after the section. Missing: the body of an array that is
the last record may lie outside (`new_overrun_refuted`). -/
theorem new_inside_partial (hS : Serves cfg R f) (ha : FitsTarget cfg f) {ti : TypeInformation}
    (h : TypeInformation.new cfg R = .ok ti) {t : UInt32} {v : TypeVariant} (hne : v ≠ .void) (hv : ti.fromId t = some v) :
    ∃ e fh pos next, StartsAt f t e fh pos ∧ RecordAt .crate f e fh pos v next ∧ typeStart fh ≤ pos ∧
      pos + 12 ≤ typeEnd fh ∧ next ≤ typeEnd fh + 12 ∧
      (typeEnd fh < next → (∃ th d, v = .array th d) ∧ ∀ u, t < u → ti.fromId u = none) := by
  obtain ⟨e, fh, pos, next, hp, hr⟩ := new_record hS ha h hne hv
  obtain ⟨vs, hl, hvs⟩ := hp.before
  obtain ⟨h1, h2⟩ := record_next hr
  have h3 := records_next hvs
  have hend : next ≤ typeEnd fh + 12 ∧ (typeEnd fh < next → ∃ th d, v = .array th d) := by
    obtain ⟨th, hh, hb, hle, hnext⟩ := hr
    by_cases hk : th.kind = .Array
    · rw [hk] at hnext
      simp only [bodySize] at hnext
      exact ⟨by omega, fun _ => ⟨th, body_array hb hk⟩⟩
    · rw [boundedSize_of_not_array hk] at hle
      exact ⟨by omega, fun h => by omega⟩
  refine ⟨e, fh, pos, next, hp, hr, by omega, h2, hend.1, fun ho => ⟨hend.2 ho, fun u hu => ?_⟩⟩
  cases hu' : ti.fromId u with
  | none => rfl
  | some w =>
    exfalso
    have hwne : w ≠ .void := by
      rintro rfl
      obtain ⟨vs, ⟨e, fh, n, -, -, hr, -⟩, hh⟩ := new_sound hS ha h
      rw [hh.fromId] at hu'
      unfold typeAt at hu'
      have h0 : u.toNat ≠ 0 := fun h0 => by rw [UInt32.lt_iff_toNat_lt] at hu; omega
      obtain ⟨m, hm⟩ := Nat.exists_eq_succ_of_ne_zero h0
      rw [hm, List.getElem?_cons_succ] at hu'
      obtain ⟨p, q, -, ⟨th, -, hb, -⟩, -⟩ := records_get hr m hu'
      exact hb
    obtain ⟨e', fh', pos', next', hp', hr'⟩ := new_record hS ha h hwne hu'
    obtain ⟨rfl, rfl⟩ := preamble_unique hp.preamble hp'.preamble
    obtain ⟨vs', hl', hvs'⟩ := hp'.before
    have hlt := UInt32.lt_iff_toNat_lt.1 hu
    have hr1 : Records .crate f e fh (typeStart fh) (vs ++ [v]) next := records_append hvs (.cons hr .nil)
    have h4 := (record_next hr').2
    rcases records_prefix hp.bounded (Nat.le_refl _) hr1 hvs' with ⟨rest, hrest, -⟩ | ⟨rest, hrest, heq⟩
    · have := records_next hrest; omega
    · have := congrArg List.length heq
      simp only [List.length_append, List.length_singleton] at this
      have h0 : rest = [] := List.eq_nil_of_length_eq_zero (by omega)
      subst h0
      cases hrest
      omega

end

namespace Examples

open Samples

/-- `new_record`, `new_kind`, `new_name`, `new_inside_partial`: the struct with id 7. -/
example : ∃ v, v ≠ TypeVariant.void ∧ zoo.fromId 7 = some v ∧ zoo.nameOf 7 = some (str "outer") :=
  ⟨.struct ⟨.Struct, 35, 4, false, 80⟩ ⟨some (str "outer"), 80, [⟨41, some (str "x"), 1, .byteOffset 0⟩, ⟨0, none, 6, .byteOffset 8⟩,
    ⟨43, some (str "arr"), 5, .byteOffset 24⟩, ⟨47, some (str "head"), 3, .byteOffset 64⟩]⟩, by simp, by decide +kernel, by decide +kernel⟩

/-- `new_members`: the struct with bitfields; the third member word is `0x05000003`. -/
example : ∃ e fh pos, StartsAt (leFile zooTypes zooStrings) 15 e fh pos ∧
    ∃ raw : UInt32, Word (leFile zooTypes zooStrings) e (pos + 12 + 12 * 0 + 8) raw ∧
      Offset.bitOffsetAndSize 3 5 = documentedOffset true raw.toNat := by
  obtain ⟨e, fh, pos, h1, -, h2⟩ := new_members (serves _ (by decide +kernel)) (fits _) zoo_parsed (t := 15)
    (th := ⟨.Struct, 67, 2, true, 8⟩)
    (d := ⟨some (str "flags"), 8, [⟨73, some (str "lo"), 1, .bitOffsetAndSize 3 5⟩, ⟨76, some (str "hi"), 1, .byteOffset 4⟩]⟩)
    (.inl (by decide +kernel))
  obtain ⟨raw, -, -, -, h3, h4, -⟩ := h2 0 _ rfl
  exact ⟨e, fh, pos, h1, raw, h3, h4⟩

/-- `new_int`. -/
example : zoo.fromId 1 = some (.int ⟨.Int, 1, 0, false, 4⟩ ⟨some (str "int"), 4, true, false, false, 0, 32⟩) := by decide +kernel

/-- `new_enum`: the word `0xFFFFFFFF` is -1 in a signed enumeration. -/
example : rest.fromId 1 = some (.enum ⟨.Enum, 1, 2, true, 4⟩
    ⟨some (str "e"), 4, [⟨str "a", .signed (-1)⟩, ⟨str "b", .signed 7⟩], true⟩) := by decide +kernel
example : Value32 true 0xFFFFFFFF (.signed (-1)) ∧ ¬ Value32 true 0xFFFFFFFF (.unsigned 0xFFFFFFFF) ∧
    Value32 false 0xFFFFFFFF (.unsigned 0xFFFFFFFF) := by
  refine ⟨⟨rfl, by decide⟩, fun h => ?_, ⟨rfl, by decide⟩⟩
  cases h.1

/-- `new_enum64`. -/
example : rest.fromId 4 = some (.enum64 ⟨.Enum64, 7, 1, false, 8⟩
    ⟨some (str "E"), 8, [⟨str "b", .unsigned 0x200000001⟩], false⟩) := by decide +kernel

end Examples

end Btf.Props

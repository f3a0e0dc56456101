import Verif.Spec.Added
import Verif.Props.Keep
import Verif.Props.Renumber

/-!
# Property C100: sections can be moved, and types can be added at the end
-/

namespace Btf.Props

open Btf Spec

variable {cfg cfg' : Cfg} {R R' : Readable} {f f' : List UInt8} {e : Endianness} {fh fh' : FileHeader} {ti ti' : TypeInformation}

/-! ### Files -/

theorem taken_string {n : Nat} (h : TakenOver f fh f' fh' n) {off : UInt32} {s : Str} (hs : StringAt f fh off s) :
    StringAt f' fh' off s := by
  obtain ⟨-, bs, h2, h3, h4, h5⟩ := hs
  have h6 := h.strLen
  have e1 : strEnd fh = strStart fh + fh.strLen.toNat := rfl
  have e2 : strEnd fh' = strStart fh' + fh'.strLen.toNat := rfl
  refine ⟨h.strEnd, bs, by omega, h3, ?_, h5⟩
  rw [← h4]
  apply List.ext_getElem?
  intro i
  rw [List.getElem?_take, List.getElem?_take]
  by_cases hi : i < bs.length + 1
  · rw [if_pos hi, if_pos hi, List.getElem?_drop, List.getElem?_drop, Nat.add_assoc, Nat.add_assoc, h.strings _ (by omega)]
  · rw [if_neg hi, if_neg hi]

theorem taken_word {n p : Nat} (h : TakenOver f fh f' fh' n) (hp : p + 4 ≤ n) {w : UInt32}
    (hw : Word f e (typeStart fh + p) w) : Word f' e (typeStart fh' + p) w := by
  obtain ⟨h1, h2⟩ := hw
  have h3 := h.types (p + 3) (by omega)
  have h4 : typeStart fh' + p + 4 ≤ f'.length := by
    rw [List.getElem?_eq_getElem (l := f) (by omega)] at h3
    have := (List.getElem?_eq_some_iff.1 h3).1
    omega
  refine ⟨h4, h2.trans (congrArg _ ?_)⟩
  apply List.ext_getElem?
  intro i
  rw [List.getElem?_take, List.getElem?_take]
  by_cases hi : i < 4
  · rw [if_pos hi, if_pos hi, List.getElem?_drop, List.getElem?_drop, Nat.add_assoc, Nat.add_assoc, h.types _ (by omega)]
  · rw [if_neg hi, if_neg hi]

theorem allBytes_eq {vs : List TypeVariant} (h : Holds ti vs) : allBytes ti = 4 * (vs.flatMap (cells e)).length := by
  unfold allBytes
  rw [h.get, numbered_map recordBytes]
  clear h
  induction vs with
  | nil => rfl
  | cons v vs ih => rw [List.flatMap_cons, List.length_append, List.map_cons, List.sum_cons, Nat.mul_add, ← ih, cells_length]

/-- The records of a file are found where they have been moved. -/
theorem taken_records (hS : Serves cfg R f) (ha : FitsTarget cfg f) (hp : Preamble f e fh)
    (h : TypeInformation.new cfg R = .ok ti) (ht : TakenOver f fh f' fh' (allBytes ti)) :
    ∃ vs next, Holds ti vs ∧ Decodes .crate f vs ∧ Records .crate f' e fh' (typeStart fh') vs next ∧
      typeStart fh' + fh.typeLen.toNat ≤ next := by
  obtain ⟨vs, hd, hh⟩ := new_sound hS ha h
  obtain ⟨e', fh'', next, hp'', hE, hr, hn⟩ := id hd
  obtain ⟨rfl, rfl⟩ := preamble_unique hp hp''
  have h1 : typeEnd fh = typeStart fh + fh.typeLen.toNat := rfl
  have h2 : typeEnd fh' = typeStart fh' + fh'.typeLen.toNat := rfl
  have h3 := ht.typeLen
  have hc : CellsAt f' e fh' (typeStart fh') (vs.flatMap (cells e)) := by
    intro i c hi
    obtain ⟨w, h4, h5, h6⟩ := records_cells hr i c hi
    have hlt := (List.getElem?_eq_some_iff.1 hi).1
    rw [allBytes_eq (e := e) hh] at ht
    exact ⟨w, taken_word ht (by omega) h4, h5, fun s hs => taken_string ht (h6 s hs)⟩
  obtain ⟨hr', hle⟩ := cells_records hr hc (by omega) (by omega)
  simp only [] at hn
  exact ⟨vs, _, hh, hd, hr', by omega⟩

/-- C100: where the sections lie in the file does not matter: a file that has the same sections (and the part of the last
record that lies behind the type section, if any) at other places gives the same result. The string section may
be longer. -/
theorem new_moved (hS : Serves cfg R f) (ha : FitsTarget cfg f) (hp : Preamble f e fh) (h : TypeInformation.new cfg R = .ok ti)
    (hS' : Serves cfg' R' f') (ha' : FitsTarget cfg' f') (hp' : Preamble f' e fh')
    (ht : TakenOver f fh f' fh' (allBytes ti)) (hlen : fh'.typeLen = fh.typeLen) : TypeInformation.new cfg' R' = .ok ti := by
  obtain ⟨vs, next, -, hd, hr, hn⟩ := taken_records hS ha hp h ht
  have h2 : typeEnd fh' = typeStart fh' + fh'.typeLen.toNat := rfl
  rw [← new_determined hS ha hS' ha' hd ⟨e, fh', next, hp', ht.typeEnd, hr, by simp only []; rw [h2, hlen]; exact hn⟩]
  exact h

/-- C100: if there is more in the type section, the types come after those that were there before. -/
theorem new_added (hS : Serves cfg R f) (ha : FitsTarget cfg f) (hp : Preamble f e fh) (h : TypeInformation.new cfg R = .ok ti)
    (hS' : Serves cfg' R' f') (ha' : FitsTarget cfg' f') (hp' : Preamble f' e fh')
    (ht : TakenOver f fh f' fh' (allBytes ti)) (h' : TypeInformation.new cfg' R' = .ok ti') : ti.get <+: ti'.get := by
  obtain ⟨vs, next, hh, -, hr, hn⟩ := taken_records hS ha hp h ht
  obtain ⟨vs', ⟨e', fh'', next', hp'', hE', hr', hn'⟩, hh'⟩ := new_sound hS' ha' h'
  obtain ⟨rfl, rfl⟩ := preamble_unique hp' hp''
  have key : vs <+: vs' := by
    rcases records_prefix hE' (Nat.le_refl _) hr hr' with ⟨rest, -, rfl⟩ | ⟨rest, h1, rfl⟩
    · exact List.prefix_append ..
    · simp only [] at hn'
      cases h1 with
      | nil => rw [List.append_nil]
      | cons h2 _ => have := record_next h2; omega
  rw [hh.get, hh'.get]
  obtain ⟨rest, rfl⟩ := key
  unfold numbered
  rw [List.zipIdx_append, List.map_append]
  exact List.prefix_append ..

/-! ### Lookups -/

section
variable (hR : Addressable cfg R) (h : TypeInformation.new cfg R = .ok ti) (hR' : Addressable cfg' R')
  (h' : TypeInformation.new cfg' R' = .ok ti') (hx : ti.get <+: ti'.get)
include hR h hR' h' hx

theorem added_holds : ∃ vs ws, Holds ti vs ∧ Holds ti' (vs ++ ws) ∧ (vs ++ ws).length < 2 ^ 32 ∧ ti.get.length = vs.length := by
  obtain ⟨vs, _, fh1, -, hh, -, -⟩ := new_holds cfg R hR ti h
  obtain ⟨vs', _, fh2, -, hh', hl', -⟩ := new_holds cfg' R' hR' ti' h'
  have hlt := fh2.typeLen.toNat_lt
  rw [hh.get, hh'.get] at hx
  have key : vs <+: vs' := by
    have h1 : ∀ l : List TypeVariant, (numbered l).map Prod.snd = l := by
      intro l
      have := numbered_map id l
      rwa [List.map_id] at this
    have := hx.map Prod.snd
    rwa [h1, h1] at this
  obtain ⟨ws, rfl⟩ := key
  exact ⟨vs, ws, hh, hh', by omega, by rw [hh.get]; simp [numbered]⟩

/-- C100: the ids that were there keep their type and their name. -/
theorem lookup_added (t : UInt32) (ht : t.toNat ≤ ti.get.length) : ti'.fromId t = ti.fromId t ∧ ti'.nameOf t = ti.nameOf t := by
  obtain ⟨vs, ws, hh, hh', -, hl⟩ := added_holds hR h hR' h' hx
  have key : typeAt (vs ++ ws) t.toNat = typeAt vs t.toNat := by
    unfold typeAt
    rw [← List.cons_append, List.getElem?_append_left (by rw [List.length_cons]; omega)]
  rw [hh.fromId, hh'.fromId, hh.nameOf, hh'.nameOf, key]
  exact ⟨rfl, rfl⟩

/-- C100: a name leads to the same type as before, unless a type with this name has been added; then to that one. -/
theorem id_of_added (s : Str) :
    (ti'.idOf s = ti.idOf s ∧ (s = str "void" ∨ ∀ u, ti.get.length < u.toNat → ti'.nameOf u ≠ some s)) ∨
    (s ≠ str "void" ∧ ∃ t, ti'.idOf s = some t ∧ ti.get.length < t.toNat ∧ ti'.nameOf t = some s) := by
  obtain ⟨-, h2, h3, h4⟩ := id_of_last cfg R hR ti h s
  obtain ⟨h1', h2', h3', h4'⟩ := id_of_last cfg' R' hR' ti' h' s
  have hl := lookup_added hR h hR' h' hx
  obtain ⟨vs, ws, hh, hh', -, hlen⟩ := added_holds hR h hR' h' hx
  have hsmall : ∀ u, ti.nameOf u ≠ none → u.toNat ≤ ti.get.length := by
    intro u hu
    by_contra hc
    refine hu ?_
    rw [hh.nameOf, typeAt, List.getElem?_eq_none (by rw [List.length_cons]; omega)]
    rfl
  by_cases hv : s = str "void"
  · subst hv; exact .inl ⟨h3'.trans h3.symm, .inl rfl⟩
  by_cases hadd : ∃ u, ti.get.length < u.toNat ∧ ti'.nameOf u = some s
  · obtain ⟨u, hu1, hu2⟩ := hadd
    refine .inr ⟨hv, ?_⟩
    cases ht : ti'.idOf s with
    | none => exact absurd hu2 (h2'.1 ht u)
    | some t =>
      obtain ⟨h5, h6⟩ := (h1' hv t).1 ht
      refine ⟨t, rfl, ?_, h5⟩
      by_contra hc
      exact h6 u (UInt32.lt_iff_toNat_lt.2 (by omega)) hu2
  · push Not at hadd
    refine .inl ⟨?_, .inr hadd⟩
    cases ht : ti'.idOf s with
    | none =>
      symm
      rw [h2]
      intro u hu
      have hle := hsmall u (by rw [hu]; simp)
      exact h2'.1 ht u (by rw [(hl u hle).2, hu])
    | some t =>
      obtain ⟨h5, h6⟩ := (h1' hv t).1 ht
      have hle : t.toNat ≤ ti.get.length := by
        by_contra hc
        exact hadd t (by omega) h5
      symm
      rw [(id_of_last cfg R hR ti h s).1 hv t]
      refine ⟨by rw [← (hl t hle).2]; exact h5, fun u hu hn => h6 u hu ?_⟩
      rw [(hl u (hsmall u (by rw [hn]; simp))).2, hn]

theorem pointers_added (hlh : ∀ u, ti.get.length < u.toNat → ti'.nameOf u ≠ some (str "list_head")) (n : Nat) :
    PointerSize ti n ↔ PointerSize ti' n := by
  have hid : ti'.idOf (str "list_head") = ti.idOf (str "list_head") := by
    rcases id_of_added hR h hR' h' hx (str "list_head") with h1 | ⟨-, t, -, h2, h3⟩
    · exact h1.1
    · exact absurd h3 (hlh t h2)
  obtain ⟨vs, -, hh, -, -, hlen⟩ := added_holds hR h hR' h' hx
  have key : ∀ t, ti.idOf (str "list_head") = some t → ti'.fromId t = ti.fromId t := by
    intro t ht
    refine (lookup_added hR h hR' h' hx t ?_).1
    by_contra hc
    have := (id_of_last cfg R hR ti h (str "list_head")).2.2.2 t ht
    rw [hh.nameOf, typeAt, List.getElem?_eq_none (by rw [List.length_cons]; omega)] at this
    cases this
  unfold PointerSize
  rw [hid]
  constructor
  · rintro ⟨t, hd, d, h1, h2, h3⟩
    exact ⟨t, hd, d, h1, (key t h1).trans h2, h3⟩
  · rintro ⟨t, hd, d, h1, h2, h3⟩
    exact ⟨t, hd, d, h1, (key t h1).symm.trans h2, h3⟩

/-- C100: `size_of` gives the same answer as before for a type that involves no ids that were not there before; if it
involves a pointer, no type `list_head` may be added. -/
theorem size_of_added (c : Cfg) (t : UInt32) (hin : ∀ u, InvolvedIn ti t u → u.toNat ≤ ti.get.length)
    (hptr : (∃ u v, InvolvedIn ti t u ∧ ti.fromId u = some v ∧ IsPtr v) →
      ∀ u, ti.get.length < u.toNat → ti'.nameOf u ≠ some (str "list_head")) (o : Outcome Nat) :
    SizeOf c ti t o ↔ SizeOf c ti' t o :=
  size_of_local c t (fun u hu => (lookup_added hR h hR' h' hx u (hin u hu)).1)
    (fun u v hu hv hp n => pointers_added hR h hR' h' hx (hptr ⟨u, v, hu, hv, hp⟩) n) o

/-- C100: the same for `offset_of`, for every path. -/
theorem offset_of_added (c : Cfg) (t : UInt32) (hin : ∀ u, InvolvedIn ti t u → u.toNat ≤ ti.get.length)
    (hptr : (∃ u v, InvolvedIn ti t u ∧ ti.fromId u = some v ∧ IsPtr v) →
      ∀ u, ti.get.length < u.toNat → ti'.nameOf u ≠ some (str "list_head")) (s : String) (o : Outcome (UInt32 × Offset)) :
    OffsetOf c ti t (str s) o ↔ OffsetOf c ti' t (str s) o :=
  offset_of_local c t (fun u hu => (lookup_added hR h hR' h' hx u (hin u hu)).1)
    (fun u v hu hv hp n => pointers_added hR h hR' h' hx (hptr ⟨u, v, hu, hv, hp⟩) n) s o

omit hR h hR' h' hx in
theorem pointee_local {t : UInt32} (h : ∀ u, InvolvedIn ti t u → ti'.fromId u = ti.fromId u) (k : Nat) :
    ∀ u, InvolvedIn ti t u → TypeInformation.pointeeTid ti' k u = TypeInformation.pointeeTid ti k u := by
  induction k with
  | zero => intro u _; rfl
  | succ k ih =>
    intro u hu
    simp only [TypeInformation.pointeeTid, h u hu]
    cases hv : ti.fromId u with
    | none => rfl
    | some v =>
      have hc : ∀ w, accessAlias v = some w → InvolvedIn ti t w := fun w hw => .step hu hv (.inl hw)
      cases v <;> first | rfl | exact ih _ (hc _ rfl)

/-- C100: the same for `pointee_tid`. -/
theorem pointee_tid_added (t : UInt32) (hin : ∀ u, InvolvedIn ti t u → u.toNat ≤ ti.get.length) (o : Outcome UInt32) :
    Returns (fun k => TypeInformation.pointeeTid ti k t) o ↔ Returns (fun k => TypeInformation.pointeeTid ti' k t) o := by
  have he : (fun k => TypeInformation.pointeeTid ti' k t) = fun k => TypeInformation.pointeeTid ti k t := by
    funext k
    exact pointee_local (fun u hu => (lookup_added hR h hR' h' hx u (hin u hu)).1) k t .self
  rw [he]

end

/-! ### A writer that appends -/

/-- C100: appending words to the type section and bytes to the string section takes over everything. -/
theorem taken_fileOf (e : Endianness) {version flags version' flags' : UInt8} {types types' : List UInt32} {strings strings' : List UInt8}
    (hsize : 24 + 4 * (types ++ types').length + (strings ++ strings').length < 2 ^ 32) :
    TakenOver (fileOf e version flags types strings) (writtenHeader version flags types strings)
      (fileOf e version' flags' (types ++ types') (strings ++ strings'))
      (writtenHeader version' flags' (types ++ types') (strings ++ strings')) (4 * types.length) := by
  rw [List.length_append, List.length_append] at hsize
  have a1 : (UInt32.ofNat (4 * types.length)).toNat = 4 * types.length := ofNat_toNat_lt (by omega)
  have a2 : (UInt32.ofNat (4 * (types ++ types').length)).toNat = 4 * (types ++ types').length :=
    ofNat_toNat_lt (by rw [List.length_append]; omega)
  have a3 : (UInt32.ofNat strings.length).toNat = strings.length := ofNat_toNat_lt (by omega)
  have a4 : (UInt32.ofNat (strings ++ strings').length).toNat = (strings ++ strings').length :=
    ofNat_toNat_lt (by rw [List.length_append]; omega)
  have s1 : strStart (writtenHeader version flags types strings) = 24 + 4 * types.length := congrArg (24 + ·) a1
  have s2 : strStart (writtenHeader version' flags' (types ++ types') (strings ++ strings')) =
    24 + 4 * (types ++ types').length := congrArg (24 + ·) a2
  have hbytes : ∀ (version flags : UInt8) (types : List UInt32) (strings : List UInt8) (i : Nat), i < 4 * types.length →
      (fileOf e version flags types strings)[24 + i]? = (types.flatMap (wordBytes e))[i]? := by
    intro version flags types strings i hi
    unfold fileOf
    rw [List.getElem?_append_left (by
      simp only [List.length_append, flatMap_length, wordBytes_length, magic_length, List.length_cons, List.length_nil]; omega),
      List.getElem?_append_right (by
      simp only [List.length_append, wordBytes_length, magic_length, List.length_cons, List.length_nil]; omega)]
    congr 1
    simp only [List.length_append, wordBytes_length, magic_length, List.length_cons, List.length_nil]
    omega
  refine ⟨?_, ?_, ?_, ?_, ?_, ?_⟩
  · intro i hi
    have t1 : typeStart (writtenHeader version flags types strings) = 24 := rfl
    have t2 : typeStart (writtenHeader version' flags' (types ++ types') (strings ++ strings')) = 24 := rfl
    rw [t1, t2, hbytes _ _ _ _ _ hi, hbytes _ _ _ _ _ (by rw [List.length_append]; omega), List.flatMap_append,
      List.getElem?_append_left (by rw [flatMap_length]; exact hi)]
  · intro i hi
    rw [show (writtenHeader version flags types strings).strLen.toNat = strings.length from a3] at hi
    rw [s1, s2, strings_fileOf e (by omega), strings_fileOf e (by omega), Nat.add_sub_cancel_left, Nat.add_sub_cancel_left,
      List.getElem?_append_left hi]
  · rw [show (writtenHeader version flags types strings).typeLen.toNat = _ from a1,
      show (writtenHeader version' flags' (types ++ types') (strings ++ strings')).typeLen.toNat = _ from a2, List.length_append]
    omega
  · rw [show (writtenHeader version flags types strings).strLen.toNat = _ from a3,
      show (writtenHeader version' flags' (types ++ types') (strings ++ strings')).strLen.toNat = _ from a4, List.length_append]
    omega
  · have : typeEnd (writtenHeader version' flags' (types ++ types') (strings ++ strings')) =
      24 + (UInt32.ofNat (4 * (types ++ types').length)).toNat := rfl
    rw [this, a2, List.length_append]; omega
  · have : strEnd (writtenHeader version' flags' (types ++ types') (strings ++ strings')) =
      strStart (writtenHeader version' flags' (types ++ types') (strings ++ strings')) +
      (UInt32.ofNat (strings ++ strings').length).toNat := rfl
    rw [this, s2, a4, List.length_append, List.length_append]; omega

/-! ### The hypotheses can be met -/

section
open Samples

/-- The samples' file with other places: the header is 30 bytes long, the strings come first, then five bytes that
belong to nothing, then the types. -/
def movedZoo : List UInt8 :=
  [0x9F, 0xEB, 7, 7] ++ le32 30 ++ le32 (UInt32.ofNat (zooStrings.length + 5)) ++ le32 (UInt32.ofNat (4 * zooTypes.length)) ++
    le32 0 ++ le32 (UInt32.ofNat zooStrings.length) ++ [1, 2, 3, 4, 5, 6] ++ zooStrings ++ [9, 9, 9, 9, 9] ++ zooTypes.flatMap le32

def movedHeader : FileHeader :=
  ⟨7, 7, 30, UInt32.ofNat (zooStrings.length + 5), UInt32.ofNat (4 * zooTypes.length), 0, UInt32.ofNat zooStrings.length⟩

def zooHeader : FileHeader :=
  ⟨1, 0, 24, 0, UInt32.ofNat (4 * zooTypes.length), UInt32.ofNat (4 * zooTypes.length), UInt32.ofNat zooStrings.length⟩

theorem moved_preamble : Preamble movedZoo .little movedHeader :=
  ⟨by decide +kernel, by decide +kernel, by decide +kernel, by decide +kernel, by decide +kernel, by decide +kernel,
    by decide +kernel, by decide +kernel⟩

theorem moved_taken : TakenOver (leFile zooTypes zooStrings) zooHeader movedZoo movedHeader (allBytes zoo) :=
  ⟨by decide +kernel, by decide +kernel, by decide +kernel, by decide +kernel, by decide +kernel, by decide +kernel⟩

/-- `new_moved`. -/
example : TypeInformation.new dbg (readableBuffer dbg movedZoo) = .ok zoo :=
  new_moved (serves_buffer dbg _ (by decide +kernel)) (.inl rfl) zoo_preamble zoo_parsed
    (serves_buffer dbg _ (by decide +kernel)) (.inl rfl) moved_preamble moved_taken rfl

/-- The samples' file with two more types: `typedef outer int;` and another `list_head`, of 4 bytes. -/
def moreTypes : List UInt32 := [1, 0x8000000, 7, 0xb, 0x4000000, 4]

theorem more_accepted : ∃ ti', TypeInformation.new dbg (readableBuffer dbg (fileOf .little 1 0 (zooTypes ++ moreTypes) (zooStrings ++ []))) = .ok ti' ∧
    ti'.get.length = 18 ∧ ti'.idOf (str "int") = some 17 ∧ ti'.idOf (str "list_head") = some 18 ∧ ti'.idOf (str "outer") = some 7 ∧
    TypeInformation.sizeOf dbg ti' 100 4 = .ok 2 ∧ TypeInformation.sizeOf dbg ti' 100 7 = .ok 80 := by
  have h : (match TypeInformation.new dbg (readableBuffer dbg (fileOf .little 1 0 (zooTypes ++ moreTypes) (zooStrings ++ []))) with
    | .ok ti' => decide (ti'.get.length = 18 ∧ ti'.idOf (str "int") = some 17 ∧ ti'.idOf (str "list_head") = some 18 ∧
        ti'.idOf (str "outer") = some 7 ∧
        TypeInformation.sizeOf dbg ti' 100 4 = .ok 2 ∧ TypeInformation.sizeOf dbg ti' 100 7 = .ok 80)
    | _ => false) = true := by decide +kernel
  revert h
  cases TypeInformation.new dbg (readableBuffer dbg (fileOf .little 1 0 (zooTypes ++ moreTypes) (zooStrings ++ []))) with
  | ok ti' => intro h; exact ⟨ti', rfl, of_decide_eq_true h⟩
  | err k => intro h; cases h
  | panic => intro h; cases h
  | nofuel => intro h; cases h

theorem more_prefix : ∃ ti', TypeInformation.new dbg (readableBuffer dbg (fileOf .little 1 0 (zooTypes ++ moreTypes) (zooStrings ++ []))) = .ok ti' ∧
    zoo.get <+: ti'.get ∧ TypeInformation.sizeOf dbg ti' 100 4 = .ok 2 := by
  obtain ⟨ti', h, h1, h2, h3, h4, h5, -⟩ := more_accepted
  refine ⟨ti', h, ?_, h5⟩
  have hz : TypeInformation.new dbg (readableBuffer dbg (fileOf .little 1 0 zooTypes zooStrings)) = .ok zoo := by decide +kernel
  exact new_added (serves_buffer dbg _ (by decide +kernel)) (.inl rfl) (preamble_fileOf .little) hz
    (serves_buffer dbg _ (by decide +kernel)) (.inl rfl) (preamble_fileOf .little) (taken_fileOf .little (by decide +kernel)) h

/-- C100 does not hold for pointers if a struct named `list_head` is added: half of its size is taken for the size of
pointers, here 2 instead of 8. -/
theorem size_of_added_refuted : ∃ ti', TypeInformation.new dbg
      (readableBuffer dbg (fileOf .little 1 0 (zooTypes ++ moreTypes) (zooStrings ++ []))) = .ok ti' ∧
    zoo.get <+: ti'.get ∧ SizeOf dbg zoo 4 (.ok 8) ∧ SizeOf dbg ti' 4 (.ok 2) := by
  obtain ⟨ti', h, h1, h2⟩ := more_prefix
  exact ⟨ti', h, h1, ⟨by simp, 100, by decide +kernel⟩, ⟨by simp, 100, h2⟩⟩

theorem zoo_parsed' : TypeInformation.new dbg (readableBuffer dbg (leFile zooTypes zooStrings)) = .ok zoo := zoo_parsed

/-- Type 15 of `zoo` involves only itself and the integer type. -/
theorem flags_involves {u : UInt32} (h : InvolvedIn zoo 15 u) : u = 15 ∨ u = 1 := by
  have h15 : zoo.fromId 15 = some (.struct ⟨.Struct, 67, 2, true, 8⟩ ⟨some (str "flags"), 8, [⟨73, some (str "lo"), 1, .bitOffsetAndSize 3 5⟩, ⟨76, some (str "hi"), 1, .byteOffset 4⟩]⟩) := by
    decide +kernel
  have h1 : zoo.fromId 1 = some (.int ⟨.Int, 1, 0, false, 4⟩ ⟨some (str "int"), 4, true, false, false, 0, 32⟩) := by decide +kernel
  induction h with
  | self => exact .inl rfl
  | step _ hv hw ih =>
    rcases ih with rfl | rfl
    · rw [h15] at hv; cases hv
      rcases hw with hw | hw | ⟨ms, m, hm, hmem, rfl⟩
      · cases hw
      · cases hw
      · cases hm
        simp at hmem
        rcases hmem with rfl | rfl <;> simp
    · rw [h1] at hv; cases hv
      rcases hw with hw | hw | ⟨ms, m, hm, hmem, rfl⟩
      · cases hw
      · cases hw
      · cases hm

/-- `lookup_added`, `id_of_added`, `size_of_added`, `offset_of_added`, `pointee_tid_added`, for the struct `flags`, although a
struct `list_head` is added. -/
example : ∃ ti', TypeInformation.new dbg (readableBuffer dbg (fileOf .little 1 0 (zooTypes ++ moreTypes) (zooStrings ++ []))) = .ok ti' ∧
    (∀ t, t.toNat ≤ 16 → ti'.fromId t = zoo.fromId t) ∧ SizeOf dbg ti' 15 (.ok 8) ∧
    OffsetOf dbg ti' 15 (str "hi") (.ok (1, .byteOffset 4)) ∧
    (ti'.idOf (str "outer") = zoo.idOf (str "outer") ∨ ∃ t, ti'.idOf (str "outer") = some t ∧ 16 < t.toNat) ∧
    (∀ o, Returns (fun k => TypeInformation.pointeeTid zoo k 15) o ↔ Returns (fun k => TypeInformation.pointeeTid ti' k 15) o) := by
  obtain ⟨ti', h, hx, -⟩ := more_prefix
  have hl : zoo.get.length = 16 := by decide +kernel
  have hin : ∀ u, InvolvedIn zoo 15 u → u.toNat ≤ zoo.get.length := by
    intro u hu; rw [hl]; rcases flags_involves hu with rfl | rfl <;> decide
  have hptr : (∃ u v, InvolvedIn zoo 15 u ∧ zoo.fromId u = some v ∧ IsPtr v) →
      ∀ u, zoo.get.length < u.toNat → ti'.nameOf u ≠ some (str "list_head") := by
    rintro ⟨u, v, hu, hv, hp⟩
    have h15 : zoo.fromId 15 = some (.struct ⟨.Struct, 67, 2, true, 8⟩ ⟨some (str "flags"), 8, [⟨73, some (str "lo"), 1, .bitOffsetAndSize 3 5⟩, ⟨76, some (str "hi"), 1, .byteOffset 4⟩]⟩) := by
      decide +kernel
    have h1 : zoo.fromId 1 = some (.int ⟨.Int, 1, 0, false, 4⟩ ⟨some (str "int"), 4, true, false, false, 0, 32⟩) := by decide +kernel
    rcases flags_involves hu with rfl | rfl
    · rw [h15] at hv; cases hv; exact hp.elim
    · rw [h1] at hv; cases hv; exact hp.elim
  refine ⟨ti', h, ?_, ?_, ?_, ?_, ?_⟩
  · intro t ht
    exact (lookup_added (.inl rfl) zoo_parsed' (.inl rfl) h hx t (by rw [hl]; exact ht)).1
  · exact (size_of_added (.inl rfl) zoo_parsed' (.inl rfl) h hx dbg 15 hin hptr _).1 ⟨by simp, 100, by decide +kernel⟩
  · exact (offset_of_added (.inl rfl) zoo_parsed' (.inl rfl) h hx dbg 15 hin hptr "hi" _).1 ⟨by simp, 100, by decide +kernel⟩
  · rcases id_of_added (.inl rfl) zoo_parsed' (.inl rfl) h hx (str "outer") with h1 | ⟨-, t, h1, h2, -⟩
    · exact .inl h1.1
    · exact .inr ⟨t, h1, by rw [hl] at h2; exact h2⟩
  · exact pointee_tid_added (.inl rfl) zoo_parsed' (.inl rfl) h hx 15 hin

end

end Btf.Props

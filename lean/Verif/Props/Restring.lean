import Verif.Proofs.Restring
import Verif.Props.Keep
import Verif.Props.Renumber
import Verif.Props.Examples
import Verif.Props.Source

/-!
# Property C106: it does not matter where strings are stored
-/

namespace Btf.Props

open Btf Spec TypeInformation

section
variable {cfg cfg' : Cfg} {R R' : Readable} {f f' : List UInt8} {e : Endianness} {fh fh' : FileHeader} {ti ti' : TypeInformation}

theorem reportedSlots_eq {vs : List TypeVariant} (h : Holds ti vs) : reportedSlots e ti = vs.flatMap (slots e) := by
  unfold reportedSlots
  rw [h.get, List.flatMap_def, numbered_map (slots e), List.flatMap_def]

theorem numbered_forget (vs : List TypeVariant) :
    (numbered vs).map (fun x => (x.1, forgetOffsets x.2)) = numbered (vs.map forgetOffsets) := by
  unfold numbered
  rw [List.zipIdx_map, List.map_map, List.map_map]
  rfl

theorem same_iff {vs vs' : List TypeVariant} (h : Holds ti vs) (h' : Holds ti' vs') :
    SameButOffsets ti ti' ↔ vs'.map forgetOffsets = vs.map forgetOffsets := by
  unfold SameButOffsets
  rw [h.get, h'.get, numbered_forget, numbered_forget]
  constructor
  · intro hn
    have := congrArg (List.map Prod.snd) hn
    have key : ∀ l : List TypeVariant, (numbered l).map Prod.snd = l := fun l => by
      have := numbered_map id l
      rwa [List.map_id] at this
    rwa [key, key] at this
  · intro hv; rw [hv]

/-- C106: another file with a type section of the same length gives the same result, but for the offsets of strings, exactly
if the words of its type section are the same but for the offsets of strings, and these lead to the same strings. -/
theorem new_restring_iff (hS : Serves cfg R f) (ha : FitsTarget cfg f) (hp : Preamble f e fh)
    (h : TypeInformation.new cfg R = .ok ti)
    (hS' : Serves cfg' R' f') (ha' : FitsTarget cfg' f') (hp' : Preamble f' e fh') (hlen : fh'.typeLen = fh.typeLen)
    (hE' : typeEnd fh' < 2 ^ 32) :
    (∃ ti', TypeInformation.new cfg' R' = .ok ti' ∧ SameButOffsets ti ti') ↔
      ∀ i c, (reportedSlots e ti)[i]? = some c → SlotAt f' e fh' (typeStart fh' + 4 * i) c := by
  obtain ⟨vs, hd, hh⟩ := new_sound hS ha h
  obtain ⟨e', fh'', next, hp'', hE, hr, hn⟩ := id hd
  obtain ⟨rfl, rfl⟩ := preamble_unique hp hp''
  rw [reportedSlots_eq hh]
  constructor
  · rintro ⟨ti', h', hs⟩
    obtain ⟨vs', ⟨e2, fh2, next', hp2, hE2, hr', hn'⟩, hh'⟩ := new_sound hS' ha' h'
    obtain ⟨rfl, rfl⟩ := preamble_unique hp' hp2
    have := records_slots hr'
    have hv := (same_iff hh hh').1 hs
    have key : vs'.flatMap (slots e) = vs.flatMap (slots e) := by
      rw [← flatMap_forget (k := forgetOffsets) (fun v => slots_forget v) vs', hv, flatMap_forget (fun v => slots_forget v)]
    rw [key] at this
    exact this
  · intro hc
    have h1 : typeEnd fh = typeStart fh + fh.typeLen.toNat := rfl
    have h2 : typeEnd fh' = typeStart fh' + fh.typeLen.toNat := by rw [← hlen]; rfl
    obtain ⟨vs', hv, hr', hle⟩ := slots_records hr hc (by omega) (by omega)
    simp only [] at hn
    obtain ⟨ti', h3, h4⟩ := new_complete hS' ha' ⟨e, fh', _, hp', hE', hr', by simp only []; omega⟩
    exact ⟨ti', h3, (same_iff hh h4).2 hv⟩

/-! ### The answers to queries -/

variable (hR : Addressable cfg R) (h : TypeInformation.new cfg R = .ok ti) (hR' : Addressable cfg' R')
  (h' : TypeInformation.new cfg' R' = .ok ti') (hs : SameButOffsets ti ti')
include hR h hR' h' hs

theorem restring_types : ∃ vs vs', Holds ti vs ∧ Holds ti' vs' ∧ vs'.map forgetOffsets = vs.map forgetOffsets := by
  obtain ⟨vs, -, -, -, hh, -⟩ := new_holds cfg R hR ti h
  obtain ⟨vs', -, -, -, hh', -⟩ := new_holds cfg' R' hR' ti' h'
  exact ⟨vs, vs', hh, hh', (same_iff hh hh').1 hs⟩

omit hR h hR' h' hs in
theorem typeAt_forget {vs vs' : List TypeVariant} (hv : vs'.map forgetOffsets = vs.map forgetOffsets) (t : Nat) :
    (typeAt vs' t).map forgetOffsets = (typeAt vs t).map forgetOffsets := by
  unfold typeAt
  rw [← List.getElem?_map, ← List.getElem?_map, List.map_cons, List.map_cons, hv]

omit hR h hR' h' hs in
theorem name_forget {vs vs' : List TypeVariant} (hv : vs'.map forgetOffsets = vs.map forgetOffsets) (t : Nat) :
    (typeAt vs' t).bind typeName = (typeAt vs t).bind typeName := by
  have := typeAt_forget hv t
  cases h1 : typeAt vs t <;> cases h2 : typeAt vs' t <;> rw [h1, h2] at this
  case none.some => cases this
  case some.none => cases this
  case some.some =>
    simp only [Option.map_some, Option.some.injEq] at this
    simp only [Option.bind_some]
    rw [← typeName_forget, this, typeName_forget]

/-- C106: the lookup functions give the same answers: `from_id` but for the offsets, `name_of` and `id_of`. -/
theorem lookup_restring (t : UInt32) (s : Str) :
    (ti'.fromId t).map forgetOffsets = (ti.fromId t).map forgetOffsets ∧ ti'.nameOf t = ti.nameOf t ∧ ti'.idOf s = ti.idOf s := by
  obtain ⟨vs, vs', hh, hh', hv⟩ := restring_types hR h hR' h' hs
  refine ⟨by rw [hh.fromId, hh'.fromId, typeAt_forget hv], by rw [hh.nameOf, hh'.nameOf, name_forget hv], ?_⟩
  apply Option.ext
  intro u
  rw [holds_names hh, holds_names hh']
  unfold Names
  simp only [name_forget hv]

theorem restring_renumbers : Renumbers id (fun _ => True) ti ti' := by
  have key := fun t s => lookup_restring hR h hR' h' hs t s
  have present : ∀ t v, ti.fromId t = some v → ∃ v', ti'.fromId t = some v' ∧ forgetOffsets v' = forgetOffsets v := by
    intro t v hv
    have := (key t []).1
    rw [hv] at this
    cases h2 : ti'.fromId t with
    | none => rw [h2] at this; cases this
    | some v' => rw [h2] at this; simp only [Option.map_some, Option.some.injEq] at this; exact ⟨v', rfl, this⟩
  have present' : ∀ t v, ti'.fromId t = some v → ∃ v', ti.fromId t = some v' ∧ forgetOffsets v = forgetOffsets v' := by
    intro t v hv
    have := (key t []).1
    rw [hv] at this
    cases h2 : ti.fromId t with
    | none => rw [h2] at this; cases this
    | some v' => rw [h2] at this; simp only [Option.map_some, Option.some.injEq] at this; exact ⟨v', rfl, this⟩
  refine ⟨?_, ?_, fun _ _ _ _ _ _ => trivial, ?_⟩
  · intro t v _ hv
    obtain ⟨v', h1, h2⟩ := present t v hv
    exact ⟨v', h1, forget_renamed h2⟩
  · intro t _ hv
    have := (key t []).1
    rw [hv] at this
    cases h2 : ti'.fromId t with
    | none => exact h2
    | some v' => rw [h2] at this; cases this
  · intro _ _ _ _ _ n
    unfold PointerSize
    rw [(key 0 (str "list_head")).2.2]
    constructor
    · rintro ⟨t, hd, d, h1, h2, h3⟩
      obtain ⟨v', h4, h5⟩ := present _ _ h2
      have := forget_renamed h5
      cases this with | struct h6 h7 => exact ⟨t, _, _, h1, h4, by rw [h6]; exact h3⟩
    · rintro ⟨t, hd, d, h1, h2, h3⟩
      obtain ⟨v', h4, h5⟩ := present' _ _ h2
      have := forget_renamed h5.symm
      cases v' <;> simp only [forgetOffsets, reduceCtorEq] at h5
      case struct hd' d' =>
        cases this with | struct h6 h7 => exact ⟨t, _, _, h1, h4, by rw [h3, h6]⟩

/-- C106: `size_of` gives the same answer. -/
theorem size_of_restring (c : Cfg) (t : UInt32) (o : Outcome Nat) : SizeOf c ti t o ↔ SizeOf c ti' t o :=
  size_of_renumber (restring_renumbers hR h hR' h' hs) c t trivial o

/-- C106: `pointee_tid` gives the same answer. -/
theorem pointee_tid_restring (t : UInt32) (o : Outcome UInt32) :
    Returns (fun k => pointeeTid ti k t) o ↔ Returns (fun k => pointeeTid ti' k t) o := by
  have := fun k => (restring_renumbers hR h hR' h' hs).pointeeTid k t trivial
  simp only [id_eq] at this
  simp only [this]
  have key : ∀ x : Outcome UInt32, x.bind (fun u => .ok u) = x := fun x => by cases x <;> rfl
  simp only [key]

/-- C106: `offset_of` gives the same answer, for every text, and also runs for ever in the same cases. -/
theorem offset_of_restring (c : Cfg) (t : UInt32) (s : String) :
    (∀ o, OffsetOf c ti t (str s) o ↔ OffsetOf c ti' t (str s) o) ∧
    (Diverges (fun k => offsetOf c ti k t (str s)) ↔ Diverges (fun k => offsetOf c ti' k t (str s))) := by
  have hren := restring_renumbers hR h hR' h' hs
  have key : ∀ o, renameAnswer id o = o := fun o => by rcases o with ⟨u, x⟩ | _ | _ | _ <;> rfl
  refine ⟨fun o => ⟨fun ho => ?_, fun ho => ?_⟩, offset_of_renumber_diverges hren c t trivial s⟩
  · have := (offset_of_renumber hren c t trivial s).1 o ho
    rwa [key] at this
  · obtain ⟨o', h1, h2⟩ := (offset_of_renumber hren c t trivial s).2 o ho
    rw [key] at h1
    rwa [h1]

end

/-! ### The hypotheses can be met -/

section
open Samples

/-- The samples' file with another string section: there is a string more at the start, "int" is found at the end of "myint", and
the pointers have a name (which is not read). -/
def otherTypes : List UInt32 := [
  0xa, 0x1000000, 0x4, 0x1000020, 0x8, 0x8000000, 0x1, 0xe, 0x4000002, 0x10, 0x18, 0x4, 0x0, 0x1d, 0x4, 0x40, 0x63,
  0x2000000, 0x3, 0x0, 0x3000000, 0x0, 0x1, 0x1, 0xa, 0x0, 0x5000002, 0x10, 0x22, 0x1, 0x0, 0x24, 0x3, 0x0, 0x26,
  0x4000004, 0x50, 0x2c, 0x1, 0x0, 0x0, 0x6, 0x40, 0x2e, 0x5, 0xc0, 0x32, 0x3, 0x200, 0x0, 0xa000000, 0x7, 0x37,
  0x12000000, 0x7, 0x63, 0x2000000, 0x8, 0x0, 0x9000000, 0xa, 0x3b, 0x7000000, 0x0, 0x0, 0xd000000, 0x1, 0x3f, 0x4000002,
  0x58, 0x0, 0x7, 0x0, 0x44, 0x1, 0x280, 0x46, 0x84000002, 0x8, 0x4c, 0x1, 0x5000003, 0x4f, 0x1, 0x20, 0x52, 0x12000000,
  0x4]

def otherStrings : List UInt8 := [0, 120, 0] ++ zooStrings

def otherHeader : FileHeader := ⟨1, 0, 24, 0, 352, 352, 87⟩

theorem other_preamble : Preamble (leFile otherTypes otherStrings) .little otherHeader :=
  ⟨by decide +kernel, by decide +kernel, by decide +kernel, by decide +kernel, by decide +kernel, by decide +kernel,
    by decide +kernel, by decide +kernel⟩

/-- The result is a success, and passes the test. -/
def succeedsWith {α ε : Type} (x : Res ε α) (p : α → Bool) : Bool := match x with | .ok a => p a | _ => false

theorem succeedsWith_iff {α ε : Type} {x : Res ε α} {p : α → Bool} (h : succeedsWith x p = true) : ∃ a, x = .ok a ∧ p a = true := by
  cases x with
  | ok a => exact ⟨a, rfl, h⟩
  | err _ => cases h
  | panic => cases h
  | nofuel => cases h

theorem other_parsed : ∃ ti', TypeInformation.new dbg (readableBuffer dbg (leFile otherTypes otherStrings)) = .ok ti' ∧
    SameButOffsets zoo ti' ∧ ti' ≠ zoo := by
  obtain ⟨ti', h, h'⟩ := succeedsWith_iff
    (x := TypeInformation.new dbg (readableBuffer dbg (leFile otherTypes otherStrings)))
    (p := fun ti' => decide (SameButOffsets zoo ti' ∧ ti' ≠ zoo)) (by decide +kernel)
  exact ⟨ti', h, of_decide_eq_true h'⟩

/-- `new_restring_iff`: the words are the same but for the offsets. -/
example : ∀ i c, (reportedSlots .little zoo)[i]? = some c → SlotAt (leFile otherTypes otherStrings) .little otherHeader (24 + 4 * i) c :=
  (new_restring_iff (serves_buffer dbg _ (by decide +kernel)) (.inl rfl) zoo_preamble zoo_parsed
    (serves_buffer dbg _ (by decide +kernel)) (.inl rfl) other_preamble (by decide +kernel) (by decide +kernel)).1
    (other_parsed.imp fun _ h => ⟨h.1, h.2.1⟩)

/-- `new_restring_iff`: in the original file "int" is not at offset 10, so the types of the other file with the strings of the original one
are not the same. -/
example : ¬ ∃ ti', TypeInformation.new dbg (readableBuffer dbg (leFile otherTypes zooStrings)) = .ok ti' ∧ SameButOffsets zoo ti' := by
  rintro ⟨ti', h, h'⟩
  obtain ⟨ti1, h1, h2⟩ := succeedsWith_iff
    (x := TypeInformation.new dbg (readableBuffer dbg (leFile otherTypes zooStrings)))
    (p := fun ti' => decide (¬ SameButOffsets zoo ti')) (by decide +kernel)
  rw [h] at h1
  cases h1
  exact of_decide_eq_true h2 h'

/-- `lookup_restring`, `size_of_restring`, `pointee_tid_restring`, `offset_of_restring`: the queries on the other file. -/
example : ∃ ti', TypeInformation.new dbg (readableBuffer dbg (leFile otherTypes otherStrings)) = .ok ti' ∧
    ti'.idOf (str "list_head") = some 3 ∧ ti'.nameOf 1 = some (str "int") ∧ SizeOf dbg ti' 4 (.ok 8) ∧
    Returns (fun k => pointeeTid ti' k 4) (.ok 3) ∧ OffsetOf dbg ti' 7 (str "head.prev") (.ok (4, .byteOffset 72)) := by
  obtain ⟨ti', h', hs, -⟩ := other_parsed
  have hR : Addressable dbg (readableBuffer dbg (leFile zooTypes zooStrings)) :=
    addressable_of_target (serves_buffer dbg _ (by decide +kernel)) (.inl rfl)
  have hR' : Addressable dbg (readableBuffer dbg (leFile otherTypes otherStrings)) :=
    addressable_of_target (serves_buffer dbg _ (by decide +kernel)) (.inl rfl)
  refine ⟨ti', h', ?_, ?_, ?_, ?_, ?_⟩
  · rw [(lookup_restring hR zoo_parsed hR' h' hs 0 (str "list_head")).2.2]; decide +kernel
  · rw [(lookup_restring hR zoo_parsed hR' h' hs 1 []).2.1]; decide +kernel
  · exact (size_of_restring hR zoo_parsed hR' h' hs dbg 4 _).1 ⟨(by decide), 9, by decide +kernel⟩
  · exact (pointee_tid_restring hR zoo_parsed hR' h' hs 4 _).1 ⟨(by decide), 9, by decide +kernel⟩
  · exact ((offset_of_restring hR zoo_parsed hR' h' hs dbg 7 "head.prev").1 _).1 ⟨(by decide), 9, by decide +kernel⟩

end

end Btf.Props

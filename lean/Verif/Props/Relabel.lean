import Verif.Spec.Relabel
import Verif.Spec.Format
import Verif.Proofs.Relabel
import Verif.Proofs.FileStr
import Verif.Proofs.ObstacleText
import Verif.Props.Search
import Verif.Props.Declared

/-!
# Properties C102, C103: what the names of members are used for, and which can be written in a path
-/

namespace Btf.Props

open Btf Spec TypeInformation

variable {N : Str → Str → Prop} {ti ti' : TypeInformation}

/-! ### C102 -/

/-- C102: a lookup has the same result after members have got other names, if the names in the path are changed
accordingly. -/
theorem offset_of_relabel (h : Relabels N ti ti') (cfg : Cfg) (t : UInt32) (s s' : String) (cs cs' : List PathComponent)
    (hs : AcceptedPath cfg.usizeMod (str s) cs) (hs' : AcceptedPath cfg.usizeMod (str s') cs')
    (hcs : List.Forall₂ (SameStep N) cs cs') (r : Outcome (UInt32 × Offset)) :
    OffsetOf cfg ti t (str s) r ↔ OffsetOf cfg ti' t (str s') r := by
  simp only [OffsetOf, offsetOf_eq_impl ((yields_iff cfg (utf8Like_str s) cs).2 hs),
    offsetOf_eq_impl ((yields_iff cfg (utf8Like_str s') cs').2 hs'), fun n => h.impl cfg true n (.byteOffset 0) t cs cs' hcs]

/-- C102: it is the same for texts that are not paths. -/
theorem offset_of_relabel_breaks (h : Relabels N ti ti') (cfg : Cfg) (t : UInt32) (s s' : String) (cs cs' : List PathComponent)
    (hs : Breaks cfg.usizeMod (str s) cs) (hs' : Breaks cfg.usizeMod (str s') cs')
    (hcs : List.Forall₂ (SameStep N) cs cs') (r : Outcome (UInt32 × Offset)) :
    OffsetOf cfg ti t (str s) r ↔ OffsetOf cfg ti' t (str s') r := by
  simp only [OffsetOf, offsetOf_eq_impl ((breaks_iff cfg (utf8Like_str s) cs).2 hs),
    offsetOf_eq_impl ((breaks_iff cfg (utf8Like_str s') cs').2 hs'), fun n => h.impl cfg false n (.byteOffset 0) t cs cs' hcs]

/-- C102: it also runs for ever in the same cases. -/
theorem offset_of_relabel_diverges (h : Relabels N ti ti') (cfg : Cfg) (t : UInt32) (s s' : String) (cs cs' : List PathComponent)
    (hs : AcceptedPath cfg.usizeMod (str s) cs ∧ AcceptedPath cfg.usizeMod (str s') cs' ∨
      Breaks cfg.usizeMod (str s) cs ∧ Breaks cfg.usizeMod (str s') cs')
    (hcs : List.Forall₂ (SameStep N) cs cs') :
    Diverges (fun k => offsetOf cfg ti k t (str s)) ↔ Diverges (fun k => offsetOf cfg ti' k t (str s')) := by
  rcases hs with ⟨hs, hs'⟩ | ⟨hs, hs'⟩
  · rw [offsetOf_eq_impl ((yields_iff cfg (utf8Like_str s) cs).2 hs),
      offsetOf_eq_impl ((yields_iff cfg (utf8Like_str s') cs').2 hs')]
    simp only [fun n => h.impl cfg true n (.byteOffset 0) t cs cs' hcs]
  · rw [offsetOf_eq_impl ((breaks_iff cfg (utf8Like_str s) cs).2 hs),
      offsetOf_eq_impl ((breaks_iff cfg (utf8Like_str s') cs').2 hs')]
    simp only [fun n => h.impl cfg false n (.byteOffset 0) t cs cs' hcs]

/-- C102: `size_of` and `pointee_tid` have nothing to do with the names of members. -/
theorem size_of_relabel (h : Relabels N ti ti') (cfg : Cfg) (t : UInt32) (o : Outcome Nat) :
    SizeOf cfg ti t o ↔ SizeOf cfg ti' t o := by
  simp only [SizeOf, h.sizeOf]

theorem pointee_tid_relabel (h : Relabels N ti ti') (t : UInt32) (o : Outcome UInt32) :
    Returns (fun k => pointeeTid ti k t) o ↔ Returns (fun k => pointeeTid ti' k t) o := by
  simp only [h.pointeeTid]

theorem sameSteps_self {cs : List PathComponent} (h : ∀ n, .name n ∈ cs → Finds N n n) : List.Forall₂ (SameStep N) cs cs := by
  induction cs with
  | nil => exact .nil
  | cons c cs ih =>
    refine .cons ?_ (ih fun n hn => h n (List.mem_cons_of_mem _ hn))
    cases c with
    | index i => exact .index
    | name n => exact .name (h n (List.mem_cons_self ..))

/-- C102: what members that are not named in the path are called does not matter. -/
theorem offset_of_other_names (cfg : Cfg) (t : UInt32) (s : String) (cs : List PathComponent)
    (hs : AcceptedPath cfg.usizeMod (str s) cs)
    (h : Relabels (fun x x' => x = x' ∨ .name x ∉ cs ∧ .name x' ∉ cs) ti ti') (r : Outcome (UInt32 × Offset)) :
    OffsetOf cfg ti t (str s) r ↔ OffsetOf cfg ti' t (str s) r := by
  refine offset_of_relabel h cfg t s s cs cs hs hs (sameSteps_self fun n hn => ?_) r
  rintro x x' (rfl | ⟨h1, h2⟩)
  · rfl
  · exact ⟨fun e => absurd (e ▸ hn) h1, fun e => absurd (e ▸ hn) h2⟩

/-! ### C103 -/

theorem parts_names {limit : Nat} {s : Str} {cs : List PathComponent} (h : Parts limit s cs) : ∀ n, .name n ∈ cs → IsName n := by
  induction h with
  | nil => simp
  | name hn _ ih =>
    intro m hm
    rcases List.mem_cons.1 hm with h | h
    · injection h with h; rwa [h]
    · exact ih m h
  | index _ _ ih => intro m hm; rcases List.mem_cons.1 hm with h | h; cases h; exact ih m h

theorem path_names {limit : Nat} {s : Str} {cs : List PathComponent} (h : Path limit s cs) : ∀ n, .name n ∈ cs → IsName n := by
  cases h with
  | empty => simp
  | name hn h =>
    intro m hm
    rcases List.mem_cons.1 hm with e | e
    · injection e with e; rwa [e]
    · exact parts_names h m e
  | index _ h => intro m hm; rcases List.mem_cons.1 hm with e | e; cases e; exact parts_names h m e

theorem accepted_names {limit : Nat} {s : Str} {cs : List PathComponent} (h : AcceptedPath limit s cs) :
    ∀ n, .name n ∈ cs → IsName n := by
  cases h with
  | strict h => exact path_names h
  | danglingDot h => exact path_names h
  | danglingOpen h => exact path_names h

/-- The bytes of the UTF-8 encoding of a Latin-1 character. -/
theorem latin1_byte (b : UInt8) : String.utf8EncodeChar (Char.ofNat b.toNat) =
    if b.toNat < 128 then [b] else if b.toNat < 192 then [194, b] else [195, b - 64] := by
  have h : ∀ n : Fin 256, String.utf8EncodeChar (Char.ofNat (UInt8.ofNat n.1).toNat) =
    if (UInt8.ofNat n.1).toNat < 128 then [UInt8.ofNat n.1] else if (UInt8.ofNat n.1).toNat < 192 then [194, UInt8.ofNat n.1]
      else [195, UInt8.ofNat n.1 - 64] := by decide +kernel
  have := h ⟨b.toNat, b.toNat_lt⟩
  simpa using this

instance (b : UInt8) : Decidable (NameStart b) := by unfold NameStart Letter; infer_instance
instance (b : UInt8) : Decidable (NameChar b) := by unfold NameChar Letter NumericSign; infer_instance

theorem latin1_chars (b : UInt8) : (∀ c ∈ String.utf8EncodeChar (Char.ofNat b.toNat), NameChar c) ↔ WritableByte b := by
  have h : ∀ n : Fin 256, (∀ c ∈ String.utf8EncodeChar (Char.ofNat (UInt8.ofNat n.1).toNat), NameChar c) ↔
    WritableByte (UInt8.ofNat n.1) := by decide +kernel
  have := h ⟨b.toNat, b.toNat_lt⟩
  simpa using this

theorem latin1_start (b : UInt8) (h : WritableByte b) : (∃ c r, String.utf8EncodeChar (Char.ofNat b.toNat) = c :: r ∧ NameStart c) ↔
    ¬ (48 ≤ b.toNat ∧ b.toNat ≤ 57) := by
  rw [latin1_byte]
  by_cases h1 : b.toNat < 128
  · rw [if_pos h1]
    simp only [List.cons.injEq]
    unfold WritableByte at h
    simp only [List.mem_cons, List.not_mem_nil, or_false] at h
    constructor
    · rintro ⟨c, r, ⟨rfl, rfl⟩, h2⟩
      unfold NameStart Letter at h2
      omega
    · intro h2
      refine ⟨b, [], ⟨rfl, rfl⟩, ?_⟩
      unfold NameStart Letter
      omega
  · rw [if_neg h1]
    refine ⟨fun _ => by omega, fun _ => ?_⟩
    split
    · exact ⟨_, _, rfl, by decide⟩
    · exact ⟨_, _, rfl, by decide⟩

/-- C103: a name of a file is a name of the path syntax exactly if it is `Writable`. -/
theorem writable_iff (bs : List UInt8) : IsName (latin1 bs) ↔ Writable bs := by
  have all : ∀ bs : List UInt8, (∀ c ∈ latin1 bs, NameChar c) ↔ ∀ b ∈ bs, WritableByte b := by
    intro bs
    induction bs with
    | nil => simp [latin1_nil]
    | cons b bs ih => simp only [latin1_cons, List.forall_mem_append, latin1_chars, ih, List.forall_mem_cons]
  cases bs with
  | nil =>
    rw [latin1_nil]
    exact ⟨nofun, fun ⟨⟨_, _, h, _⟩, _⟩ => nomatch h⟩
  | cons b bs =>
    have chars := all (b :: bs)
    rw [latin1_cons] at chars ⊢
    constructor
    · intro h
      have h2 := chars.1 (isName_chars h)
      obtain ⟨c, r, hc, hs⟩ := isName_head h
      refine ⟨⟨b, bs, rfl, (latin1_start b (h2 b (List.mem_cons_self ..))).1 ?_⟩, h2⟩
      cases he : String.utf8EncodeChar (Char.ofNat b.toNat) with
      | nil => rw [latin1_byte] at he; split at he <;> (try split at he) <;> cases he
      | cons c' r' => rw [he] at hc; injection hc with hc _; exact ⟨c', r', rfl, hc ▸ hs⟩
    · rintro ⟨⟨b', rest, e, hb⟩, h2⟩
      cases e
      obtain ⟨c, r, hc, hs⟩ := (latin1_start b (h2 b (List.mem_cons_self ..))).2 hb
      have h3 := chars.2 h2
      rw [hc] at h3 ⊢
      exact .mk c _ hs fun x hx => h3 x (List.mem_cons_of_mem _ hx)

/-- C103: a name of a file is a component of some path exactly if it is `Writable`; the path is the name, then. -/
theorem writable_component (limit : Nat) (bs : List UInt8) :
    (Writable bs ↔ ∃ s cs, AcceptedPath limit (str s) cs ∧ .name (latin1 bs) ∈ cs) ∧
    (Writable bs → AcceptedPath limit (latin1 bs) [.name (latin1 bs)]) := by
  have key : Writable bs → AcceptedPath limit (latin1 bs) [.name (latin1 bs)] := fun h => by
    have := Path.name (limit := limit) (rest := []) (cs := []) ((writable_iff bs).2 h) .nil
    rw [List.append_nil] at this
    exact .strict this
  refine ⟨⟨fun h => ⟨_, _, key h, by simp⟩, ?_⟩, key⟩
  rintro ⟨s, cs, h, hm⟩
  exact (writable_iff bs).1 (accepted_names h _ hm)

/-- C103: a member with a `Writable` name, the first with this name in a struct without unnamed members, is found by its
name. -/
theorem offset_of_writable (cfg : Cfg) (ti : TypeInformation) (t : UInt32) (v : TypeVariant) (bs : List UInt8)
    (pre post : List Member) (m : Member) (hw : Writable bs)
    (hr : Resolves ti t v) (hm : membersOf v = some (pre ++ m :: post))
    (hnamed : ∀ a ∈ pre ++ m :: post, a.name ≠ none)
    (hn : m.name = some (latin1 bs)) (hpre : ∀ a ∈ pre, a.name ≠ some (latin1 bs)) (o : Outcome (UInt32 × Offset)) :
    OffsetOf cfg ti t (latin1 bs) o ↔ o = .ok (m.tid, m.offset) :=
  offset_of_member cfg ti t v _ (latin1 bs) pre post m ((writable_component _ bs).2 hw) hr hm hnamed hn hpre o

/-- C103: the name that is reported for a type or member is the text that is in the file only if all characters are
ASCII. -/
theorem latin1_self (bs : List UInt8) : latin1 bs = bs ↔ ∀ b ∈ bs, b.toNat < 128 := by
  have len : ∀ bs : List UInt8, bs.length ≤ (latin1 bs).length := by
    intro bs
    induction bs with
    | nil => simp
    | cons b bs ih =>
      rw [latin1_cons, List.length_append, latin1_byte, List.length_cons]
      split
      · simp; omega
      · split <;> · simp; omega
  induction bs with
  | nil => simp [latin1_nil]
  | cons b bs ih =>
    rw [latin1_cons, List.forall_mem_cons, show (∀ x ∈ bs, x.toNat < 128) ↔ latin1 bs = bs from ih.symm, latin1_byte]
    by_cases hb : b.toNat < 128
    · simp [hb]
    · have := len bs
      rw [if_neg hb]
      simp only [hb, false_and, iff_false]
      intro h
      have h := congrArg List.length h
      rw [List.length_append, List.length_cons] at h
      split at h <;> · simp only [List.length_cons, List.length_nil] at h; omega

theorem yields_names {cfg : Cfg} {s : String} {cs : List PathComponent} {b : Bool}
    (h : Yields cfg (PathIter.new (str s)) cs b) : ∀ n, .name n ∈ cs → IsName n := by
  cases b with
  | true => exact accepted_names ((yields_iff cfg (utf8Like_str s) cs).1 h)
  | false =>
    obtain ⟨⟨p, rest, -, hp, -⟩, -⟩ := (breaks_iff cfg (utf8Like_str s) cs).1 h
    exact path_names hp

/-- C103: what members whose names are not names of the path syntax are called does not matter for any text: no lookup
finds them by their names. -/
theorem offset_of_unwritable (h : Relabels (fun x x' => x = x' ∨ ¬ IsName x ∧ ¬ IsName x') ti ti') (cfg : Cfg) (t : UInt32)
    (s : String) (r : Outcome (UInt32 × Offset)) :
    OffsetOf cfg ti t (str s) r ↔ OffsetOf cfg ti' t (str s) r := by
  obtain ⟨cs, b, hy⟩ := yields_total cfg (utf8Like_str s)
  have hcs : List.Forall₂ (SameStep (fun x x' => x = x' ∨ ¬ IsName x ∧ ¬ IsName x')) cs cs := by
    refine sameSteps_self fun n hn => ?_
    rintro x x' (rfl | ⟨h1, h2⟩)
    · rfl
    · exact ⟨fun e => absurd (e ▸ yields_names hy n hn) h1, fun e => absurd (e ▸ yields_names hy n hn) h2⟩
  simp only [OffsetOf, offsetOf_eq_impl hy, fun n => h.impl cfg b n (.byteOffset 0) t cs cs hcs]

/-! ### Examples -/

/-- `struct s { int é; int ê; }`, where `é` is UTF-8 in the file, and `ê` is Latin-1. -/
def accentTypes : List UInt32 := [
  1, 0x1000000, 4, 0x1000020, -- 1: INT int
  5, 0x4000002, 8, 7, 1, 0, 10, 1, 32] -- 2: STRUCT s

def accentStrings : List UInt8 := [0, 105, 110, 116, 0, 115, 0, 0xC3, 0xA9, 0, 0xEA, 0]

def accent (first second : Str) : TypeInformation where
  idToType := ⟨[
    (1, .int ⟨.Int, 1, 0, false, 4⟩ ⟨some (str "int"), 4, true, false, false, 0, 32⟩),
    (2, .struct ⟨.Struct, 5, 2, false, 8⟩ ⟨some (str "s"), 8,
      [⟨7, some first, 1, .byteOffset 0⟩, ⟨10, some second, 1, .byteOffset 4⟩]⟩)]⟩
  nameToId := ⟨[(str "int", 1), (str "s", 2)]⟩
  idToName := ⟨[(1, str "int"), (2, str "s")]⟩

theorem accent_relabels {N : Str → Str → Prop} {a b a' b' : Str} (ha : N a a') (hb : N b b') :
    Relabels N (accent a b) (accent a' b') := by
  have ids : ∀ a b t, (accent a b).fromId t = if t = 0 then some .void else if t = 1 then
      some (.int ⟨.Int, 1, 0, false, 4⟩ ⟨some (str "int"), 4, true, false, false, 0, 32⟩) else if t = 2 then
      some (.struct ⟨.Struct, 5, 2, false, 8⟩ ⟨some (str "s"), 8,
        [⟨7, some a, 1, .byteOffset 0⟩, ⟨10, some b, 1, .byteOffset 4⟩]⟩) else none := fun _ _ _ => rfl
  have key : ∀ t, (∃ v v', (accent a b).fromId t = some v ∧ (accent a' b').fromId t = some v' ∧ Relabelled N v v' ∧ ¬ IsPtr v) ∨
      (accent a b).fromId t = none ∧ (accent a' b').fromId t = none := by
    intro t
    rw [ids, ids]
    by_cases h0 : t = 0
    · exact .inl ⟨_, _, if_pos h0, if_pos h0, .same rfl, id⟩
    by_cases h1 : t = 1
    · simp only [if_neg h0, if_pos h1]; exact .inl ⟨_, _, rfl, rfl, .same rfl, id⟩
    by_cases h2 : t = 2
    · simp only [if_neg h0, if_neg h1, if_pos h2]
      exact .inl ⟨_, _, rfl, rfl, .struct rfl (.cons ⟨.named ha, rfl, rfl⟩ (.cons ⟨.named hb, rfl, rfl⟩ .nil)), id⟩
    · simp only [if_neg h0, if_neg h1, if_neg h2]; exact .inr ⟨trivial, trivial⟩
  constructor
  · intro t v h
    rcases key t with ⟨w, v', h1, h2, h3, -⟩ | ⟨h1, -⟩ <;> rw [h1] at h <;> cases h
    exact ⟨v', h2, h3⟩
  · intro t h
    rcases key t with ⟨w, v', h1, -⟩ | ⟨-, h2⟩
    · rw [h1] at h; cases h
    · exact h2
  · intro t v h hp
    rcases key t with ⟨w, v', h1, -, -, h4⟩ | ⟨h1, -⟩ <;> rw [h1] at h <;> cases h
    exact absurd hp h4

theorem accent_parsed : TypeInformation.new Samples.dbg (Samples.buffer (Samples.leFile accentTypes accentStrings)) =
    .ok (accent (latin1 [0xC3, 0xA9]) (latin1 [0xEA])) := by decide +kernel

/-- `writable_iff`, `latin1_self`: the name that is stored as Latin-1 can be written in a path, but not the one that is
stored as UTF-8; neither is reported as it is stored. -/
example : Writable [0xEA] ∧ ¬ Writable [0xC3, 0xA9] ∧ latin1 [0xEA] = str "ê" ∧ latin1 [0xC3, 0xA9] = str "Ã©" :=
  ⟨⟨⟨_, _, rfl, by decide⟩, by decide⟩, fun h => absurd (h.2 0xA9 (by decide)) (by decide), by decide +kernel, by decide +kernel⟩

/-- `offset_of_writable`, `writable_component`: the second member is found as `ê`. -/
example (cfg : Cfg) (o : Outcome (UInt32 × Offset)) :
    OffsetOf cfg (accent (latin1 [0xC3, 0xA9]) (latin1 [0xEA])) 2 (latin1 [0xEA]) o ↔ o = .ok (1, .byteOffset 4) :=
  offset_of_writable cfg _ 2 _ [0xEA] [⟨7, some (latin1 [0xC3, 0xA9]), 1, .byteOffset 0⟩] []
    ⟨10, some (latin1 [0xEA]), 1, .byteOffset 4⟩ ⟨⟨_, _, rfl, by decide⟩, by decide⟩ ⟨2, .refl, rfl, rfl⟩ rfl
    (by decide) rfl (by decide) o

/-- The first member is found neither as `é` nor as `Ã©`. -/
example : OffsetOf Samples.dbg (accent (latin1 [0xC3, 0xA9]) (latin1 [0xEA])) 2 (str "é") (.err .InvalidTypePath) ∧
    OffsetOf Samples.dbg (accent (latin1 [0xC3, 0xA9]) (latin1 [0xEA])) 2 (str "Ã©") (.err .InvalidTypePath) :=
  ⟨⟨by simp, 5, by decide +kernel⟩, ⟨by simp, 5, by decide +kernel⟩⟩

/-- `offset_of_unwritable`: all answers are the same if its name is `x-y`. -/
example (cfg : Cfg) (t : UInt32) (s : String) (r : Outcome (UInt32 × Offset)) :
    OffsetOf cfg (accent (latin1 [0xC3, 0xA9]) (latin1 [0xEA])) t (str s) r ↔
      OffsetOf cfg (accent (str "x-y") (latin1 [0xEA])) t (str s) r :=
  offset_of_unwritable (accent_relabels (.inr ⟨fun h => absurd ((writable_iff _).1 h).2 (by decide),
    fun h => absurd (isName_chars h 45 (by decide)) (by decide)⟩) (.inl rfl)) cfg t s r

/-- `offset_of_relabel`: the members are renamed from `a` and `b` to `b` and `c`; what was found as `b` is found as `c`.
`offset_of_other_names`: a lookup of `b` does not depend on whether the first member is called `a` or `c`. -/
example (cfg : Cfg) (r : Outcome (UInt32 × Offset)) :
    (OffsetOf cfg (accent (str "a") (str "b")) 2 (str "b") r ↔ OffsetOf cfg (accent (str "b") (str "c")) 2 (str "c") r) ∧
    (OffsetOf cfg (accent (str "a") (str "b")) 2 (str "b") r ↔ OffsetOf cfg (accent (str "c") (str "b")) 2 (str "b") r) := by
  have pb : AcceptedPath cfg.usizeMod (str "b") [.name (str "b")] :=
    .strict (.name (rest := []) (.mk 98 [] (by decide) (by simp)) .nil)
  have pc : AcceptedPath cfg.usizeMod (str "c") [.name (str "c")] :=
    .strict (.name (rest := []) (.mk 99 [] (by decide) (by simp)) .nil)
  constructor
  · refine offset_of_relabel (accent_relabels (N := fun x x' => x = str "a" ∧ x' = str "b" ∨ x = str "b" ∧ x' = str "c")
      (.inl ⟨rfl, rfl⟩) (.inr ⟨rfl, rfl⟩)) cfg 2 "b" "c" _ _ pb pc (.cons (.name ?_) .nil) r
    rintro x x' (⟨rfl, rfl⟩ | ⟨rfl, rfl⟩) <;> decide
  · exact offset_of_other_names cfg 2 "b" _ pb (accent_relabels (.inr ⟨by decide, by decide⟩) (.inl rfl)) r

/-- `offset_of_relabel_diverges`, `size_of_relabel`, `pointee_tid_relabel`: `accent_relabels` gives what they need. -/
example (cfg : Cfg) (t : UInt32) (o : Outcome Nat) :
    SizeOf cfg (accent (str "a") (str "b")) t o ↔ SizeOf cfg (accent (str "c") (str "d")) t o :=
  size_of_relabel (accent_relabels (N := fun _ _ => True) trivial trivial) cfg t o

/-- `offset_of_relabel_breaks`: after the renaming, `c.!` fails as `b.!` did before. -/
example (r : Outcome (UInt32 × Offset)) :
    OffsetOf Samples.dbg (accent (str "a") (str "b")) 2 (str "b.!") r ↔
      OffsetOf Samples.dbg (accent (str "b") (str "c")) 2 (str "c.!") r := by
  have breaks : ∀ s n, ((PathIter.new (str s)).next Samples.dbg).1 = .ok (some (.name (str n))) →
      (((PathIter.new (str s)).next Samples.dbg).2.next Samples.dbg).1 = .err .InvalidTypePath →
      Breaks Samples.dbg.usizeMod (str s) [.name (str n)] := by
    intro s n h1 h2
    exact (breaks_iff Samples.dbg (utf8Like_str s) _).1
      (.tok (it' := ((PathIter.new (str s)).next Samples.dbg).2) (Prod.ext h1 rfl) (.fail h2))
  refine offset_of_relabel_breaks (accent_relabels (N := fun x x' => x = str "a" ∧ x' = str "b" ∨ x = str "b" ∧ x' = str "c")
    (.inl ⟨rfl, rfl⟩) (.inr ⟨rfl, rfl⟩)) Samples.dbg 2 _ _ [.name (str "b")] [.name (str "c")]
    (breaks "b.!" "b" (by decide +kernel) (by decide +kernel)) (breaks "c.!" "c" (by decide +kernel) (by decide +kernel))
    (.cons (.name ?_) .nil) r
  rintro x x' (⟨rfl, rfl⟩ | ⟨rfl, rfl⟩) <;> decide

end Btf.Props

import Verif.Props.Search
import Verif.Props.Lookup

/-!
# Properties C41, C60: what unnamed bitfields do to lookups
-/

namespace Btf.Props

open Btf Spec TypeInformation

theorem after_zero {a o : Offset} : After a (.byteOffset 0) o ↔ ¬ IsBitfield a ∧ o = a := by
  constructor
  · rintro ⟨h1, h2, h3⟩
    refine ⟨h1, ?_⟩
    cases a with
    | bitOffsetAndSize b w => exact absurd (by simp [IsBitfield, bitWidth]) h1
    | byteOffset a =>
      cases o with
      | bitOffsetAndSize b w => cases h2
      | byteOffset o =>
        simp only [bitPos, UInt32.toNat_zero, Nat.mul_zero, Nat.add_zero] at h3
        exact congrArg _ (UInt32.toNat_inj.1 (by omega))
  · rintro ⟨h, rfl⟩
    refine ⟨h, ?_, by simp [bitPos]⟩
    cases o with
    | bitOffsetAndSize b w => exact absurd (by simp [IsBitfield, bitWidth]) h
    | byteOffset o => rfl

/-- Where `x` is among `pre ++ m :: post`. -/
theorem split_before {α : Type} {pre pre' post post' : List α} {m x : α} (h : pre' ++ x :: post' = pre ++ m :: post) :
    (∃ mid, pre = pre' ++ x :: mid) ∨ (pre' = pre ∧ x = m) ∨ m ∈ pre' := by
  rcases List.append_eq_append_iff.1 h with ⟨as, h1, h2⟩ | ⟨as, h1, h2⟩
  · cases as with
    | nil => simp at h1 h2; exact .inr (.inl ⟨h1.symm, h2.1⟩)
    | cons b as => injection h2 with h2 _; subst h2; exact .inl ⟨as, h1⟩
  · cases as with
    | nil => simp at h1 h2; exact .inr (.inl ⟨h1, h2.1.symm⟩)
    | cons b as => injection h2 with h2 _; subst h2; exact .inr (.inr (by rw [h1]; simp))

/-- **C60.** A struct or union with unnamed bitfields, `m` being the first: a lookup by name has the answer of the first
unnamed member before `m` in which it does not fail, or else it fails with `UnexpectedBitfield`. What follows after `m`, and
the members with names, do not matter. -/
theorem unnamed_bitfield_exact (cfg : Cfg) (ti : TypeInformation) (t : UInt32) (v : TypeVariant) (s : String) (name : Str)
    (cs : List PathComponent) (pre post : List Member) (m : Member)
    (hp : AcceptedPath cfg.usizeMod (str s) (.name name :: cs)) (hr : Resolves ti t v)
    (hm : membersOf v = some (pre ++ m :: post)) (hn : m.name = none) (hb : IsBitfield m.offset)
    (hpre : ∀ a ∈ pre, a.name = none → ¬ IsBitfield a.offset) (r : Outcome (UInt32 × Offset)) :
    OffsetOf cfg ti t (str s) r ↔
      (∃ pre' a mid, pre = pre' ++ a :: mid ∧ a.name = none ∧ FailsIn cfg ti true (.byteOffset 0) (.name name :: cs) pre' ∧
        Search cfg ti true a.tid a.offset (.name name :: cs) r ∧ ∀ k, r ≠ .err k) ∨
      (FailsIn cfg ti true (.byteOffset 0) (.name name :: cs) pre ∧ r = .err .UnexpectedBitfield) := by
  rw [offset_of_search cfg ti t s _ hp]
  have no : ∀ {o}, ¬ After m.offset (.byteOffset 0) o := fun h => h.1 hb
  constructor
  · intro h
    cases h with
    | missing h1 h2 =>
      obtain ⟨a, h3, h4, h5⟩ := hr
      rw [chain_end_unique h1 h3 (fun w hw => by rw [h2] at hw; cases hw) (fun w hw => by rw [h4] at hw; cases hw; exact h5)] at h2
      rw [h2] at h4; cases h4
    | closed h1 h2 => obtain rfl := resolves_unique hr h1; simp only [Closed] at h2; rw [hm] at h2; cases h2
    | unnamed q e h1 h2 h3 h4 h5 h6 h7 h8 =>
      obtain rfl := resolves_unique hr h1
      rw [hm] at h2
      injection h2 with h2
      rcases split_before h2.symm with ⟨mid, h⟩ | ⟨-, rfl⟩ | h
      · refine .inl ⟨_, _, mid, h, h5, fun a ha hn => ⟨_, _, h3 a ha hn, h4 a ha hn⟩, ?_, h8⟩
        rw [← (after_zero.1 h6).2]; exact h7
      · exact absurd h6 no
      · exact absurd (h3 _ h hn) no
    | unnamedNowhere q e h1 h2 h3 h4 h5 h6 =>
      obtain rfl := resolves_unique hr h1
      rw [hm] at h2
      injection h2 with h2
      rcases split_before h2.symm with ⟨mid, h⟩ | ⟨rfl, rfl⟩ | h
      · have hb' := hpre _ (by rw [h]; simp) h5
        cases h6 with
        | bitfield h6 => exact absurd h6 hb'
        | tooLarge _ h6 => exact absurd (after_zero.2 ⟨hb', rfl⟩) (h6 _)
      · cases h6 with
        | bitfield h6 => exact .inr ⟨fun a ha hn => ⟨_, _, h3 a ha hn, h4 a ha hn⟩, rfl⟩
        | tooLarge h6 _ => exact absurd hb h6
      · exact absurd (h3 _ h hn) no
    | named q e h1 h2 h3 =>
      obtain rfl := resolves_unique hr h1
      rw [hm] at h2; injection h2 with h2
      exact absurd (h3 m (by rw [← h2]; simp) hn) no
    | namedNowhere q e h1 h2 h3 =>
      obtain rfl := resolves_unique hr h1
      rw [hm] at h2; injection h2 with h2
      exact absurd (h3 m (by rw [← h2]; simp) hn) no
    | notFound q e h1 h2 h3 =>
      obtain rfl := resolves_unique hr h1
      rw [hm] at h2; injection h2 with h2
      exact absurd (h3 m (by rw [← h2]; simp) hn) no
  · rintro (⟨pre', a, mid, rfl, h1, h2, h3, h4⟩ | ⟨h1, rfl⟩)
    · obtain ⟨q, e, hq, he⟩ := failsIn_choose h2
      have ha := hpre a (by simp) h1
      classical
      refine .unnamed (pre := pre') (m := a) (post := mid ++ m :: post) (fun x => if x = a then a.offset else q x) e hr
        (by rw [hm]; simp) (fun b hb' hn' => ?_) (fun b hb' hn' => ?_) h1 (by rw [if_pos rfl]; exact after_zero.2 ⟨ha, rfl⟩)
        (by rw [if_pos rfl]; exact h3) h4
      · split
        · rename_i h; subst h; exact after_zero.2 ⟨ha, rfl⟩
        · exact hq b hb' hn'
      · split
        · rename_i h; subst h
          have := (after_zero.1 (hq b hb' hn')).2
          rw [← this]; exact he b hb' hn'
        · exact he b hb' hn'
    · obtain ⟨q, e, hq, he⟩ := failsIn_choose h1
      exact .unnamedNowhere q e hr hm hq he hn (.bitfield hb)

/-- **C41**, the part that holds: unnamed bitfields do not hide what is inside of unnamed members before them. -/
theorem unnamed_bitfield_partial (cfg : Cfg) (ti : TypeInformation) (t u : UInt32) (v : TypeVariant) (s : String) (name : Str)
    (cs : List PathComponent) (pre post : List Member) (a : Member) (o : Offset)
    (hp : AcceptedPath cfg.usizeMod (str s) (.name name :: cs)) (hr : Resolves ti t v)
    (hm : membersOf v = some (pre ++ a :: post)) (hn : a.name = none) (ha : ¬ IsBitfield a.offset)
    (hpre : FailsIn cfg ti true (.byteOffset 0) (.name name :: cs) pre)
    (h : Search cfg ti true a.tid a.offset (.name name :: cs) (.ok (u, o))) :
    OffsetOf cfg ti t (str s) (.ok (u, o)) := by
  rw [offset_of_search cfg ti t s _ hp]
  obtain ⟨q, e, hq, he⟩ := failsIn_choose hpre
  classical
  refine .unnamed (pre := pre) (m := a) (post := post) (fun x => if x = a then a.offset else q x) e hr hm (fun b hb' hn' => ?_)
    (fun b hb' hn' => ?_) hn (by rw [if_pos rfl]; exact after_zero.2 ⟨ha, rfl⟩) (by rw [if_pos rfl]; exact h) (by simp)
  · split
    · rename_i h; subst h; exact after_zero.2 ⟨ha, rfl⟩
    · exact hq b hb' hn'
  · split
    · rename_i h; subst h
      have := (after_zero.1 (hq b hb' hn')).2
      rw [← this]; exact he b hb' hn'
    · exact he b hb' hn'

/-! ### Cases that meet the hypotheses: `struct h { struct { int a; }; int :8; int b; }` -/

section Examples

open Samples

def hiddenFile : List UInt8 :=
  leFile [0x1, 0x1000000, 0x4, 0x20, 0x0, 0x4000001, 0x4, 0x5, 0x1, 0x0,
    0x9, 0x84000003, 0xc, 0x0, 0x2, 0x0, 0x0, 0x1, 0x8000020, 0x7, 0x1, 0x40]
    [0, 105, 110, 116, 0, 97, 0, 98, 0, 104, 0]

def hidden : TypeInformation where
  idToType := ⟨[
    (1, .int ⟨.Int, 1, 0, false, 4⟩ ⟨some (str "int"), 4, false, false, false, 0, 32⟩),
    (2, .struct ⟨.Struct, 0, 1, false, 4⟩ ⟨none, 4, [⟨5, some (str "a"), 1, .byteOffset 0⟩]⟩),
    (3, .struct ⟨.Struct, 9, 3, true, 12⟩ ⟨some (str "h"), 12,
      [⟨0, none, 2, .byteOffset 0⟩, ⟨0, none, 1, .bitOffsetAndSize 32 8⟩, ⟨7, some (str "b"), 1, .byteOffset 8⟩]⟩)]⟩
  nameToId := ⟨[(str "h", 3), (str "int", 1)]⟩
  idToName := ⟨[(1, str "int"), (3, str "h")]⟩

theorem hidden_parsed : TypeInformation.new dbg (buffer hiddenFile) = .ok hidden := by decide +kernel

theorem hidden_3 : Resolves hidden 3 (.struct ⟨.Struct, 9, 3, true, 12⟩ ⟨some (str "h"), 12,
      [⟨0, none, 2, .byteOffset 0⟩, ⟨0, none, 1, .bitOffsetAndSize 32 8⟩, ⟨7, some (str "b"), 1, .byteOffset 8⟩]⟩) :=
  ⟨3, .refl, by decide +kernel, rfl⟩

theorem hidden_2 : Resolves hidden 2 (.struct ⟨.Struct, 0, 1, false, 4⟩ ⟨none, 4, [⟨5, some (str "a"), 1, .byteOffset 0⟩]⟩) :=
  ⟨2, .refl, by decide +kernel, rfl⟩

/-- `a` is inside of an unnamed member before the bitfield: it is found. -/
example : OffsetOf dbg hidden 3 (str "a") (.ok (1, .byteOffset 0)) :=
  (unnamed_bitfield_exact dbg hidden 3 _ "a" (str "a") [] [⟨0, none, 2, .byteOffset 0⟩] [⟨7, some (str "b"), 1, .byteOffset 8⟩]
    ⟨0, none, 1, .bitOffsetAndSize 32 8⟩ ((yields_iff dbg (utf8Like_str _) _).1 (.tok rfl (.stop rfl))) hidden_3 rfl rfl
    (by simp [IsBitfield, bitWidth]) (by simp [IsBitfield, bitWidth]) _).2
    (.inl ⟨[], ⟨0, none, 2, .byteOffset 0⟩, [], rfl, rfl, by simp [FailsIn],
      .named (pre := []) (m := ⟨5, some (str "a"), 1, .byteOffset 0⟩) (post := []) (fun _ => .byteOffset 0) (fun _ => .InvalidTypePath)
        hidden_2 rfl (by simp) (by simp) rfl (by simp) (after_zero.2 ⟨by simp [IsBitfield, bitWidth], rfl⟩) (.done rfl), by simp⟩)

/-- The same from `unnamed_bitfield_partial`. -/
example : OffsetOf dbg hidden 3 (str "a") (.ok (1, .byteOffset 0)) :=
  unnamed_bitfield_partial dbg hidden 3 1 _ "a" (str "a") [] [] _ ⟨0, none, 2, .byteOffset 0⟩ (.byteOffset 0)
    ((yields_iff dbg (utf8Like_str _) _).1 (.tok rfl (.stop rfl))) hidden_3 rfl rfl
    (by simp [IsBitfield, bitWidth]) (by simp [FailsIn])
    (.named (pre := []) (m := ⟨5, some (str "a"), 1, .byteOffset 0⟩) (post := []) (fun _ => .byteOffset 0) (fun _ => .InvalidTypePath)
        hidden_2 rfl (by simp) (by simp) rfl (by simp) (after_zero.2 ⟨by simp [IsBitfield, bitWidth], rfl⟩) (.done rfl))

/-- `b` is a member after the bitfield: it is not found. -/
example : OffsetOf dbg hidden 3 (str "b") (.err .UnexpectedBitfield) :=
  (unnamed_bitfield_exact dbg hidden 3 _ "b" (str "b") [] [⟨0, none, 2, .byteOffset 0⟩] [⟨7, some (str "b"), 1, .byteOffset 8⟩]
    ⟨0, none, 1, .bitOffsetAndSize 32 8⟩ ((yields_iff dbg (utf8Like_str _) _).1 (.tok rfl (.stop rfl))) hidden_3 rfl rfl
    (by simp [IsBitfield, bitWidth]) (by simp [IsBitfield, bitWidth]) _).2
    (.inr ⟨by
      intro a ha _
      obtain rfl := List.mem_singleton.1 ha
      exact ⟨.byteOffset 0, .InvalidTypePath, after_zero.2 ⟨by simp [IsBitfield, bitWidth], rfl⟩,
        .notFound (fun _ => .byteOffset 0) (fun _ => .InvalidTypePath) hidden_2 rfl (by simp) (by simp) (by decide +kernel)⟩, rfl⟩)

end Examples

end Btf.Props

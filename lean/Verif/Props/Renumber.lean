import Verif.Proofs.Renumber
import Verif.Props.OffsetOf

/-!
# Properties C69, C70: renumbering and locality
-/

namespace Btf.Props

open Btf Spec TypeInformation

variable {f : UInt32 → UInt32} {S : UInt32 → Prop} {ti ti' : TypeInformation}

/-- C69: `size_of` does not depend on how types are numbered, nor on whether equal types are merged. -/
theorem size_of_renumber (h : Renumbers f S ti ti') (cfg : Cfg) (t : UInt32) (hs : S t) (o : Outcome Nat) :
    SizeOf cfg ti t o ↔ SizeOf cfg ti' (f t) o := by
  have he : (fun k => TypeInformation.sizeOf cfg ti' k (f t)) = fun k => TypeInformation.sizeOf cfg ti k t :=
    funext fun k => h.sizeOf cfg k t hs
  rw [SizeOf, SizeOf, he]

/-- C69: `pointee_tid`, up to the numbers. -/
theorem pointee_tid_renumber (h : Renumbers f S ti ti') (t : UInt32) (hs : S t) :
    (∀ u, Returns (fun k => pointeeTid ti k t) (.ok u) → Returns (fun k => pointeeTid ti' k (f t)) (.ok (f u))) ∧
    (∀ u', Returns (fun k => pointeeTid ti' k (f t)) (.ok u') →
      ∃ u, u' = f u ∧ Returns (fun k => pointeeTid ti k t) (.ok u)) ∧
    (∀ e, Returns (fun k => pointeeTid ti k t) (.err e) ↔ Returns (fun k => pointeeTid ti' k (f t)) (.err e)) := by
  have he := fun k => h.pointeeTid k t hs
  refine ⟨?_, ?_, ?_⟩
  · rintro u ⟨-, k, hk⟩
    exact ⟨by simp, k, by simp only [he, hk]; rfl⟩
  · rintro u' ⟨-, k, hk⟩
    simp only [he] at hk
    cases hx : pointeeTid ti k t with
    | ok u => rw [hx] at hk; cases hk; exact ⟨u, rfl, by simp, k, hx⟩
    | err e => rw [hx] at hk; cases hk
    | panic => rw [hx] at hk; cases hk
    | nofuel => rw [hx] at hk; cases hk
  · intro e
    constructor
    · rintro ⟨-, k, hk⟩
      exact ⟨by simp, k, by simp only [he, hk]; rfl⟩
    · rintro ⟨-, k, hk⟩
      simp only [he] at hk
      cases hx : pointeeTid ti k t with
      | ok u => rw [hx] at hk; cases hk
      | err e' => rw [hx] at hk; cases hk; exact ⟨by simp, k, hx⟩
      | panic => rw [hx] at hk; cases hk
      | nofuel => rw [hx] at hk; cases hk

theorem renameAnswer_nofuel {o : Outcome (UInt32 × Offset)} : renameAnswer f o = .nofuel ↔ o = .nofuel := by
  cases o <;> simp [renameAnswer]

/-- C69: `offset_of`: every answer about `t` is, with the ids renamed, the answer about `f t`; errors and
panics are the same; and there are no other answers. -/
theorem offset_of_renumber (h : Renumbers f S ti ti') (cfg : Cfg) (t : UInt32) (hs : S t) (s : String) :
    (∀ o, OffsetOf cfg ti t (str s) o → OffsetOf cfg ti' (f t) (str s) (renameAnswer f o)) ∧
    (∀ o', OffsetOf cfg ti' (f t) (str s) o' → ∃ o, o' = renameAnswer f o ∧ OffsetOf cfg ti t (str s) o) := by
  have he : ∀ k, offsetOf cfg ti' k (f t) (str s) = renameAnswer f (offsetOf cfg ti k t (str s)) := by
    obtain ⟨cs, b, hy, h1⟩ := offsetOf_eq cfg ti t (utf8Like_str s)
    obtain ⟨cs', b', hy', h2⟩ := offsetOf_eq cfg ti' (f t) (utf8Like_str s)
    obtain ⟨rfl, rfl⟩ := yields_det hy hy'
    intro k
    rw [h1, h2]
    exact h.impl cfg b k _ t cs hs
  constructor
  · rintro o ⟨hne, k, hk⟩
    exact ⟨by rw [ne_eq, renameAnswer_nofuel]; exact hne, k, (he k).trans (congrArg _ hk)⟩
  · rintro o' ⟨hne, k, hk⟩
    simp only [he] at hk
    refine ⟨_, hk.symm, ?_, k, rfl⟩
    intro hn
    rw [hn] at hk
    exact hne hk.symm

/-- C69: it also runs for ever in the same cases. -/
theorem offset_of_renumber_diverges (h : Renumbers f S ti ti') (cfg : Cfg) (t : UInt32) (hs : S t) (s : String) :
    Diverges (fun k => offsetOf cfg ti k t (str s)) ↔ Diverges (fun k => offsetOf cfg ti' k (f t) (str s)) := by
  obtain ⟨h1, h2⟩ := offset_of_renumber h cfg t hs s
  constructor
  · intro hd k
    by_contra hne
    obtain ⟨o, -, hne', n, hn⟩ := h2 _ ⟨hne, k, rfl⟩
    exact hne' (hn ▸ hd n)
  · intro hd k
    by_contra hne
    obtain ⟨hne', n, hn⟩ := h1 _ ⟨hne, k, rfl⟩
    exact hne' (hn ▸ hd n)

/-! ### Locality -/

theorem renamedMembers_id (ms : List Member) : RenamedMembers id ms ms := by
  induction ms with
  | nil => exact .nil
  | cons m ms ih => exact .cons rfl rfl rfl ih

theorem renamed_id (v : TypeVariant) : Renamed id v v := by
  cases v <;> constructor <;> first | rfl | exact renamedMembers_id _

theorem renumbers_local {t : UInt32} (h : ∀ u, InvolvedIn ti t u → ti'.fromId u = ti.fromId u)
    (hp : ∀ u v, InvolvedIn ti t u → ti.fromId u = some v → IsPtr v → ∀ n, PointerSize ti n ↔ PointerSize ti' n) : Renumbers id (InvolvedIn ti t) ti ti' where
  present := fun u v hu hv => ⟨v, by rw [id_eq, h u hu, hv], renamed_id v⟩
  missing := fun u hu hv => by rw [id_eq, h u hu, hv]
  closed := fun u v w hu hv hi => .step hu hv hi
  pointers := hp

/-- C70: `size_of(t)` and `offset_of(t, path)` depend only on the types an object of type `t` involves (not on
what pointers in it point to, nor on any other type) and, if they include pointers, on the size of pointers. -/
theorem offset_of_local (cfg : Cfg) (t : UInt32) (h : ∀ u, InvolvedIn ti t u → ti'.fromId u = ti.fromId u)
    (hp : ∀ u v, InvolvedIn ti t u → ti.fromId u = some v → IsPtr v → ∀ n, PointerSize ti n ↔ PointerSize ti' n) (s : String) (o : Outcome (UInt32 × Offset)) :
    OffsetOf cfg ti t (str s) o ↔ OffsetOf cfg ti' t (str s) o := by
  have hid : ∀ o : Outcome (UInt32 × Offset), renameAnswer id o = o := by rintro (_ | _ | _ | _) <;> rfl
  obtain ⟨h1, h2⟩ := offset_of_renumber (renumbers_local h hp) cfg t .self s
  constructor
  · intro ho; have := h1 o ho; rwa [hid] at this
  · intro ho
    obtain ⟨o', rfl, ho'⟩ := h2 o ho
    rwa [hid]

theorem size_of_local (cfg : Cfg) (t : UInt32) (h : ∀ u, InvolvedIn ti t u → ti'.fromId u = ti.fromId u)
    (hp : ∀ u v, InvolvedIn ti t u → ti.fromId u = some v → IsPtr v → ∀ n, PointerSize ti n ↔ PointerSize ti' n) (o : Outcome Nat) :
    SizeOf cfg ti t o ↔ SizeOf cfg ti' t o :=
  size_of_renumber (renumbers_local h hp) cfg t .self o

/-! ### Examples -/

/-- Two equal integer types and a struct that uses both; and the same with the integer types merged. -/
def twice : TypeInformation where
  idToType := ⟨[
    (1, .int ⟨.Int, 1, 0, false, 4⟩ ⟨some (str "int"), 4, true, false, false, 0, 32⟩),
    (2, .int ⟨.Int, 1, 0, false, 4⟩ ⟨some (str "int"), 4, true, false, false, 0, 32⟩),
    (3, .struct ⟨.Struct, 5, 2, false, 8⟩ ⟨some (str "s"), 8,
      [⟨7, some (str "a"), 1, .byteOffset 0⟩, ⟨9, some (str "b"), 2, .byteOffset 4⟩]⟩)]⟩
  nameToId := ⟨[(str "int", 2), (str "s", 3)]⟩
  idToName := ⟨[(1, str "int"), (2, str "int"), (3, str "s")]⟩

def once : TypeInformation where
  idToType := ⟨[
    (1, .struct ⟨.Struct, 5, 2, false, 8⟩ ⟨some (str "s"), 8,
      [⟨7, some (str "a"), 2, .byteOffset 0⟩, ⟨9, some (str "b"), 2, .byteOffset 4⟩]⟩),
    (2, .int ⟨.Int, 1, 0, false, 4⟩ ⟨some (str "int"), 4, true, false, false, 0, 32⟩)]⟩
  nameToId := ⟨[(str "int", 2), (str "s", 1)]⟩
  idToName := ⟨[(1, str "s"), (2, str "int")]⟩

def merge (t : UInt32) : UInt32 := if t = 3 then 1 else 2

theorem twice_once : Renumbers merge (fun t => t = 1 ∨ t = 2 ∨ t = 3) twice once where
  present := by
    rintro t v (rfl | rfl | rfl) hv <;> cases hv
    · exact ⟨_, rfl, .int rfl⟩
    · exact ⟨_, rfl, .int rfl⟩
    · exact ⟨_, rfl, .struct rfl (.cons rfl rfl rfl (.cons rfl rfl rfl .nil))⟩
  missing := by rintro t (rfl | rfl | rfl) hv <;> cases hv
  closed := by
    rintro t v u (rfl | rfl | rfl) hv (hi | hi | ⟨ms, m, hm, hmem, rfl⟩) <;> cases hv <;>
      first | cases hi | cases hm
    simp at hmem
    rcases hmem with rfl | rfl <;> simp
  pointers := by
    intro _ _ _ _ _ n
    have e1 : twice.idOf (str "list_head") = none := by decide +kernel
    have e2 : once.idOf (str "list_head") = none := by decide +kernel
    constructor <;> rintro ⟨l, h, d, h1, -⟩
    · rw [e1] at h1; cases h1
    · rw [e2] at h1; cases h1

/-- The member `b` of the struct: type 2 at byte 4 in the first file; merged, the struct has id 1. -/
example : OffsetOf Samples.dbg twice 3 (str "b") (.ok (2, .byteOffset 4)) ∧
    OffsetOf Samples.dbg once 1 (str "b") (.ok (2, .byteOffset 4)) :=
  ⟨⟨by simp, 5, by decide +kernel⟩,
    (offset_of_renumber twice_once Samples.dbg 3 (.inr (.inr rfl)) "b").1
      (.ok (2, .byteOffset 4)) ⟨by simp, 5, by decide +kernel⟩⟩

/-- Type 1 of `twice` involves only itself, so it can be compared with type 2 of `once` and not with more. -/
example : InvolvedIn twice 3 2 := .step .self (v := (twice.fromId 3).get rfl) rfl
  (.inr (.inr ⟨_, ⟨9, some (str "b"), 2, .byteOffset 4⟩, rfl, by simp, rfl⟩))

end Btf.Props

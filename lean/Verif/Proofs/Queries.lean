import Verif.Proofs.Follow

/-!
# `size_of`, `pointee_tid` and the alias loop of `offset_of` as instances of `Follows`
-/

namespace Btf

open Spec TypeInformation

def sizePost (cfg : Cfg) : TypeVariant → Nat → Outcome Nat
  | .array _ d, n => cfg.usizeMul n d.elementCount.toNat
  | _, n => .ok n

def sizeLeaf (ti : TypeInformation) : Option TypeVariant → UInt32 → Outcome Nat
  | none, _ => .err .InvalidTypeID
  | some v, _ =>
    match ownSize v with
    | some n => .ok n
    | none => if v matches .ptr _ _ then ti.pointerSize else .err .NotSized

theorem sizeOf_follows (cfg : Cfg) (ti : TypeInformation) :
    Follows ti sizeRef (sizePost cfg) (sizeLeaf ti) (TypeInformation.sizeOf cfg ti) where
  zero _ := rfl
  next n t v u hv hu := by
    rw [TypeInformation.sizeOf, hv]
    cases v <;> simp only [sizeRef, sizeAlias, Option.some.injEq, reduceCtorEq] at hu <;> subst hu
    all_goals first
      | rfl
      | (simp only []; cases TypeInformation.sizeOf cfg ti n _ <;> rfl)
  last n t h := by
    rw [TypeInformation.sizeOf]
    cases hv : ti.fromId t with
    | none => rfl
    | some v =>
      have := h v hv
      cases v <;> simp only [sizeRef, sizeAlias, reduceCtorEq] at this <;> rfl

def pointeeLeaf : Option TypeVariant → UInt32 → Outcome UInt32
  | some (.ptr _ d), _ => .ok d.tid
  | _, _ => .err .InvalidTypeID

theorem pointeeTid_follows (ti : TypeInformation) :
    Follows ti aliasOf (fun _ a => .ok a) pointeeLeaf (pointeeTid ti) where
  zero _ := rfl
  next n t v u hv hu := by
    rw [TypeInformation.pointeeTid, hv]
    cases v <;> simp only [aliasOf, Option.some.injEq, reduceCtorEq] at hu <;> subst hu
    all_goals (simp only []; cases pointeeTid ti n _ <;> rfl)
  last n t h := by
    rw [TypeInformation.pointeeTid]
    cases hv : ti.fromId t with
    | none => rfl
    | some v =>
      have := h v hv
      cases v <;> simp only [aliasOf, reduceCtorEq] at this <;> rfl

def resolveLeaf : Option TypeVariant → UInt32 → Outcome TypeVariant
  | some v, _ => .ok v
  | none, _ => .err .InvalidTypeID

theorem resolve_follows (ti : TypeInformation) :
    Follows ti accessAlias (fun _ a => .ok a) resolveLeaf (resolve ti) where
  zero _ := rfl
  next n t v u hv hu := by
    rw [TypeInformation.resolve, hv]
    cases v <;> simp only [accessAlias, aliasOf, Option.some.injEq, reduceCtorEq] at hu <;> subst hu
    all_goals (simp only []; cases resolve ti n _ <;> rfl)
  last n t h := by
    rw [TypeInformation.resolve]
    cases hv : ti.fromId t with
    | none => rfl
    | some v =>
      have := h v hv
      cases v <;> simp only [accessAlias, aliasOf, reduceCtorEq] at this <;> rfl

theorem pointerSize_eq (ti : TypeInformation) :
    (∃ n, ti.pointerSize = .ok n ∧ PointerSize ti n) ∨
      (ti.pointerSize = .err .InvalidTypeID ∧ ¬ ∃ n, PointerSize ti n) := by
  unfold pointerSize PointerSize
  cases h : ti.idOf (str "list_head") with
  | none => right; exact ⟨rfl, by rintro ⟨n, t, _, _, h', -⟩; cases h'⟩
  | some l =>
    cases h2 : ti.fromId l with
    | none =>
      right
      refine ⟨by simp [okOr, Bind.bind, Res.bind, h2], ?_⟩
      rintro ⟨n, t, _, _, h', h3, -⟩; cases h'; rw [h2] at h3; cases h3
    | some v =>
      simp only [okOr, Bind.bind, Res.bind, h2]
      cases v
      case struct hd d => left; exact ⟨_, rfl, l, hd, d, rfl, h2, rfl⟩
      all_goals
        right
        refine ⟨rfl, ?_⟩
        rintro ⟨n, t, _, _, h', h3, -⟩
        cases h'; rw [h2] at h3; cases h3

theorem pointerSize_unique {ti : TypeInformation} {n m : Nat} (h : PointerSize ti n) (h' : PointerSize ti m) :
    n = m := by
  obtain ⟨t, hd, d, h1, h2, rfl⟩ := h
  obtain ⟨t', hd', d', h1', h2', rfl⟩ := h'
  rw [h1] at h1'; cases h1'
  rw [h2] at h2'; cases h2'
  rfl

theorem sizeLeaf_ne_nofuel (ti : TypeInformation) (o t) : sizeLeaf ti o t ≠ .nofuel := by
  unfold sizeLeaf
  split
  · simp
  · split
    · simp
    · split
      · rcases pointerSize_eq ti with ⟨n, h, -⟩ | ⟨h, -⟩ <;> rw [h] <;> simp
      · simp

theorem wrapOr_ne_nofuel {ε : Type} (cfg : Cfg) (m v : Nat) : (cfg.wrapOr m v : Res ε Nat) ≠ .nofuel := by
  unfold Cfg.wrapOr; split
  · simp
  · split <;> simp

theorem sizePost_ne_nofuel (cfg : Cfg) (v : TypeVariant) (a : Nat) : sizePost cfg v a ≠ .nofuel := by
  cases v
  case array => exact wrapOr_ne_nofuel _ _ _
  all_goals simp [sizePost]

theorem pointeeLeaf_ne_nofuel (o t) : pointeeLeaf o t ≠ .nofuel := by
  unfold pointeeLeaf; split <;> simp

theorem resolveLeaf_ne_nofuel (o t) : resolveLeaf o t ≠ .nofuel := by
  unfold resolveLeaf; split <;> simp

theorem sizeOf_mono (cfg : Cfg) (ti : TypeInformation) (t : UInt32) :
    FuelMono (fun n => TypeInformation.sizeOf cfg ti n t) := (sizeOf_follows cfg ti).mono t
theorem pointeeTid_mono (ti : TypeInformation) (t : UInt32) :
    FuelMono (fun n => pointeeTid ti n t) := (pointeeTid_follows ti).mono t
theorem resolve_mono (ti : TypeInformation) (t : UInt32) :
    FuelMono (fun n => resolve ti n t) := (resolve_follows ti).mono t

/-- Leaves of the size recursion. -/
theorem sizeLeaf_ok {ti : TypeInformation} {t : UInt32} {n : Nat} :
    sizeLeaf ti (ti.fromId t) t = .ok n ↔
      ∃ v, ti.fromId t = some v ∧ (ownSize v = some n ∨ (IsPtr v ∧ PointerSize ti n)) := by
  unfold sizeLeaf
  cases hv : ti.fromId t with
  | none => simp
  | some v =>
    simp only [Option.some.injEq, exists_eq_left']
    cases v <;> simp only [ownSize, IsPtr, Option.some.injEq, Res.ok.injEq, reduceCtorEq, false_and,
      true_and, false_or, or_false, if_false, if_true, Bool.false_eq_true]
    rcases pointerSize_eq ti with ⟨m, h, h'⟩ | ⟨h, h'⟩
    · rw [h]; simp only [Res.ok.injEq]
      constructor
      · rintro rfl; exact h'
      · intro h2; exact pointerSize_unique h' h2
    · rw [h]; simp only [reduceCtorEq, false_iff]; exact fun h2 => h' ⟨_, h2⟩

theorem sizeLeaf_err {ti : TypeInformation} {t : UInt32} {e : ErrorKind}
    (hend : ∀ v, ti.fromId t = some v → sizeRef v = none) :
    sizeLeaf ti (ti.fromId t) t = .err e ↔
      (e = .InvalidTypeID ∧ (ti.fromId t = none ∨
        ∃ v, ti.fromId t = some v ∧ IsPtr v ∧ ¬ ∃ n, PointerSize ti n)) ∨
      (e = .NotSized ∧ ∃ v, ti.fromId t = some v ∧ Unsized v) := by
  unfold sizeLeaf
  cases hv : ti.fromId t with
  | none => simp; exact eq_comm
  | some v =>
    have := hend v hv
    simp only [Option.some.injEq, exists_eq_left', reduceCtorEq, false_or]
    cases v <;> simp only [sizeRef, sizeAlias, reduceCtorEq] at this <;>
      simp only [ownSize, IsPtr, Unsized, Res.err.injEq, reduceCtorEq, false_and,
      true_and, false_or, or_false, and_false, and_true, if_false, if_true, Bool.false_eq_true]
    case ptr =>
      rcases pointerSize_eq ti with ⟨m, h, h'⟩ | ⟨h, h'⟩
      · rw [h]; simp only [reduceCtorEq, false_iff]; rintro ⟨-, h2⟩; exact h2 ⟨m, h'⟩
      · rw [h]; simp only [Res.err.injEq, h', not_false_iff, and_true]; exact eq_comm
    all_goals exact eq_comm

end Btf

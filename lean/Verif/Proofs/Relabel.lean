import Verif.Spec.Relabel
import Verif.Proofs.OffsetApi

/-!
# Giving members other names
-/

namespace Btf

open Spec TypeInformation Props

variable {N : Str → Str → Prop} {ti ti' : TypeInformation}

theorem Spec.Relabels.pointerSize (h : Relabels N ti ti') {t : UInt32} {v : TypeVariant}
    (hv : ti.fromId t = some v) (hp : IsPtr v) : ti'.pointerSize = ti.pointerSize := by
  rcases pointerSize_eq ti with ⟨n, h1, h2⟩ | ⟨h1, h2⟩ <;>
    rcases pointerSize_eq ti' with ⟨m, h3, h4⟩ | ⟨h3, h4⟩
  · rw [h1, h3, pointerSize_unique ((h.pointers t v hv hp n).1 h2) h4]
  · exact absurd ⟨n, (h.pointers t v hv hp n).1 h2⟩ h4
  · exact absurd ⟨m, (h.pointers t v hv hp m).2 h4⟩ h2
  · rw [h1, h3]

theorem Spec.Relabels.resolve (h : Relabels N ti ti') (k : Nat) : ∀ t,
    (∃ v v', resolve ti k t = .ok v ∧ resolve ti' k t = .ok v' ∧ Relabelled N v v') ∨
    (∃ e, resolve ti k t = .err e ∧ resolve ti' k t = .err e) ∨
    (resolve ti k t = .nofuel ∧ resolve ti' k t = .nofuel) := by
  induction k with
  | zero => intro t; exact .inr (.inr ⟨rfl, rfl⟩)
  | succ k ih =>
    intro t
    cases hv : ti.fromId t with
    | none =>
      right; left
      refine ⟨ErrorKind.InvalidTypeID, ?_, ?_⟩
      · rw [TypeInformation.resolve, hv]; rfl
      · rw [TypeInformation.resolve, h.missing t hv]; rfl
    | some v =>
      obtain ⟨v', hv', hr⟩ := h.present t v hv
      simp only [TypeInformation.resolve, hv, hv']
      cases hr with
      | same hm =>
        cases v <;> first | exact ih _ | exact .inl ⟨_, _, rfl, rfl, .same hm⟩
      | struct h1 h2 => exact .inl ⟨_, _, rfl, rfl, .struct h1 h2⟩
      | union h1 h2 => exact .inl ⟨_, _, rfl, rfl, .union h1 h2⟩

theorem Spec.Relabels.sizeOf (h : Relabels N ti ti') (cfg : Cfg) (k : Nat) : ∀ t,
    TypeInformation.sizeOf cfg ti' k t = TypeInformation.sizeOf cfg ti k t := by
  induction k with
  | zero => intro t; rfl
  | succ k ih =>
    intro t
    cases hv : ti.fromId t with
    | none => simp only [TypeInformation.sizeOf, hv, h.missing t hv]
    | some v =>
      obtain ⟨v', hv', hr⟩ := h.present t v hv
      simp only [TypeInformation.sizeOf, hv, hv']
      cases hr with
      | same hm =>
        cases v
        case ptr => exact h.pointerSize hv trivial
        all_goals simp_all
      | struct h1 h2 => simp_all
      | union h1 h2 => simp_all

theorem Spec.Relabels.pointeeTid (h : Relabels N ti ti') (k : Nat) : ∀ t,
    TypeInformation.pointeeTid ti' k t = TypeInformation.pointeeTid ti k t := by
  induction k with
  | zero => intro t; rfl
  | succ k ih =>
    intro t
    cases hv : ti.fromId t with
    | none => simp only [TypeInformation.pointeeTid, hv, h.missing t hv]
    | some v =>
      obtain ⟨v', hv', hr⟩ := h.present t v hv
      simp only [TypeInformation.pointeeTid, hv, hv']
      cases hr with
      | same hm => cases v <;> first | rfl | exact ih _
      | struct h1 h2 => rfl
      | union h1 h2 => rfl

theorem Spec.Relabelled.members {v v' : TypeVariant} (h : Relabelled N v v') :
    (memberListOf v = none ∧ memberListOf v' = none) ∨
    ∃ ms ms', memberListOf v = some ms ∧ memberListOf v' = some ms' ∧ List.Forall₂ (SameMember N) ms ms' := by
  cases h with
  | same h => exact .inl ⟨by rw [memberListOf_eq, h], by rw [memberListOf_eq, h]⟩
  | struct _ h => exact .inr ⟨_, _, rfl, rfl, h⟩
  | union _ h => exact .inr ⟨_, _, rfl, rfl, h⟩

theorem Spec.Relabelled.void_iff {v v' : TypeVariant} (h : Relabelled N v v') : v' = .void ↔ v = .void := by
  cases h <;> simp

theorem sameMembers_filter {ms ms' : List Member} (h : List.Forall₂ (SameMember N) ms ms') :
    List.Forall₂ (SameMember N) (ms.filter (fun m => m.name.isNone)) (ms'.filter (fun m => m.name.isNone)) := by
  induction h with
  | nil => exact .nil
  | @cons m m' ms ms' hm _ ih =>
    have : m'.name.isNone = m.name.isNone := by
      have := hm.name
      revert this
      generalize m.name = a
      generalize m'.name = b
      rintro (_ | _) <;> rfl
    simp only [List.filter_cons, this]
    split
    · exact .cons hm ih
    · exact ih

theorem sameMembers_find {ms ms' : List Member} (h : List.Forall₂ (SameMember N) ms ms') {n n' : Str} (hn : Finds N n n') :
    (ms.find? (fun m => m.name = some n) = none ∧ ms'.find? (fun m => m.name = some n') = none) ∨
    ∃ m m', ms.find? (fun m => m.name = some n) = some m ∧ ms'.find? (fun m => m.name = some n') = some m' ∧
      m'.tid = m.tid ∧ m'.offset = m.offset := by
  induction h with
  | nil => exact .inl ⟨rfl, rfl⟩
  | @cons m m' ms ms' hm _ ih =>
    have hiff : m.name = some n ↔ m'.name = some n' := by
      have := hm.name
      revert this
      generalize m.name = a
      generalize m'.name = b
      intro this
      cases this with
      | unnamed => simp
      | named h => simpa using hn _ _ h
    by_cases hm' : m.name = some n
    · refine .inr ⟨m, m', ?_, ?_, hm.type, hm.offset⟩
      · rw [List.find?_cons_of_pos (by simpa using hm')]
      · rw [List.find?_cons_of_pos (by simpa using hiff.1 hm')]
    · rw [List.find?_cons_of_neg (by simpa using hm'), List.find?_cons_of_neg (by simpa using fun x => hm' (hiff.2 x))]
      exact ih

theorem probe_relabelled {p q : Offset → UInt32 → Outcome (UInt32 × Offset)} (o : Offset) {ms ms' : List Member}
    (h : List.Forall₂ (SameMember N) ms ms') (hpq : ∀ o t, q o t = p o t) :
    probeAnonymous q o ms' = probeAnonymous p o ms := by
  induction h with
  | nil => rfl
  | @cons m m' ms ms' hm _ ih => simp only [probeAnonymous, hm.offset, hm.type, hpq, ih]

theorem Spec.Relabels.stepIndex (h : Relabels N ti ti') (cfg : Cfg) (k : Nat) (o : Offset) {v v' : TypeVariant}
    (hr : Relabelled N v v') (i : Nat) : stepIndex cfg ti' k o v' i = stepIndex cfg ti k o v i := by
  cases hr with
  | same hm => cases v <;> simp only [TypeInformation.stepIndex, h.sizeOf]
  | struct => rfl
  | union => rfl

theorem Spec.Relabels.impl (h : Relabels N ti ti') (cfg : Cfg) (b : Bool) (k : Nat) : ∀ o t cs cs',
    List.Forall₂ (SameStep N) cs cs' → impl cfg ti' b k o t cs' = impl cfg ti b k o t cs := by
  induction k with
  | zero => intro o t cs cs' _; rfl
  | succ k ih =>
    intro o t cs cs' hcs
    have hcs0 := hcs
    cases hcs with
    | nil => rfl
    | @cons c c' cs cs' hc hcs =>
      simp only [Btf.impl]
      rcases h.resolve k t with ⟨v, v', h1, h2, hr⟩ | ⟨e, h1, h2⟩ | ⟨h1, h2⟩
      · rw [h1, h2]
        simp only [Res.bind, hr.void_iff]
        split
        · rfl
        · cases hc with
          | index =>
            dsimp only
            rw [h.stepIndex cfg k o hr]
            cases TypeInformation.stepIndex cfg ti k o v _ with
            | ok r => exact ih _ _ _ _ hcs
            | err e => rfl
            | panic => rfl
            | nofuel => rfl
          | @name n n' hn =>
            dsimp only
            rcases hr.members with ⟨hm, hm'⟩ | ⟨ms, ms', hm, hm', hms⟩
            · rw [hm, hm']
            · rw [hm, hm']
              dsimp only
              rw [probe_relabelled (p := fun o u => Btf.impl cfg ti b k o u (.name n :: cs)) o (sameMembers_filter hms)
                (fun o u => ih o u _ _ hcs0)]
              cases probeAnonymous (fun o u => Btf.impl cfg ti b k o u (.name n :: cs)) o
                (ms.filter (fun m => m.name.isNone)) with
              | ok r =>
                cases r with
                | some r => rfl
                | none =>
                  dsimp only
                  rcases sameMembers_find hms hn with ⟨h1, h2⟩ | ⟨m, m', h1, h2, ht, ho⟩
                  · rw [h1, h2]
                  · rw [h1, h2]
                    simp only [ht, ho]
                    cases o.add m.offset with
                    | ok o' => exact ih _ _ _ _ hcs
                    | err e => rfl
                    | panic => rfl
                    | nofuel => rfl
              | err e => rfl
              | panic => rfl
              | nofuel => rfl
      · rw [h1, h2]; rfl
      · rw [h1, h2]; rfl

end Btf

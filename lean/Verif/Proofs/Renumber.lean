import Verif.Spec.Renumber
import Verif.Proofs.OffsetApi

/-!
# Renumbering types
-/

namespace Btf

open Spec TypeInformation Props

variable {f : UInt32 → UInt32} {S : UInt32 → Prop} {ti ti' : TypeInformation}

theorem Spec.Renumbers.pointerSize (h : Renumbers f S ti ti') {t : UInt32} {v : TypeVariant} (hs : S t)
    (hv : ti.fromId t = some v) (hp : IsPtr v) : ti'.pointerSize = ti.pointerSize := by
  rcases pointerSize_eq ti with ⟨n, h1, h2⟩ | ⟨h1, h2⟩ <;>
    rcases pointerSize_eq ti' with ⟨m, h3, h4⟩ | ⟨h3, h4⟩
  · rw [h1, h3, pointerSize_unique ((h.pointers t v hs hv hp n).1 h2) h4]
  · exact absurd ⟨n, (h.pointers t v hs hv hp n).1 h2⟩ h4
  · exact absurd ⟨m, (h.pointers t v hs hv hp m).2 h4⟩ h2
  · rw [h1, h3]

theorem Spec.Renumbers.resolve (h : Renumbers f S ti ti') (k : Nat) : ∀ t, S t →
    (∃ v v' u, resolve ti k t = .ok v ∧ resolve ti' k (f t) = .ok v' ∧ Renamed f v v' ∧ S u ∧ ti.fromId u = some v) ∨
    (∃ e, resolve ti k t = .err e ∧ resolve ti' k (f t) = .err e) ∨
    (resolve ti k t = .nofuel ∧ resolve ti' k (f t) = .nofuel) := by
  induction k with
  | zero => intro t _; exact .inr (.inr ⟨rfl, rfl⟩)
  | succ k ih =>
    intro t hs
    cases hv : ti.fromId t with
    | none =>
      right; left
      refine ⟨ErrorKind.InvalidTypeID, ?_, ?_⟩
      · rw [TypeInformation.resolve, hv]; rfl
      · rw [TypeInformation.resolve, h.missing t hs hv]; rfl
    | some v =>
      obtain ⟨v', hv', hr⟩ := h.present t v hs hv
      have hc : ∀ u, accessAlias v = some u → S u := fun u hu => h.closed t v u hs hv (.inl hu)
      simp only [TypeInformation.resolve, hv, hv']
      cases hr
      case typedef e => simp only [e]; exact ih _ (hc _ rfl)
      case const e => simp only [e]; exact ih _ (hc _ rfl)
      case volatile e => simp only [e]; exact ih _ (hc _ rfl)
      case restrict e => simp only [e]; exact ih _ (hc _ rfl)
      case fwd e => simp only [e]; exact ih _ (hc _ rfl)
      all_goals exact .inl ⟨_, _, t, rfl, rfl, by constructor <;> assumption, hs, hv⟩

theorem Spec.Renumbers.sizeOf (h : Renumbers f S ti ti') (cfg : Cfg) (k : Nat) : ∀ t, S t →
    TypeInformation.sizeOf cfg ti' k (f t) = TypeInformation.sizeOf cfg ti k t := by
  induction k with
  | zero => intro t _; rfl
  | succ k ih =>
    intro t hs
    cases hv : ti.fromId t with
    | none => simp only [TypeInformation.sizeOf, hv, h.missing t hs hv]
    | some v =>
      obtain ⟨v', hv', hr⟩ := h.present t v hs hv
      have hc : ∀ u, sizeRef v = some u → S u := fun u hu => h.closed t v u hs hv (.inr (.inl hu))
      simp only [TypeInformation.sizeOf, hv, hv']
      cases hr
      case ptr => exact h.pointerSize hs hv trivial
      all_goals simp_all [sizeRef, sizeAlias]

theorem Spec.Renumbers.pointeeTid (h : Renumbers f S ti ti') (k : Nat) : ∀ t, S t →
    TypeInformation.pointeeTid ti' k (f t) = (TypeInformation.pointeeTid ti k t).bind (fun u => .ok (f u)) := by
  induction k with
  | zero => intro t _; rfl
  | succ k ih =>
    intro t hs
    cases hv : ti.fromId t with
    | none => simp only [TypeInformation.pointeeTid, hv, h.missing t hs hv]; rfl
    | some v =>
      obtain ⟨v', hv', hr⟩ := h.present t v hs hv
      have hc : ∀ u, accessAlias v = some u → S u := fun u hu => h.closed t v u hs hv (.inl hu)
      simp only [TypeInformation.pointeeTid, hv, hv']
      cases hr
      case typedef e => simp only [e]; exact ih _ (hc _ rfl)
      case const e => simp only [e]; exact ih _ (hc _ rfl)
      case volatile e => simp only [e]; exact ih _ (hc _ rfl)
      case restrict e => simp only [e]; exact ih _ (hc _ rfl)
      case ptr e => simp only [e]; rfl
      all_goals rfl

theorem Spec.Renamed.members {v v' : TypeVariant} (h : Renamed f v v') :
    (memberListOf v = none ∧ memberListOf v' = none) ∨
    ∃ ms ms', memberListOf v = some ms ∧ memberListOf v' = some ms' ∧ RenamedMembers f ms ms' := by
  cases h
  case struct d d' _ h => exact .inr ⟨_, _, rfl, rfl, h⟩
  case union d d' _ h => exact .inr ⟨_, _, rfl, rfl, h⟩
  all_goals exact .inl ⟨rfl, rfl⟩

theorem Spec.Renamed.void_iff {v v' : TypeVariant} (h : Renamed f v v') : v' = .void ↔ v = .void := by
  cases h <;> simp

theorem Spec.RenamedMembers.filter {ms ms' : List Member} (h : RenamedMembers f ms ms') :
    RenamedMembers f (ms.filter (fun m => m.name.isNone)) (ms'.filter (fun m => m.name.isNone)) := by
  induction h with
  | nil => exact .nil
  | @cons m m' ms ms' hn ht ho _ ih =>
    simp only [List.filter_cons, hn]
    split
    · exact .cons hn ht ho ih
    · exact ih

theorem Spec.RenamedMembers.find {ms ms' : List Member} (h : RenamedMembers f ms ms') (name : Str) :
    (ms.find? (fun m => m.name = some name) = none ∧ ms'.find? (fun m => m.name = some name) = none) ∨
    ∃ m m', ms.find? (fun m => m.name = some name) = some m ∧ ms'.find? (fun m => m.name = some name) = some m' ∧
      m'.tid = f m.tid ∧ m'.offset = m.offset ∧ m ∈ ms := by
  induction h with
  | nil => exact .inl ⟨rfl, rfl⟩
  | @cons m m' ms ms' hn ht ho _ ih =>
    by_cases hm : m.name = some name
    · refine .inr ⟨m, m', ?_, ?_, ht, ho, List.mem_cons_self ..⟩
      · rw [List.find?_cons_of_pos (by simpa using hm)]
      · rw [List.find?_cons_of_pos (by simpa [hn] using hm)]
    · rw [List.find?_cons_of_neg (by simpa using hm), List.find?_cons_of_neg (by simpa [hn] using hm)]
      rcases ih with ih | ⟨a, b, h1, h2, h3, h4, h5⟩
      · exact .inl ih
      · exact .inr ⟨a, b, h1, h2, h3, h4, List.mem_cons_of_mem _ h5⟩

/-- As `renameAnswer`, for the result of probing. -/
def renameOption (f : UInt32 → UInt32) :
    Outcome (Option (UInt32 × Offset)) → Outcome (Option (UInt32 × Offset))
  | .ok (some (u, o)) => .ok (some (f u, o))
  | x => x

theorem probe_renamed {p q : Offset → UInt32 → Outcome (UInt32 × Offset)} (o : Offset) {ms ms' : List Member}
    (h : RenamedMembers f ms ms') (hpq : ∀ o, ∀ m ∈ ms, q o (f m.tid) = renameAnswer f (p o m.tid)) :
    probeAnonymous q o ms' = renameOption f (probeAnonymous p o ms) := by
  induction h with
  | nil => rfl
  | @cons m m' ms ms' hn ht ho _ ih =>
    have ih := ih fun o m hm => hpq o m (List.mem_cons_of_mem _ hm)
    simp only [probeAnonymous, ho, ht]
    cases m.offset.add o with
    | ok start =>
      simp only [hpq start m (List.mem_cons_self ..)]
      cases p start m.tid with
      | ok r => rfl
      | err e => exact ih
      | panic => rfl
      | nofuel => rfl
    | err e => rfl
    | panic => rfl
    | nofuel => rfl

theorem Spec.Renumbers.stepIndex (h : Renumbers f S ti ti') (cfg : Cfg) (k : Nat) (o : Offset) {u : UInt32}
    {v v' : TypeVariant} (hr : Renamed f v v') (hs : S u) (hv : ti.fromId u = some v) (i : Nat) :
    stepIndex cfg ti' k o v' i = renameAnswer f (stepIndex cfg ti k o v i) := by
  have hc : ∀ w, sizeRef v = some w → S w := fun w hw => h.closed u v w hs hv (.inr (.inl hw))
  cases hr
  case array d d' e e' =>
    simp only [TypeInformation.stepIndex, e, e']
    split
    · rfl
    · rw [h.sizeOf cfg k _ (hc _ rfl)]
      show Res.bind _ _ = renameAnswer f (Res.bind _ _)
      cases TypeInformation.sizeOf cfg ti k d.elementTid with
      | ok n =>
        simp only [Res.bind]
        show Res.bind _ _ = renameAnswer f (Res.bind _ _)
        cases okOr ((u64CheckedMul i n).bind u32TryFrom) OffsetError.arrayOffsetOverflow.kind with
        | ok x =>
          simp only [Res.bind]
          show Res.bind _ _ = renameAnswer f (Res.bind _ _)
          cases o.addU32 x <;> rfl
        | err e => rfl
        | panic => rfl
        | nofuel => rfl
      | err e => rfl
      | panic => rfl
      | nofuel => rfl
  all_goals rfl

theorem Spec.Renumbers.impl (h : Renumbers f S ti ti') (cfg : Cfg) (b : Bool) (k : Nat) : ∀ o t cs, S t →
    impl cfg ti' b k o (f t) cs = renameAnswer f (impl cfg ti b k o t cs) := by
  induction k with
  | zero => intro o t cs _; rfl
  | succ k ih =>
    intro o t cs hs
    cases cs with
    | nil => simp only [Btf.impl]; split <;> rfl
    | cons c cs =>
      simp only [Btf.impl]
      rcases h.resolve k t hs with ⟨v, v', u, h1, h2, hr, hu, hvu⟩ | ⟨e, h1, h2⟩ | ⟨h1, h2⟩
      · rw [h1, h2]
        simp only [Res.bind, hr.void_iff]
        split
        · rfl
        · split
          · rename_i index
            rw [h.stepIndex cfg k o hr hu hvu]
            cases hst : TypeInformation.stepIndex cfg ti k o v index with
            | ok r =>
              obtain ⟨hd, d, n, rfl, -, -, hr1, -⟩ := stepIndex_ok hst
              have := ih r.2 r.1 cs (by
                rw [hr1]; exact h.closed u _ _ hu hvu (.inr (.inl rfl)))
              exact this
            | err e => rfl
            | panic => rfl
            | nofuel => rfl
          · rename_i name
            rcases hr.members with ⟨hm, hm'⟩ | ⟨ms, ms', hm, hm', hms⟩
            · rw [hm, hm']; rfl
            · rw [hm, hm']
              have hc : ∀ m ∈ ms, S m.tid := fun m hm1 =>
                h.closed u v m.tid hu hvu (.inr (.inr ⟨ms, m, by rw [← memberListOf_eq, hm], hm1, rfl⟩))
              dsimp only
              rw [probe_renamed (p := fun o u => Btf.impl cfg ti b k o u (.name name :: cs))
                (q := fun o u => Btf.impl cfg ti' b k o u (.name name :: cs)) o hms.filter
                (fun o m hm => ih o m.tid _ (hc m (List.mem_of_mem_filter hm)))]
              cases probeAnonymous (fun o u => Btf.impl cfg ti b k o u (.name name :: cs)) o
                (ms.filter (fun m => m.name.isNone)) with
              | ok r =>
                cases r with
                | some r => rfl
                | none =>
                  simp only [renameOption]
                  rcases hms.find name with ⟨h1, h2⟩ | ⟨m, m', h1, h2, ht, ho, hmem⟩
                  · rw [h1, h2]; rfl
                  · rw [h1, h2]
                    simp only [ht, ho]
                    cases o.add m.offset with
                    | ok o' => exact ih o' m.tid cs (hc m hmem)
                    | err e => rfl
                    | panic => rfl
                    | nofuel => rfl
              | err e => rfl
              | panic => rfl
              | nofuel => rfl
      · rw [h1, h2]; rfl
      · rw [h1, h2]; rfl

end Btf

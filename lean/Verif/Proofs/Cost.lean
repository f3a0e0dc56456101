import Verif.Model.Cost
import Verif.Spec.Cost
import Verif.Spec.PathRun
import Verif.Proofs.OffsetWF

/-!
# The steps of `offset_of`
-/

namespace Btf

open Spec TypeInformation

theorem probeSteps_fst {p : Offset → UInt32 → Outcome (UInt32 × Offset) × Nat} {q : Offset → UInt32 → Outcome (UInt32 × Offset)}
    (h : ∀ o u, (p o u).1 = q o u) (offset : Offset) :
    ∀ ms, (probeSteps p offset ms).1 = probeAnonymous q offset ms
  | [] => rfl
  | m :: rest => by
    rw [probeSteps, probeAnonymous]
    cases m.offset.add offset with
    | ok start =>
      simp only []
      rw [← h start m.tid]
      obtain ⟨o, k⟩ := p start m.tid
      cases o with
      | err e => exact probeSteps_fst h offset rest
      | _ => rfl
    | _ => rfl

/-- Without the counter this is `offset_of_impl`. -/
theorem implSteps_fst (cfg : Cfg) (ti : TypeInformation) : ∀ (n : Nat) (offset : Offset) (tid : UInt32) (path : PathIter),
    (implSteps cfg ti n offset tid path).1 = offsetOfImpl cfg ti n offset tid path
  | 0, _, _, _ => rfl
  | n + 1, offset, tid, path => by
    have ih := implSteps_fst cfg ti n
    rw [implSteps, offsetOfImpl]
    rcases path.next cfg with ⟨x, path'⟩
    cases x with
    | ok y =>
      cases y with
      | none => rfl
      | some c =>
        simp only []
        cases resolve ti n tid with
        | ok v =>
          simp only [bind, Res.bind]
          by_cases hv : v = .void
          · rw [if_pos hv, if_pos hv]
          · rw [if_neg hv, if_neg hv]
            cases c with
            | index i =>
              simp only []
              cases stepIndex cfg ti n offset v i with
              | ok r => exact ih _ _ _
              | _ => rfl
            | name name =>
              simp only []
              cases memberListOf v with
              | none => rfl
              | some ms =>
                simp only []
                rw [← probeSteps_fst (p := fun o u => implSteps cfg ti n o u path) (fun o u => ih o u path)]
                obtain ⟨a, k⟩ := probeSteps (fun o u => implSteps cfg ti n o u path) offset (ms.filter fun m => m.name.isNone)
                cases a with
                | ok x =>
                  cases x with
                  | some r => rfl
                  | none =>
                    simp only []
                    cases ms.find? (fun m => m.name = some name) with
                    | none => rfl
                    | some m =>
                      simp only []
                      cases offset.add m.offset with
                      | ok o => exact ih _ _ _
                      | _ => rfl
                | _ => rfl
        | _ => rfl
    | _ => rfl

theorem probeSteps_mono {p q : Offset → UInt32 → Outcome (UInt32 × Offset) × Nat} {offset : Offset}
    (h : ∀ o u, (p o u).1 ≠ .nofuel → q o u = p o u) :
    ∀ {ms : List Member}, (probeSteps p offset ms).1 ≠ .nofuel → probeSteps q offset ms = probeSteps p offset ms
  | [], _ => rfl
  | m :: rest, hne => by
    rw [probeSteps] at hne
    rw [probeSteps, probeSteps]
    cases ha : m.offset.add offset with
    | ok start =>
      rw [ha] at hne
      simp only [] at hne ⊢
      have h' := h start m.tid
      rcases hp : p start m.tid with ⟨o, k⟩
      rw [hp] at hne h'
      cases o with
      | nofuel => exact absurd rfl hne
      | err e =>
        rw [h' (by simp)]
        simp only []
        rw [probeSteps_mono h hne]
      | ok r => rw [h' (by simp)]
      | panic => rw [h' (by simp)]
    | _ => rfl

/-- With more fuel the answer and the number of steps stay what they are. -/
theorem implSteps_mono (cfg : Cfg) (ti : TypeInformation) : ∀ (n : Nat) (offset : Offset) (tid : UInt32) (path : PathIter),
    (implSteps cfg ti n offset tid path).1 ≠ .nofuel → implSteps cfg ti (n + 1) offset tid path = implSteps cfg ti n offset tid path
  | 0, _, _, _, h => absurd rfl h
  | n + 1, offset, tid, path, hne => by
    have ih := implSteps_mono cfg ti n
    rw [implSteps] at hne
    rw [implSteps, implSteps]
    rcases hpn : path.next cfg with ⟨x, path'⟩
    rw [hpn] at hne
    cases x with
    | ok y =>
      cases y with
      | none => rfl
      | some c =>
        simp only [] at hne ⊢
        have hr' : resolve ti n tid ≠ .nofuel → resolve ti (n + 1) tid = resolve ti n tid := resolve_mono ti tid n
        cases hr : resolve ti n tid with
        | nofuel => rw [hr] at hne; exact absurd rfl hne
        | err e => rw [hr] at hr'; rw [hr' (by simp)]
        | panic => rw [hr] at hr'; rw [hr' (by simp)]
        | ok v =>
          rw [hr] at hr' hne; rw [hr' (by simp)]
          simp only [] at hne ⊢
          by_cases hv : v = .void
          · rw [if_pos hv, if_pos hv]
          · rw [if_neg hv] at hne
            rw [if_neg hv, if_neg hv]
            cases c with
            | index i =>
              simp only [] at hne ⊢
              have hs' : stepIndex cfg ti n offset v i ≠ .nofuel → stepIndex cfg ti (n + 1) offset v i = stepIndex cfg ti n offset v i :=
                stepIndex_mono cfg ti offset v i n
              cases hs : stepIndex cfg ti n offset v i with
              | nofuel => rw [hs] at hne; exact absurd rfl hne
              | err e => rw [hs] at hs'; rw [hs' (by simp)]
              | panic => rw [hs] at hs'; rw [hs' (by simp)]
              | ok r =>
                rw [hs] at hs' hne; rw [hs' (by simp)]
                simp only [] at hne ⊢
                rw [ih _ _ _ hne]
            | name name =>
              simp only [] at hne ⊢
              cases hm : memberListOf v with
              | none => rfl
              | some ms =>
                rw [hm] at hne
                simp only [] at hne ⊢
                have hp' := probeSteps_mono (p := fun o u => implSteps cfg ti n o u path)
                  (q := fun o u => implSteps cfg ti (n + 1) o u path) (offset := offset) (fun o u => ih o u path)
                  (ms := ms.filter fun m => m.name.isNone)
                rcases hp : probeSteps (fun o u => implSteps cfg ti n o u path) offset (ms.filter fun m => m.name.isNone) with ⟨a, k⟩
                rw [hp] at hp' hne
                cases a with
                | nofuel => exact absurd rfl hne
                | err e => rw [hp' (by simp)]
                | panic => rw [hp' (by simp)]
                | ok x =>
                  rw [hp' (by simp)]
                  cases x with
                  | some r => rfl
                  | none =>
                    simp only [] at hne ⊢
                    cases hf : ms.find? (fun m => m.name = some name) with
                    | none => rfl
                    | some m =>
                      rw [hf] at hne
                      simp only [] at hne ⊢
                      cases ha : offset.add m.offset with
                      | ok o =>
                        rw [ha] at hne
                        simp only [] at hne ⊢
                        rw [ih _ _ _ hne]
                      | _ => rfl
    | _ => rfl

/-! ### Upper bound -/

/-- If the search inside every member costs what it weighs. -/
theorem probeSteps_le {p : Offset → UInt32 → Outcome (UInt32 × Offset) × Nat} {w : UInt32 → Nat} {offset : Offset} :
    ∀ {ms : List Member}, (∀ m ∈ ms, ∀ o, (p o m.tid).2 ≤ w m.tid) →
      (probeSteps p offset ms).2 ≤ (ms.map fun m => w m.tid).sum
  | [], _ => Nat.le_refl _
  | m :: rest, h => by
    have ih := probeSteps_le (p := p) (offset := offset) (fun m' hm' => h m' (List.mem_cons_of_mem _ hm'))
    rw [probeSteps, List.map_cons, List.sum_cons]
    cases m.offset.add offset with
    | ok start =>
      have hm := h m (by simp) start
      simp only []
      rcases hp : p start m.tid with ⟨o, k⟩
      rw [hp] at hm
      cases o <;> simp only [] at hm ⊢ <;> omega
    | _ => exact Nat.zero_le _

/-- If inside at most one of the members, one that satisfies `P`, it costs `B` more. -/
theorem probeSteps_le_add {p : Offset → UInt32 → Outcome (UInt32 × Offset) × Nat} {w : UInt32 → Nat} {offset : Offset}
    {P : Member → Prop} {B : Nat} : ∀ {ms : List Member}, (∀ m ∈ ms, ∀ o, (p o m.tid).2 ≤ w m.tid + B) →
      (∀ m ∈ ms, ¬ P m → ∀ o, (p o m.tid).2 ≤ w m.tid) → (ms.Pairwise fun m m' => ¬ (P m ∧ P m')) →
      (probeSteps p offset ms).2 ≤ (ms.map fun m => w m.tid).sum + B
  | [], _, _, _ => Nat.zero_le _
  | m :: rest, h, h', hpw => by
    rw [List.pairwise_cons] at hpw
    rw [probeSteps, List.map_cons, List.sum_cons]
    cases m.offset.add offset with
    | ok start =>
      simp only []
      by_cases hP : P m
      · have ih := probeSteps_le (p := p) (offset := offset) (ms := rest) (w := w)
          (fun m' hm' => h' m' (List.mem_cons_of_mem _ hm') fun hP' => hpw.1 m' hm' ⟨hP, hP'⟩)
        have hm := h m (by simp) start
        rcases hp : p start m.tid with ⟨o, k⟩
        rw [hp] at hm
        cases o <;> simp only [] at hm ⊢ <;> omega
      · have ih := probeSteps_le_add (p := p) (offset := offset) (ms := rest) (w := w) (P := P) (B := B)
          (fun m' hm' => h m' (List.mem_cons_of_mem _ hm')) (fun m' hm' => h' m' (List.mem_cons_of_mem _ hm')) hpw.2
        have hm := h' m (by simp) hP start
        rcases hp : p start m.tid with ⟨o, k⟩
        rw [hp] at hm
        cases o <;> simp only [] at hm ⊢ <;> omega
    | _ => exact Nat.zero_le _

theorem pairwise_of_mem {α : Type} {R : α → α → Prop} (hs : ∀ x y, R x y → R y x) : ∀ {xs : List α}, xs.Pairwise R →
    ∀ {x y : α}, x ∈ xs → y ∈ xs → x ≠ y → R x y
  | a :: as, h, x, y, hx, hy, hne => by
    rw [List.pairwise_cons] at h
    rcases List.mem_cons.1 hx with hx' | hx'
    · rcases List.mem_cons.1 hy with hy' | hy'
      · exact absurd (hx'.trans hy'.symm) hne
      · rw [hx']; exact h.1 _ hy'
    · rcases List.mem_cons.1 hy with hy' | hy'
      · rw [hy']; exact hs _ _ (h.1 _ hx')
      · exact pairwise_of_mem hs h.2 hx' hy' hne

section
variable {cfg : Cfg} {ti : TypeInformation} {w : UInt32 → Nat} {W : Nat}

/-- The steps for the first component are what the type weighs; they are followed by those for the rest if the name
is found. -/
theorem implSteps_le (hc : ClearNames ti) (hw : Weighs ti w) (hW : ∀ t, w t ≤ W) :
    ∀ (n : Nat) (offset : Offset) (t : UInt32) (path : PathIter) (cs : List PathComponent) (b : Bool), Yields cfg path cs b →
      (implSteps cfg ti n offset t path).2 ≤ W * cs.length + 1 ∧
      ∀ name cs', cs = .name name :: cs' →
        (implSteps cfg ti n offset t path).2 ≤ w t + (W * cs'.length + 1) ∧
        ((∀ v, Resolves ti t v → ¬ Offers ti v name) → (implSteps cfg ti n offset t path).2 ≤ w t)
  | 0, offset, t, path, cs, b, _ => ⟨Nat.zero_le _, fun _ _ _ => ⟨Nat.zero_le _, fun _ => Nat.zero_le _⟩⟩
  | n + 1, offset, t, path, cs, b, hy => by
    have ih := implSteps_le hc hw hW n
    have h1 := hw.1 t
    have h2 := hW t
    -- a name: the second part gives the first
    have hsecond : ∀ name cs', cs = .name name :: cs' →
        (implSteps cfg ti (n + 1) offset t path).2 ≤ w t + (W * cs'.length + 1) ∧
        ((∀ v, Resolves ti t v → ¬ Offers ti v name) → (implSteps cfg ti (n + 1) offset t path).2 ≤ w t) := by
      rintro name cs' rfl
      rcases hy with _ | _ | ⟨hn, hy'⟩
      rename_i path'
      have hy : Yields cfg path (.name name :: cs') b := .tok hn hy'
      rw [implSteps, hn]
      simp only []
      cases hr : resolve ti n t with
      | ok v =>
        simp only []
        have hres : Resolves ti t v := resolve_ok_iff.1 ⟨n, hr⟩
        by_cases hv : v = .void
        · rw [if_pos hv]; exact ⟨by simp only []; omega, fun _ => by simp only []; omega⟩
        · rw [if_neg hv]
          cases hm : memberListOf v with
          | none => exact ⟨by simp only []; omega, fun _ => by simp only []; omega⟩
          | some ms =>
            have hm' : membersOf v = some ms := by rw [← memberListOf_eq]; exact hm
            have hsum := hw.2 t v ms hres hm'
            have hpw : ms.Pairwise fun m m' => m.name = none ∨ m'.name = none → ∀ name, ¬ (MemberOffers ti m name ∧ MemberOffers ti m' name) := by
              obtain ⟨a, -, ha, -⟩ := hres
              exact hc a v ms ha hm'
            have hmem : ∀ m ∈ ms.filter (fun m => m.name.isNone), m ∈ ms ∧ m.name = none := by
              intro m hm
              simpa using hm
            have hno : ∀ m ∈ ms.filter (fun m => m.name.isNone), ¬ MemberOffers ti m name → ∀ o,
                (implSteps cfg ti n o m.tid path).2 ≤ w m.tid := by
              intro m hmm hmo o
              refine ((ih o m.tid path _ b hy).2 name cs' rfl).2 fun u hu hof => hmo (.inr ⟨(hmem m hmm).2, u, hu, hof⟩)
            have hall : ∀ m ∈ ms.filter (fun m => m.name.isNone), ∀ o,
                (implSteps cfg ti n o m.tid path).2 ≤ w m.tid + (W * cs'.length + 1) :=
              fun m hmm o => ((ih o m.tid path _ b hy).2 name cs' rfl).1
            simp only []
            by_cases hex : ∃ m ∈ ms.filter (fun m => m.name.isNone), MemberOffers ti m name
            · have hk := probeSteps_le_add (p := fun o u => implSteps cfg ti n o u path) (offset := offset) (w := w)
                (P := fun m => MemberOffers ti m name) (B := W * cs'.length + 1) hall hno
                ((hpw.sublist List.filter_sublist).imp_of_mem (fun {a b} ha hb h => h (.inl (hmem a ha).2) name))
              obtain ⟨a, ha, hao⟩ := hex
              have hnf : ms.find? (fun m => m.name = some name) = none := by
                rw [List.find?_eq_none]
                intro m hmm
                simp only [decide_eq_true_eq]
                intro hmn
                have hne : a ≠ m := by
                  rintro rfl
                  rw [(hmem a ha).2] at hmn
                  cases hmn
                have hsymm : ∀ x ∈ ms, ∀ y ∈ ms, x ≠ y → (x.name = none ∨ y.name = none → ∀ name, ¬ (MemberOffers ti x name ∧ MemberOffers ti y name)) :=
                  fun x hx y hy hxy => pairwise_of_mem (fun x y h h1 nm h2 => h h1.symm nm h2.symm) hpw hx hy hxy
                exact hsymm a (hmem a ha).1 m hmm hne (.inl (hmem a ha).2) name ⟨hao, .inl hmn⟩
              have hoff : Offers ti v name := by
                rcases hao with h | ⟨h, u, hu, hof⟩
                · rw [(hmem a ha).2] at h; cases h
                · exact .nested hm' (hmem a ha).1 h hu hof
              refine ⟨?_, fun h => absurd hoff (h v hres)⟩
              rcases hp : probeSteps (fun o u => implSteps cfg ti n o u path) offset (ms.filter fun m => m.name.isNone) with ⟨x, k⟩
              rw [hp] at hk
              simp only [] at hk
              cases x with
              | ok y =>
                cases y with
                | some r => simp only []; omega
                | none => simp only [hnf]; omega
              | _ => simp only []; omega
            · have hk := probeSteps_le (p := fun o u => implSteps cfg ti n o u path) (offset := offset) (w := w)
                (ms := ms.filter fun m => m.name.isNone) (fun m hmm => hno m hmm fun h => hex ⟨m, hmm, h⟩)
              rcases hp : probeSteps (fun o u => implSteps cfg ti n o u path) offset (ms.filter fun m => m.name.isNone) with ⟨x, k⟩
              rw [hp] at hk
              simp only [] at hk
              cases x with
              | ok y =>
                cases y with
                | some r => exact ⟨by simp only []; omega, fun _ => by simp only []; omega⟩
                | none =>
                  simp only []
                  cases hf : ms.find? (fun m => m.name = some name) with
                  | none => exact ⟨by simp only []; omega, fun _ => by simp only []; omega⟩
                  | some m =>
                    have hoff : Offers ti v name :=
                      .direct hm' (List.mem_of_find?_eq_some hf) (by simpa using List.find?_some hf)
                    simp only []
                    refine ⟨?_, fun h => absurd hoff (h v hres)⟩
                    cases offset.add m.offset with
                    | ok o =>
                      have := (ih o m.tid path' cs' b hy').1
                      simp only []
                      omega
                    | _ => simp only []; omega
              | _ => exact ⟨by simp only []; omega, fun _ => by simp only []; omega⟩
      | _ => exact ⟨by simp only []; omega, fun _ => by simp only []; omega⟩
    refine ⟨?_, hsecond⟩
    cases hy with
    | stop h =>
      rw [implSteps]
      rcases hpn : path.next cfg with ⟨x, path'⟩
      rw [hpn] at h
      cases h
      exact Nat.le_add_left _ _
    | fail h =>
      rw [implSteps]
      rcases hpn : path.next cfg with ⟨x, path'⟩
      rw [hpn] at h
      cases h
      exact Nat.le_add_left _ _
    | @tok _ path' c cs _ hn hy' =>
      rw [List.length_cons, Nat.mul_add, Nat.mul_one]
      cases c with
      | name name =>
        have := (hsecond name cs rfl).1
        omega
      | index i =>
        rw [implSteps, hn]
        simp only []
        cases resolve ti n t with
        | ok v =>
          simp only []
          by_cases hv : v = .void
          · rw [if_pos hv]; simp only []; omega
          · rw [if_neg hv]
            cases stepIndex cfg ti n offset v i with
            | ok r =>
              have := (ih r.2 r.1 path' cs b hy').1
              simp only []
              omega
            | _ => simp only []; omega
        | _ => simp only []; omega
end

end Btf

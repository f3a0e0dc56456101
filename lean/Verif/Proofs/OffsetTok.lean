import Verif.Proofs.PathRun
import Verif.Proofs.Queries
import Verif.Spec.Access

/-!
# `offset_of` on a list of components
-/

namespace Btf

open Spec TypeInformation

/-- `offset_of_impl` with the iterator replaced by the components it yields. -/
def impl (cfg : Cfg) (ti : TypeInformation) (clean : Bool) :
    Nat → Offset → UInt32 → List PathComponent → Outcome (UInt32 × Offset)
  | 0, _, _, _ => .nofuel
  | _ + 1, offset, tid, [] => if clean then .ok (tid, offset) else .err .InvalidTypePath
  | fuel + 1, offset, tid, c :: cs =>
    (resolve ti fuel tid).bind fun t =>
      if t = .void then .err .InvalidTypePath
      else
        match c with
        | .index index =>
          (stepIndex cfg ti fuel offset t index).bind fun r => impl cfg ti clean fuel r.2 r.1 cs
        | .name name =>
          match memberListOf t with
          | none => .err .InvalidTypePath
          | some members =>
            (probeAnonymous (fun o u => impl cfg ti clean fuel o u (.name name :: cs)) offset
              (members.filter (fun m => m.name.isNone))).bind fun anon =>
            match anon with
            | some r => .ok r
            | none =>
              match members.find? (fun m => m.name = some name) with
              | some m => (offset.add m.offset).bind fun o => impl cfg ti clean fuel o m.tid cs
              | none => .err .InvalidTypePath

theorem probeAnonymous_congr {p q : Offset → UInt32 → Outcome (UInt32 × Offset)} {offset : Offset}
    {ms : List Member} (h : ∀ o u, p o u = q o u) :
    probeAnonymous p offset ms = probeAnonymous q offset ms := by
  have : p = q := by funext o u; exact h o u
  rw [this]

theorem offsetOfImpl_eq (cfg : Cfg) (ti : TypeInformation) (fuel : Nat) :
    ∀ (offset : Offset) (tid : UInt32) (it : PathIter) (cs : List PathComponent) (b : Bool),
      PathInv it → AbsToks cfg it.state (it.path.drop it.position) cs b →
      offsetOfImpl cfg ti fuel offset tid it = impl cfg ti b fuel offset tid cs := by
  induction fuel with
  | zero => intros; rfl
  | succ fuel ih =>
    intro offset tid it cs b hi hT
    have hag := next_agrees cfg it hi
    rw [offsetOfImpl]
    cases hn : it.next cfg with
    | mk o it' =>
    rw [hn] at hag
    cases hT with
    | stop h => rw [h] at hag; cases hag; rfl
    | bad h => rw [h] at hag; cases hag; rfl
    | @tok _ _ c st' r' cs' b h hT' =>
      rw [h] at hag
      cases hag with
      | tok h1 h2 h3 h4 =>
        have hT'' : AbsToks cfg it'.state (it'.path.drop it'.position) cs' b := by rw [h2, h3]; exact hT'
        simp only [impl]
        show Res.bind _ _ = Res.bind _ _
        congr 1
        funext t
        split
        · rfl
        · cases c with
          | index index =>
            show Res.bind _ _ = Res.bind _ _
            congr 1
            funext r
            exact ih _ _ _ _ _ h4 hT''
          | name name =>
            simp only []
            cases memberListOf t with
            | none => rfl
            | some members =>
              simp only []
              rw [probeAnonymous_congr (fun o u => ih o u it _ _ hi (.tok h hT'))]
              show Res.bind _ _ = Res.bind _ _
              congr 1
              funext anon
              cases anon with
              | some r => rfl
              | none =>
                simp only []
                cases members.find? (fun m => m.name = some name) with
                | none => rfl
                | some m =>
                  show Res.bind _ _ = Res.bind _ _
                  congr 1
                  funext o
                  exact ih _ _ _ _ _ h4 hT''

/-- `offset_of` on a string is `impl` on its components. -/
theorem offsetOf_eq (cfg : Cfg) (ti : TypeInformation) (tid : UInt32) {p : Str} (hp : Utf8Like p) :
    ∃ cs b, Yields cfg (PathIter.new p) cs b ∧
      ∀ fuel, offsetOf cfg ti fuel tid p = impl cfg ti b fuel (.byteOffset 0) tid cs := by
  obtain ⟨cs, b, h⟩ := absToks_total cfg _ .start p (Nat.le_refl _) (by simp)
  refine ⟨cs, b, yields_of_absToks h _ (pathInv_new hp) rfl (by simp [PathIter.new]), fun fuel => ?_⟩
  exact offsetOfImpl_eq cfg ti fuel _ _ _ _ _ (pathInv_new hp) (by simpa [PathIter.new] using h)

theorem offsetOf_eq_of_accepted (cfg : Cfg) (ti : TypeInformation) (tid : UInt32) {p : Str}
    {cs : List PathComponent} (hp : Utf8Like p) (h : AcceptedPath cfg.usizeMod p cs) (fuel : Nat) :
    offsetOf cfg ti fuel tid p = impl cfg ti true fuel (.byteOffset 0) tid cs := by
  obtain ⟨cs', b, hy, he⟩ := offsetOf_eq cfg ti tid hp
  obtain ⟨rfl, rfl⟩ := yields_det hy ((yields_iff cfg hp cs).2 h)
  exact he fuel

/-! ### Results of the pieces -/

theorem probeAnonymous_some {probe : Offset → UInt32 → Outcome (UInt32 × Offset)} {offset : Offset}
    {ms : List Member} {r : UInt32 × Offset} (h : probeAnonymous probe offset ms = .ok (some r)) :
    ∃ m ∈ ms, ∃ start, m.offset.add offset = .ok start ∧ probe start m.tid = .ok r := by
  induction ms with
  | nil => cases h
  | cons m rest ih =>
    unfold probeAnonymous at h
    cases ha : m.offset.add offset with
    | ok start =>
      rw [ha] at h
      simp only [] at h
      cases hp : probe start m.tid with
      | ok r' => rw [hp] at h; cases h; exact ⟨m, by simp, start, ha, hp⟩
      | err e =>
        rw [hp] at h
        obtain ⟨m', hm', h'⟩ := ih h
        exact ⟨m', by simp [hm'], h'⟩
      | panic => rw [hp] at h; cases h
      | nofuel => rw [hp] at h; cases h
    | err e => rw [ha] at h; cases h
    | panic => rw [ha] at h; cases h
    | nofuel => rw [ha] at h; cases h

theorem Outcome.bind_ok {α β : Type} {x : Outcome α} {f : α → Outcome β} {b : β} :
    x.bind f = .ok b ↔ ∃ a, x = .ok a ∧ f a = .ok b := by
  cases x <;> simp [Res.bind]

theorem Outcome.bind_err {α β : Type} {x : Outcome α} {f : α → Outcome β} {e : ErrorKind} :
    x.bind f = .err e ↔ x = .err e ∨ ∃ a, x = .ok a ∧ f a = .err e := by
  cases x <;> simp [Res.bind]

theorem Outcome.bind_panic {α β : Type} {x : Outcome α} {f : α → Outcome β} :
    x.bind f = .panic ↔ x = .panic ∨ ∃ a, x = .ok a ∧ f a = .panic := by
  cases x <;> simp [Res.bind]

theorem Outcome.bind_nofuel {α β : Type} {x : Outcome α} {f : α → Outcome β} :
    x.bind f = .nofuel ↔ x = .nofuel ∨ ∃ a, x = .ok a ∧ f a = .nofuel := by
  cases x <;> simp [Res.bind]

theorem resolve_ok_iff {ti : TypeInformation} {t : UInt32} {v : TypeVariant} :
    (∃ k, resolve ti k t = .ok v) ↔ Resolves ti t v := by
  constructor
  · rintro ⟨k, h⟩
    induction k generalizing t with
    | zero => cases h
    | succ k ih =>
      rcases goes_on_or_ends ti accessAlias t with ⟨w, u, hw, hu⟩ | hend
      · rw [(resolve_follows ti).next k t w u hw hu, Outcome.bind_ok] at h
        obtain ⟨a, h1, h2⟩ := h
        cases h2
        obtain ⟨x, hc, hx⟩ := ih h1
        exact ⟨x, .step hw hu hc, hx⟩
      · rw [(resolve_follows ti).last k t hend] at h
        cases hv : ti.fromId t with
        | none => rw [hv] at h; cases h
        | some w => rw [hv] at h; cases h; exact ⟨t, .refl, hv, hend _ hv⟩
  · rintro ⟨a, hc, hv, hn⟩
    obtain ⟨k, hk⟩ := (resolve_follows ti).pass hc (fun w hw => by rw [hv] at hw; cases hw; exact hn)
    exact ⟨k, by rw [hk, hv]; rfl⟩

theorem resolve_err_iff {ti : TypeInformation} {t : UInt32} {e : ErrorKind} :
    (∃ k, resolve ti k t = .err e) ↔ e = .InvalidTypeID ∧ ∃ a, Chain ti accessAlias t a ∧ ti.fromId a = none := by
  constructor
  · rintro ⟨k, h⟩
    induction k generalizing t with
    | zero => cases h
    | succ k ih =>
      rcases goes_on_or_ends ti accessAlias t with ⟨w, u, hw, hu⟩ | hend
      · rw [(resolve_follows ti).next k t w u hw hu, Outcome.bind_err] at h
        rcases h with h | ⟨a, -, h⟩
        · obtain ⟨he, a, hc, ha⟩ := ih h
          exact ⟨he, a, .step hw hu hc, ha⟩
        · cases h
      · rw [(resolve_follows ti).last k t hend] at h
        cases hv : ti.fromId t with
        | none => rw [hv] at h; cases h; exact ⟨rfl, t, .refl, hv⟩
        | some w => rw [hv] at h; cases h
  · rintro ⟨rfl, a, hc, ha⟩
    exact (resolve_follows ti).leaf_fail hc (fun w hw => by rw [ha] at hw; cases hw) (by rw [ha]; rfl)
      (by simp)

theorem resolve_not_panic {ti : TypeInformation} {t : UInt32} {k : Nat} : resolve ti k t ≠ .panic := by
  induction k generalizing t with
  | zero => simp [resolve]
  | succ k ih =>
    rcases goes_on_or_ends ti accessAlias t with ⟨w, u, hw, hu⟩ | hend
    · rw [(resolve_follows ti).next k t w u hw hu, Ne, Outcome.bind_panic]
      rintro (h | ⟨a, -, h⟩)
      · exact ih h
      · cases h
    · rw [(resolve_follows ti).last k t hend]
      cases ti.fromId t <;> simp [resolveLeaf]

end Btf

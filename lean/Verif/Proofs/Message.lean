import Verif.Model.Message
import Verif.Proofs.OffsetApi

/-!
# Without the messages these are the functions of the model
-/

namespace Btf

open TypeInformation

theorem outcome_bind {α β : Type} (x : Told α) (f : α → Told β) :
    (x.bind f).outcome = x.outcome.bind fun a => (f a).outcome := by cases x <;> rfl

theorem outcome_okOr {α : Type} (x : Option α) (r : Reason) : (Told.okOr x r).outcome = okOr x r.kind := by
  cases x <;> rfl

theorem addU32T_outcome (o : Offset) (n : UInt32) : (o.addU32T n).outcome = o.addU32 n := by
  cases o with
  | byteOffset b => simp only [Offset.addU32T, Offset.addU32, outcome_bind, outcome_okOr]; rfl
  | bitOffsetAndSize _ _ => rfl

theorem addT_outcome (o o' : Offset) : (o.addT o').outcome = o.add o' := by
  cases o <;> cases o' <;> first
    | rfl
    | (simp only [Offset.addT, Offset.add, outcome_bind, outcome_okOr]; rfl)

/-- The iterator without the messages. -/
def forget (x : Told (Option PathComponent) × PathIter) : Outcome (Option PathComponent) × PathIter := (x.1.outcome, x.2)

theorem strSlice_cases (s : Str) (a b : Nat) : (∃ r, strSlice s a b = .ok r) ∨ strSlice s a b = .panic := by
  unfold strSlice; split <;> simp

theorem parseNameT_outcome (it : PathIter) : forget it.parseNameT = it.parseName := by
  rw [PathIter.parseNameT, PathIter.parseName]
  simp only []
  rcases PathIter.scanName (it.path.drop it.position) it.position with ⟨pos, b⟩
  cases b
  · simp only []
    rcases strSlice_cases it.path it.position pos with ⟨r, h⟩ | h <;> rw [h] <;> rfl
  · rfl

theorem parseIndexT_outcome (cfg : Cfg) (it : PathIter) : forget (it.parseIndexT cfg) = it.parseIndex cfg := by
  rw [PathIter.parseIndexT, PathIter.parseIndex]
  rcases PathIter.scanIndex (it.path.drop it.position) it.position with ⟨pos, b⟩
  cases b
  · simp only []
    split
    · rfl
    · rcases strSlice_cases it.path it.position pos with ⟨r, h⟩ | h <;> rw [h]
      · simp only []
        split
        · rfl
        · cases parseUsize cfg r <;> rfl
      · rfl
  · rfl

theorem nextExpectingNameT_outcome (it : PathIter) : forget it.nextExpectingNameT = it.nextExpectingName := by
  rw [PathIter.nextExpectingNameT, PathIter.nextExpectingName]
  cases it.path[it.position]? with
  | none => rfl
  | some c =>
    simp only []
    split
    · exact parseNameT_outcome _
    · rfl

theorem nextT_outcome (cfg : Cfg) (it : PathIter) : forget (it.nextT cfg) = it.next cfg := by
  rw [PathIter.nextT, PathIter.next]
  split
  · rfl
  · cases it.path[it.position]? with
    | none => rfl
    | some c =>
      simp only []
      cases it.state with
      | start =>
        simp only []
        split
        · exact parseIndexT_outcome _ _
        · split
          · exact parseNameT_outcome _
          · rfl
      | insideName => exact parseNameT_outcome _
      | insideIndex => exact parseIndexT_outcome _ _
      | afterIndex =>
        simp only []
        split
        · exact parseIndexT_outcome _ _
        · split
          · split
            · exact nextExpectingNameT_outcome _
            · rfl
          · rfl
      | expectingName => exact nextExpectingNameT_outcome _
      | done => rfl
      | error => rfl

theorem pointeeTidT_outcome (ti : TypeInformation) : ∀ (n : Nat) (t : UInt32),
    (pointeeTidT ti n t).outcome = pointeeTid ti n t
  | 0, _ => rfl
  | n + 1, t => by
    rw [pointeeTidT, pointeeTid]
    cases ti.fromId t with
    | none => rfl
    | some v => cases v <;> first | rfl | exact pointeeTidT_outcome ti n _

theorem pointerSizeT_outcome (ti : TypeInformation) : ti.pointerSizeT.outcome = ti.pointerSize := by
  rw [pointerSizeT, pointerSize, outcome_bind, outcome_okOr]
  cases ti.idOf (str "list_head") with
  | none => rfl
  | some t =>
    simp only [okOr, Res.bind, bind, outcome_bind, outcome_okOr]
    cases ti.fromId t with
    | none => rfl
    | some v => cases v <;> rfl

theorem productT_outcome (cfg : Cfg) (a b : Nat) : (productT cfg a b).outcome = cfg.usizeMul a b := by
  rw [productT]
  unfold Cfg.usizeMul Cfg.wrapOr
  by_cases h1 : a * b < cfg.usizeMod
  · rw [if_pos h1, if_pos h1]; rfl
  · rw [if_neg h1, if_neg h1]
    cases cfg.overflowChecks <;> rfl

theorem sizeOfT_outcome (cfg : Cfg) (ti : TypeInformation) : ∀ (n : Nat) (t : UInt32),
    (sizeOfT cfg ti n t).outcome = TypeInformation.sizeOf cfg ti n t
  | 0, _ => rfl
  | n + 1, t => by
    rw [sizeOfT, TypeInformation.sizeOf]
    cases ti.fromId t with
    | none => rfl
    | some v =>
      cases v with
      | ptr _ _ => exact pointerSizeT_outcome ti
      | array _ d =>
        simp only [outcome_bind, productT_outcome, sizeOfT_outcome cfg ti n]
        rfl
      | _ => first | rfl | exact sizeOfT_outcome cfg ti n _

theorem resolveT_outcome (ti : TypeInformation) : ∀ (n : Nat) (t : UInt32), (resolveT ti n t).outcome = resolve ti n t
  | 0, _ => rfl
  | n + 1, t => by
    rw [resolveT, resolve]
    cases ti.fromId t with
    | none => rfl
    | some v => cases v <;> first | rfl | exact resolveT_outcome ti n _

theorem probeAnonymousT_outcome {p : Offset → UInt32 → Told (UInt32 × Offset)} {q : Offset → UInt32 → Outcome (UInt32 × Offset)}
    (h : ∀ o u, (p o u).outcome = q o u) (offset : Offset) :
    ∀ ms, (probeAnonymousT p offset ms).outcome = probeAnonymous q offset ms
  | [] => rfl
  | m :: rest => by
    rw [probeAnonymousT, probeAnonymous, ← addT_outcome]
    cases m.offset.addT offset with
    | ok start =>
      simp only [Told.outcome]
      rw [← h start m.tid]
      cases p start m.tid with
      | err r => exact probeAnonymousT_outcome h offset rest
      | _ => rfl
    | _ => rfl

theorem stepIndexT_outcome (cfg : Cfg) (ti : TypeInformation) (n : Nat) (offset : Offset) (t : TypeVariant) (i : Nat) :
    (stepIndexT cfg ti n offset t i).outcome = stepIndex cfg ti n offset t i := by
  cases t with
  | array _ d =>
    rw [stepIndexT, stepIndex]
    split
    · rfl
    · simp only [outcome_bind, outcome_okOr, sizeOfT_outcome, addU32T_outcome]
      rfl
  | _ => rfl

theorem offsetOfImplT_outcome (cfg : Cfg) (ti : TypeInformation) : ∀ (n : Nat) (offset : Offset) (t : UInt32) (path : PathIter),
    (offsetOfImplT cfg ti n offset t path).outcome = offsetOfImpl cfg ti n offset t path
  | 0, _, _, _ => rfl
  | n + 1, offset, t, path => by
    have ih := offsetOfImplT_outcome cfg ti n
    rw [offsetOfImplT, offsetOfImpl, ← nextT_outcome]
    rcases path.nextT cfg with ⟨x, path'⟩
    cases x with
    | ok y =>
      cases y with
      | none => rfl
      | some c =>
        show ((resolveT ti n t).bind _).outcome = (resolve ti n t).bind _
        rw [outcome_bind, resolveT_outcome]
        cases resolve ti n t with
        | ok v =>
          simp only [Res.bind]
          by_cases hv : v = .void
          · rw [if_pos hv, if_pos hv]; rfl
          · rw [if_neg hv, if_neg hv]
            cases c with
            | index i =>
              simp only [outcome_bind, stepIndexT_outcome, ih]
              rfl
            | name name =>
              simp only []
              cases memberListOf v with
              | none => rfl
              | some ms =>
                simp only [outcome_bind]
                rw [probeAnonymousT_outcome (fun o u => ih o u path)]
                cases probeAnonymous (fun o u => offsetOfImpl cfg ti n o u path) offset (ms.filter fun m => m.name.isNone) with
                | ok a =>
                  cases a with
                  | some r => rfl
                  | none =>
                    simp only [Res.bind]
                    cases ms.find? (fun m => m.name = some name) with
                    | none => rfl
                    | some m =>
                      simp only [outcome_bind, addT_outcome, ih]
                      rfl
                | _ => rfl
        | _ => rfl
    | _ => rfl

end Btf

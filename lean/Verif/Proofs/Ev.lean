import Verif.Proofs.OffsetSem
import Verif.Spec.WellFormed
import Mathlib.Data.Fintype.Card
import Mathlib.Data.Fintype.EquivFin

/-!
# Eventual values and termination of `offset_of`
-/

namespace Btf

open Spec TypeInformation Props

/-- The value for all large enough bounds. -/
def Ev {α : Type} (f : Nat → Outcome α) (o : Outcome α) : Prop := ∃ N, ∀ n, N ≤ n → f n = o

theorem ev_of_returns {α : Type} {f : Nat → Outcome α} (hm : FuelMono f) {o : Outcome α} (h : Returns f o) :
    Ev f o := by
  obtain ⟨hne, N, rfl⟩ := h
  exact ⟨N, fun n hn => hm.le hn hne⟩

theorem returns_of_ev {α : Type} {f : Nat → Outcome α} {o : Outcome α} (hne : o ≠ .nofuel) (h : Ev f o) :
    Returns f o := by
  obtain ⟨N, h⟩ := h
  exact ⟨hne, N, h N (Nat.le_refl _)⟩

theorem ev_of_eq {α : Type} {f : Nat → Outcome α} (hm : FuelMono f) {n : Nat} {o : Outcome α}
    (h : f n = o) (hne : o ≠ .nofuel) : Ev f o := ev_of_returns hm ⟨hne, n, h⟩

theorem ev_const {α : Type} (o : Outcome α) : Ev (fun _ => o) o := ⟨0, fun _ _ => rfl⟩

theorem ev_unique {α : Type} {f : Nat → Outcome α} {o o' : Outcome α} (h : Ev f o) (h' : Ev f o') : o = o' := by
  obtain ⟨N, h⟩ := h
  obtain ⟨M, h'⟩ := h'
  rw [← h (max N M) (by omega), ← h' (max N M) (by omega)]

theorem ev_congr {α : Type} {f g : Nat → Outcome α} {o : Outcome α} (he : Ev f o)
    (h : ∀ n, g (n + 1) = f n) : Ev g o := by
  obtain ⟨N, he⟩ := he
  refine ⟨N + 1, fun n hn => ?_⟩
  beta_reduce at *
  obtain ⟨m, rfl⟩ : ∃ m, n = m + 1 := ⟨n - 1, by omega⟩
  rw [h]; exact he m (by omega)

theorem ev_pred {α : Type} {f g : Nat → Outcome α} {o : Outcome α} (he : Ev g o)
    (h : ∀ n, g (n + 1) = f n) : Ev f o := by
  obtain ⟨N, he⟩ := he
  exact ⟨N, fun n hn => by rw [← h]; exact he _ (by omega)⟩

theorem ev_bind {α β : Type} {f : Nat → Outcome α} {g : Nat → α → Outcome β} {a : α} {o : Outcome β}
    (hf : Ev f (.ok a)) (hg : Ev (fun n => g n a) o) : Ev (fun n => (f n).bind (g n)) o := by
  obtain ⟨N, hf⟩ := hf
  obtain ⟨M, hg⟩ := hg
  refine ⟨max N M, fun n hn => ?_⟩
  beta_reduce at *
  rw [hf n (by omega)]
  exact hg n (by omega)

theorem ev_bind_err {α β : Type} {f : Nat → Outcome α} {g : Nat → α → Outcome β} {e : ErrorKind}
    (hf : Ev f (.err e)) : Ev (fun n => (f n).bind (g n)) (.err e) := by
  obtain ⟨N, hf⟩ := hf
  exact ⟨N, fun n hn => by beta_reduce; rw [hf n hn]; rfl⟩

theorem ev_bind_panic {α β : Type} {f : Nat → Outcome α} {g : Nat → α → Outcome β}
    (hf : Ev f .panic) : Ev (fun n => (f n).bind (g n)) .panic := by
  obtain ⟨N, hf⟩ := hf
  exact ⟨N, fun n hn => by beta_reduce; rw [hf n hn]; rfl⟩

/-- It eventually has a value. -/
def Settles {α : Type} (f : Nat → Outcome α) : Prop := ∃ o, o ≠ .nofuel ∧ Ev f o

theorem settles_bind {α β : Type} {f : Nat → Outcome α} {g : Nat → α → Outcome β}
    (hf : Settles f) (hg : ∀ a, Ev f (.ok a) → Settles (fun n => g n a)) :
    Settles (fun n => (f n).bind (g n)) := by
  obtain ⟨o, hne, hf⟩ := hf
  cases o with
  | ok a => obtain ⟨o', hne', h'⟩ := hg a hf; exact ⟨o', hne', ev_bind hf h'⟩
  | err e => exact ⟨.err e, by simp, ev_bind_err hf⟩
  | panic => exact ⟨.panic, by simp, ev_bind_panic hf⟩
  | nofuel => exact absurd rfl hne

theorem settles_const {α : Type} {o : Outcome α} (h : o ≠ .nofuel) : Settles (fun _ => o) := ⟨o, h, ev_const o⟩

theorem settles_of_returns {α : Type} {f : Nat → Outcome α} (hm : FuelMono f) {o : Outcome α} (h : Returns f o) :
    Settles f := ⟨o, h.1, ev_of_returns hm h⟩

/-! ### Probing the anonymous members -/

section
variable {p : Nat → Offset → UInt32 → Outcome (UInt32 × Offset)} {offset : Offset}

theorem ev_probe_none {ms : List Member}
    (h : ∀ m ∈ ms, ∃ start e, m.offset.add offset = .ok start ∧ Ev (fun n => p n start m.tid) (.err e)) :
    Ev (fun n => probeAnonymous (p n) offset ms) (.ok none) := by
  induction ms with
  | nil => exact ev_const _
  | cons m rest ih =>
    obtain ⟨start, e, ha, N, hN⟩ := h m (by simp)
    obtain ⟨M, hM⟩ := ih (fun m' hm' => h m' (by simp [hm']))
    refine ⟨max N M, fun n hn => ?_⟩
    beta_reduce at *
    rw [probeAnonymous, ha]
    simp only []
    rw [hN n (by omega)]
    exact hM n (by omega)

theorem ev_probe_some {pre post : List Member} {m : Member} {start : Offset} {r : UInt32 × Offset}
    (h : ∀ m ∈ pre, ∃ start e, m.offset.add offset = .ok start ∧ Ev (fun n => p n start m.tid) (.err e))
    (ha : m.offset.add offset = .ok start) (hm : Ev (fun n => p n start m.tid) (.ok r)) :
    Ev (fun n => probeAnonymous (p n) offset (pre ++ m :: post)) (.ok (some r)) := by
  induction pre with
  | nil =>
    obtain ⟨N, hN⟩ := hm
    refine ⟨N, fun n hn => ?_⟩
    beta_reduce at *
    rw [List.nil_append, probeAnonymous, ha]
    simp only []
    rw [hN n hn]
  | cons m' rest ih =>
    obtain ⟨start', e, ha', N, hN⟩ := h m' (by simp)
    obtain ⟨M, hM⟩ := ih (fun m'' hm'' => h m'' (by simp [hm'']))
    refine ⟨max N M, fun n hn => ?_⟩
    beta_reduce at *
    rw [List.cons_append, probeAnonymous, ha']
    simp only []
    rw [hN n (by omega)]
    exact hM n (by omega)

/-- A hard error: the offset of the first anonymous member cannot be added. -/
theorem ev_probe_err {pre post : List Member} {m : Member} {e : ErrorKind}
    (h : ∀ m ∈ pre, ∃ start e, m.offset.add offset = .ok start ∧ Ev (fun n => p n start m.tid) (.err e))
    (ha : m.offset.add offset = .err e) :
    Ev (fun n => probeAnonymous (p n) offset (pre ++ m :: post)) (.err e) := by
  induction pre with
  | nil =>
    refine ⟨0, fun n _ => ?_⟩
    beta_reduce at *
    rw [List.nil_append, probeAnonymous, ha]
    rfl
  | cons m' rest ih =>
    obtain ⟨start', e', ha', N, hN⟩ := h m' (by simp)
    obtain ⟨M, hM⟩ := ih (fun m'' hm'' => h m'' (by simp [hm'']))
    refine ⟨max N M, fun n hn => ?_⟩
    beta_reduce at *
    rw [List.cons_append, probeAnonymous, ha']
    simp only []
    rw [hN n (by omega)]
    exact hM n (by omega)

theorem settles_probe {ms : List Member}
    (h : ∀ m ∈ ms, ∀ start, m.offset.add offset = .ok start → Settles (fun n => p n start m.tid)) :
    Settles (fun n => probeAnonymous (p n) offset ms) := by
  induction ms with
  | nil => exact settles_const (by simp)
  | cons m rest ih =>
    rcases add_returns m.offset offset with ⟨start, ha⟩ | ⟨e, ha⟩
    · obtain ⟨o, hne, hN⟩ := h m (by simp) start ha
      obtain ⟨o', hne', hM⟩ := ih (fun m' hm' => h m' (by simp [hm']))
      obtain ⟨N, hN⟩ := hN
      obtain ⟨M, hM⟩ := hM
      cases o with
      | ok r =>
        exact ⟨.ok (some r), by simp, N, fun n hn => by
          beta_reduce at *; rw [probeAnonymous, ha]; simp only []; rw [hN n hn]⟩
      | panic =>
        exact ⟨.panic, by simp, N, fun n hn => by
          beta_reduce at *; rw [probeAnonymous, ha]; simp only []; rw [hN n hn]⟩
      | nofuel => exact absurd rfl hne
      | err e =>
        exact ⟨o', hne', max N M, fun n hn => by
          beta_reduce at *; rw [probeAnonymous, ha]; simp only []; rw [hN n (by omega)]; exact hM n (by omega)⟩
    · exact ⟨.err e, by simp, 0, fun n _ => by beta_reduce; rw [probeAnonymous, ha]; rfl⟩
end

/-! ### The step function without fuel -/

/-- One component, with the recursion abstracted (`impl` is this at each level). -/
theorem impl_succ (cfg : Cfg) (ti : TypeInformation) (clean : Bool) (n : Nat) (offset : Offset) (t : UInt32)
    (c : PathComponent) (cs : List PathComponent) :
    impl cfg ti clean (n + 1) offset t (c :: cs) =
    (resolve ti n t).bind fun v =>
      if v = .void then .err .InvalidTypePath
      else
        match c with
        | .index index =>
          (stepIndex cfg ti n offset v index).bind fun r => impl cfg ti clean n r.2 r.1 cs
        | .name name =>
          match memberListOf v with
          | none => .err .InvalidTypePath
          | some members =>
            (probeAnonymous (fun o u => impl cfg ti clean n o u (.name name :: cs)) offset
              (members.filter (fun m => m.name.isNone))).bind fun anon =>
            match anon with
            | some r => .ok r
            | none =>
              match members.find? (fun m => m.name = some name) with
              | some m => (offset.add m.offset).bind fun o => impl cfg ti clean n o m.tid cs
              | none => .err .InvalidTypePath := by
  rw [impl]; rfl

section
variable {cfg : Cfg} {ti : TypeInformation} {clean : Bool} {offset : Offset} {t : UInt32}
  {cs : List PathComponent}

theorem ev_resolve {v : TypeVariant} (h : Resolves ti t v) : Ev (fun n => resolve ti n t) (.ok v) := by
  obtain ⟨k, hk⟩ := resolve_ok_iff.2 h
  exact ev_of_eq (resolve_mono ti t) hk (by simp)

theorem resolves_of_ev {v : TypeVariant} (h : Ev (fun n => resolve ti n t) (.ok v)) : Resolves ti t v := by
  obtain ⟨N, h⟩ := h
  exact resolve_ok_iff.1 ⟨N, h N (Nat.le_refl _)⟩

theorem ev_impl_nil : Ev (fun n => impl cfg ti clean n offset t [])
    (if clean then .ok (t, offset) else .err .InvalidTypePath) :=
  ⟨1, fun n hn => by obtain ⟨m, rfl⟩ : ∃ m, n = m + 1 := ⟨n - 1, by omega⟩; rfl⟩

theorem ev_impl_resolve_err {e : ErrorKind} {c : PathComponent} (h : Ev (fun n => resolve ti n t) (.err e)) :
    Ev (fun n => impl cfg ti clean n offset t (c :: cs)) (.err e) := by
  refine ev_congr ?_ (fun n => impl_succ cfg ti clean n offset t c cs)
  exact ev_bind_err h

theorem ev_impl_void {c : PathComponent} (h : Resolves ti t .void) :
    Ev (fun n => impl cfg ti clean n offset t (c :: cs)) (.err .InvalidTypePath) := by
  refine ev_congr ?_ (fun n => impl_succ cfg ti clean n offset t c cs)
  refine ev_bind (ev_resolve h) ?_
  simp only [if_true]
  exact ev_const _

theorem ev_impl_index {v : TypeVariant} {i : Nat} {x : UInt32 × Offset} {o : Outcome (UInt32 × Offset)}
    (hv : Resolves ti t v) (hx : Ev (fun n => stepIndex cfg ti n offset v i) (.ok x))
    (h : Ev (fun n => impl cfg ti clean n x.2 x.1 cs) o) :
    Ev (fun n => impl cfg ti clean n offset t (.index i :: cs)) o := by
  refine ev_congr ?_ (fun n => impl_succ cfg ti clean n offset t _ cs)
  refine ev_bind (ev_resolve hv) ?_
  have hnv : v ≠ .void := by
    rintro rfl
    obtain ⟨N, hx⟩ := hx
    have := hx N (Nat.le_refl _)
    cases this
  simp only [if_neg hnv]
  exact ev_bind hx h

theorem ev_impl_index_err {v : TypeVariant} {i : Nat} {e : ErrorKind}
    (hv : Resolves ti t v) (hnv : v ≠ .void) (hx : Ev (fun n => stepIndex cfg ti n offset v i) (.err e)) :
    Ev (fun n => impl cfg ti clean n offset t (.index i :: cs)) (.err e) := by
  refine ev_congr ?_ (fun n => impl_succ cfg ti clean n offset t _ cs)
  refine ev_bind (ev_resolve hv) ?_
  simp only [if_neg hnv]
  exact ev_bind_err hx

theorem ev_impl_name_scalar {v : TypeVariant} {name : Str} (hv : Resolves ti t v) (hm : membersOf v = none) :
    Ev (fun n => impl cfg ti clean n offset t (.name name :: cs)) (.err .InvalidTypePath) := by
  refine ev_congr ?_ (fun n => impl_succ cfg ti clean n offset t _ cs)
  refine ev_bind (ev_resolve hv) ?_
  have : memberListOf v = none := by rw [memberListOf_eq]; exact hm
  simp only [this]
  split <;> exact ev_const _

theorem members_ne_void {v : TypeVariant} {ms : List Member} (hm : membersOf v = some ms) : v ≠ .void := by
  rintro rfl; cases hm

theorem ev_impl_anon {v : TypeVariant} {ms : List Member} {name : Str} {r : UInt32 × Offset}
    (hv : Resolves ti t v) (hm : membersOf v = some ms)
    (hp : Ev (fun n => probeAnonymous (fun o u => impl cfg ti clean n o u (.name name :: cs)) offset
      (ms.filter (fun m => m.name.isNone))) (.ok (some r))) :
    Ev (fun n => impl cfg ti clean n offset t (.name name :: cs)) (.ok r) := by
  refine ev_congr ?_ (fun n => impl_succ cfg ti clean n offset t _ cs)
  refine ev_bind (ev_resolve hv) ?_
  have hml : memberListOf v = some ms := by rw [memberListOf_eq]; exact hm
  simp only [if_neg (members_ne_void hm), hml]
  exact ev_bind hp (ev_const _)

theorem ev_impl_anon_err {v : TypeVariant} {ms : List Member} {name : Str} {e : ErrorKind}
    (hv : Resolves ti t v) (hm : membersOf v = some ms)
    (hp : Ev (fun n => probeAnonymous (fun o u => impl cfg ti clean n o u (.name name :: cs)) offset
      (ms.filter (fun m => m.name.isNone))) (.err e)) :
    Ev (fun n => impl cfg ti clean n offset t (.name name :: cs)) (.err e) := by
  refine ev_congr ?_ (fun n => impl_succ cfg ti clean n offset t _ cs)
  refine ev_bind (ev_resolve hv) ?_
  have hml : memberListOf v = some ms := by rw [memberListOf_eq]; exact hm
  simp only [if_neg (members_ne_void hm), hml]
  exact ev_bind_err hp

theorem ev_impl_named {v : TypeVariant} {ms : List Member} {name : Str} {m : Member} {o' : Offset}
    {o : Outcome (UInt32 × Offset)}
    (hv : Resolves ti t v) (hm : membersOf v = some ms)
    (hp : Ev (fun n => probeAnonymous (fun o u => impl cfg ti clean n o u (.name name :: cs)) offset
      (ms.filter (fun m => m.name.isNone))) (.ok none))
    (hf : ms.find? (fun m => m.name = some name) = some m) (ha : offset.add m.offset = .ok o')
    (h : Ev (fun n => impl cfg ti clean n o' m.tid cs) o) :
    Ev (fun n => impl cfg ti clean n offset t (.name name :: cs)) o := by
  refine ev_congr ?_ (fun n => impl_succ cfg ti clean n offset t _ cs)
  refine ev_bind (ev_resolve hv) ?_
  have hml : memberListOf v = some ms := by rw [memberListOf_eq]; exact hm
  simp only [if_neg (members_ne_void hm), hml]
  refine ev_bind hp ?_
  simp only [hf, ha]
  exact h

theorem ev_impl_not_found {v : TypeVariant} {ms : List Member} {name : Str}
    (hv : Resolves ti t v) (hm : membersOf v = some ms)
    (hp : Ev (fun n => probeAnonymous (fun o u => impl cfg ti clean n o u (.name name :: cs)) offset
      (ms.filter (fun m => m.name.isNone))) (.ok none))
    (hf : ms.find? (fun m => m.name = some name) = none) :
    Ev (fun n => impl cfg ti clean n offset t (.name name :: cs)) (.err .InvalidTypePath) := by
  refine ev_congr ?_ (fun n => impl_succ cfg ti clean n offset t _ cs)
  refine ev_bind (ev_resolve hv) ?_
  have hml : memberListOf v = some ms := by rw [memberListOf_eq]; exact hm
  simp only [if_neg (members_ne_void hm), hml]
  refine ev_bind hp ?_
  simp only [hf]
  exact ev_const _

end

/-! ### Termination -/

theorem acyclic_wf {ti : TypeInformation} (h : Acyclic ti) :
    WellFounded (fun u t => Relation.TransGen (Depends ti) t u) := by
  have : Finite UInt32 := Finite.of_injective UInt32.toFin (fun a b h => UInt32.toFin_inj.1 h)
  have : IsTrans UInt32 (fun u t => Relation.TransGen (Depends ti) t u) :=
    ⟨fun a b c h1 h2 => Relation.TransGen.trans h2 h1⟩
  have : Std.Irrefl (fun u t => Relation.TransGen (Depends ti) t u) := ⟨fun a ha => h a ha⟩
  exact Finite.wellFounded_of_trans_of_irrefl _

theorem acyclic_not_endless {ti : TypeInformation} (h : Acyclic ti) {ref : TypeVariant → Option UInt32}
    (href : ∀ t v u, ti.fromId t = some v → ref v = some u → Depends ti t u) (t : UInt32) :
    ¬ Endless ti ref t := by
  induction t using (acyclic_wf h).induction with
  | _ t ih =>
    intro hE
    obtain ⟨v, w, hv, hw⟩ := hE t .refl
    exact ih w (.single (href t v w hv hw)) (fun u hu => hE u (.step hv hw hu))

theorem sizeOf_settles (cfg : Cfg) {ti : TypeInformation} (h : Acyclic ti) (t : UInt32) :
    Settles (fun n => TypeInformation.sizeOf cfg ti n t) := by
  rcases returns_or_diverges (fun k => TypeInformation.sizeOf cfg ti k t) with ⟨o, ho⟩ | hd
  · exact settles_of_returns (sizeOf_mono cfg ti t) ho
  · exact absurd (((sizeOf_follows cfg ti).diverges_iff (sizeLeaf_ne_nofuel ti) (sizePost_ne_nofuel cfg) t).1 hd)
      (acyclic_not_endless h (fun t v u hv hu => .size hv hu) t)

theorem resolve_settles {ti : TypeInformation} (h : Acyclic ti) (t : UInt32) :
    Settles (fun n => resolve ti n t) := by
  rcases returns_or_diverges (fun k => resolve ti k t) with ⟨o, ho⟩ | hd
  · exact settles_of_returns (resolve_mono ti t) ho
  · exact absurd (((resolve_follows ti).diverges_iff resolveLeaf_ne_nofuel (by simp) t).1 hd)
      (acyclic_not_endless h (fun t v u hv hu => .alias hv hu) t)

theorem chain_depends {ti : TypeInformation} {t a : UInt32} (h : Chain ti accessAlias t a) :
    Relation.ReflTransGen (Depends ti) t a := by
  induction h with
  | refl => exact .refl
  | step hv hu _ ih => exact .head (.alias hv hu) ih

theorem settles_succ {α : Type} {f g : Nat → Outcome α} (hs : Settles f) (h : ∀ n, g (n + 1) = f n) :
    Settles g := let ⟨o, hne, ho⟩ := hs; ⟨o, hne, ev_congr ho h⟩

theorem stepIndex_settles (cfg : Cfg) {ti : TypeInformation} (h : Acyclic ti) (offset : Offset) (v : TypeVariant)
    (i : Nat) : Settles (fun n => stepIndex cfg ti n offset v i) := by
  cases v
  case array hd d =>
    simp only [stepIndex]
    by_cases hi : i ≥ d.elementCount.toNat
    · simp only [if_pos hi]; exact settles_const (by simp [offsetErr])
    · simp only [if_neg hi]
      refine settles_bind (sizeOf_settles cfg h d.elementTid) (fun s _ => ?_)
      show Settles (fun _ => Res.bind _ _)
      apply settles_const
      rw [Ne, Outcome.bind_nofuel]
      rintro (h | ⟨k, -, h⟩)
      · unfold okOr at h; split at h <;> cases h
      · change Res.bind _ _ = _ at h
        rw [Outcome.bind_nofuel] at h
        rcases h with h | ⟨o, -, h⟩
        · exact addU32_not_nofuel _ _ h
        · cases h
  all_goals exact settles_const (by simp)

/-- On an acyclic type graph every lookup ends. -/
theorem impl_settles (cfg : Cfg) {ti : TypeInformation} (h : Acyclic ti) (clean : Bool)
    (cs : List PathComponent) : ∀ (t : UInt32) (offset : Offset),
    Settles (fun n => impl cfg ti clean n offset t cs) := by
  induction cs with
  | nil =>
    intro t offset
    refine ⟨_, ?_, ev_impl_nil⟩
    split <;> simp
  | cons c cs ihcs =>
    intro t
    induction t using (acyclic_wf h).induction with
    | _ t ih =>
      intro offset
      refine settles_succ ?_ (fun n => impl_succ cfg ti clean n offset t c cs)
      refine settles_bind (resolve_settles h t) (fun v hv => ?_)
      obtain ⟨a, hc, ha, -⟩ := resolves_of_ev hv
      by_cases hnv : v = .void
      · simp only [if_pos hnv]; exact settles_const (by simp)
      · simp only [if_neg hnv]
        cases c with
        | index i =>
          simp only []
          exact settles_bind (stepIndex_settles cfg h offset v i) (fun x _ => ihcs _ _)
        | name name =>
          simp only []
          cases hm : memberListOf v with
          | none => exact settles_const (by simp)
          | some ms =>
            simp only []
            refine settles_bind (settles_probe ?_) ?_
            · intro m hmem start _
              rw [List.mem_filter] at hmem
              refine ih m.tid ?_ start
              refine Relation.TransGen.tail' (chain_depends hc) (.anonymous ha ?_ hmem.1 (by simpa using hmem.2))
              rw [← memberListOf_eq]; exact hm
            · intro anon _
              cases anon with
              | some r => exact settles_const (by simp)
              | none =>
                simp only []
                cases hf : ms.find? (fun m => m.name = some name) with
                | none => exact settles_const (by simp)
                | some m =>
                  simp only []
                  exact settles_bind (settles_const (add_not_nofuel _ _)) (fun o _ => ihcs _ _)

end Btf

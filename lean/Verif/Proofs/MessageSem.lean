import Verif.Proofs.Message
import Verif.Spec.Message

/-!
# What the reasons mean: sizes, pointees, lookups
-/

namespace Btf

open Spec TypeInformation

theorem Told.bind_err {α β : Type} {x : Told α} {f : α → Told β} {r : Reason} :
    x.bind f = .err r ↔ x = .err r ∨ ∃ a, x = .ok a ∧ f a = .err r := by
  cases x <;> simp [Told.bind]

theorem Told.okOr_err {α : Type} {x : Option α} {r r' : Reason} : Told.okOr x r = .err r' ↔ x = none ∧ r = r' := by
  cases x <;> simp [Told.okOr]

theorem Told.okOr_ok {α : Type} {x : Option α} {r : Reason} {a : α} : Told.okOr x r = .ok a ↔ x = some a := by
  cases x <;> simp [Told.okOr]

theorem Told.outcome_ok {α : Type} {x : Told α} {a : α} : x.outcome = .ok a ↔ x = .ok a := by
  cases x <;> simp [Told.outcome]

theorem productT_not_err (cfg : Cfg) (a b : Nat) (r : Reason) : productT cfg a b ≠ .err r := by
  unfold productT; split <;> simp

theorem pointerSizeT_err {ti : TypeInformation} {t : UInt32} {v : TypeVariant} {r : Reason} (hf : ti.fromId t = some v)
    (hp : IsPtr v) (h : ti.pointerSizeT = .err r) : SizeReason ti t r := by
  unfold pointerSizeT at h
  rcases Told.bind_err.1 h with h | ⟨l, hl, h⟩
  · obtain ⟨h', rfl⟩ := Told.okOr_err.1 h
    exact .noListHead .refl hf hp h'
  · replace hl := Told.okOr_ok.1 hl
    rcases Told.bind_err.1 h with h | ⟨w, hw, h⟩
    · obtain ⟨h', rfl⟩ := Told.okOr_err.1 h
      exact .danglingListHead .refl hf hp hl h'
    · replace hw := Told.okOr_ok.1 hw
      have : r = .listHeadNotStruct ∧ ∀ hd d, w ≠ .struct hd d := by
        cases w <;> first | (cases h; done) | (injection h with h; exact ⟨h.symm, by simp⟩)
      obtain ⟨rfl, hw'⟩ := this
      exact .otherListHead .refl hf hp hl hw hw'

theorem sizeReason_step {ti : TypeInformation} {t u : UInt32} {v : TypeVariant} {r : Reason} (hf : ti.fromId t = some v)
    (hr : sizeRef v = some u) (h : SizeReason ti u r) : SizeReason ti t r := by
  cases h with
  | missing h h1 => exact .missing (.step hf hr h) h1
  | unsized h h1 h2 => exact .unsized (.step hf hr h) h1 h2
  | noListHead h h1 h2 h3 => exact .noListHead (.step hf hr h) h1 h2 h3
  | danglingListHead h h1 h2 h3 h4 => exact .danglingListHead (.step hf hr h) h1 h2 h3 h4
  | otherListHead h h1 h2 h3 h4 h5 => exact .otherListHead (.step hf hr h) h1 h2 h3 h4 h5

theorem sizeOfT_err {cfg : Cfg} {ti : TypeInformation} : ∀ {n : Nat} {t : UInt32} {r : Reason},
    sizeOfT cfg ti n t = .err r → SizeReason ti t r
  | 0, _, _, h => by cases h
  | n + 1, t, r, h => by
    rw [sizeOfT] at h
    cases hf : ti.fromId t with
    | none => rw [hf] at h; injection h with h; subst h; exact .missing .refl hf
    | some v =>
      rw [hf] at h
      cases v with
      | ptr _ _ => exact pointerSizeT_err hf trivial h
      | array _ d =>
        rcases Told.bind_err.1 h with h | ⟨a, _, h⟩
        · exact sizeReason_step hf rfl (sizeOfT_err h)
        · exact absurd h (productT_not_err _ _ _ _)
      | _ => first
        | (cases h; done)
        | exact sizeReason_step hf rfl (sizeOfT_err h)
        | (injection h with h; subst h; exact .unsized .refl hf trivial)

theorem sizeOfT_chain {cfg : Cfg} {ti : TypeInformation} {t a : UInt32} {r : Reason} (h : Chain ti sizeRef t a) :
    (∃ n, sizeOfT cfg ti n a = .err r) → ∃ n, sizeOfT cfg ti n t = .err r := by
  induction h with
  | refl => exact id
  | @step t v u w hf hr _ ih =>
    intro h
    obtain ⟨n, hn⟩ := ih h
    refine ⟨n + 1, ?_⟩
    rw [sizeOfT, hf]
    cases v <;> first
      | (injection hr with hr; subst hr; exact hn)
      | (injection hr with hr; subst hr; simp only [hn]; rfl)
      | cases hr

/-- The reason given by `size_of` is the reason for which there is no size. -/
theorem sizeOfT_err_iff {cfg : Cfg} {ti : TypeInformation} {t : UInt32} {r : Reason} :
    (∃ n, sizeOfT cfg ti n t = .err r) ↔ SizeReason ti t r := by
  refine ⟨fun ⟨n, h⟩ => sizeOfT_err h, fun h => ?_⟩
  have ptr : ∀ {a v}, ti.fromId a = some v → IsPtr v → ∀ x, ti.pointerSizeT = x → sizeOfT cfg ti 1 a = x := by
    intro a v hf hp x hx
    rw [sizeOfT, hf]
    cases v <;> first | exact hx | exact hp.elim
  cases h with
  | missing h h1 => exact sizeOfT_chain h ⟨1, by rw [sizeOfT, h1]⟩
  | unsized h h1 h2 =>
    refine sizeOfT_chain h ⟨1, ?_⟩
    rename_i v
    rw [sizeOfT, h1]
    cases v <;> first | rfl | exact h2.elim
  | noListHead h h1 h2 h3 => exact sizeOfT_chain h ⟨1, ptr h1 h2 _ (by rw [pointerSizeT, h3]; rfl)⟩
  | danglingListHead h h1 h2 h3 h4 =>
    exact sizeOfT_chain h ⟨1, ptr h1 h2 _ (by rw [pointerSizeT, h3]; simp only [Told.okOr, Told.bind, h4])⟩
  | otherListHead h h1 h2 h3 h4 h5 =>
    refine sizeOfT_chain h ⟨1, ptr h1 h2 _ ?_⟩
    rename_i w
    rw [pointerSizeT, h3]
    simp only [Told.okOr, Told.bind, h4]

theorem pointeeReason_step {ti : TypeInformation} {t u : UInt32} {v : TypeVariant} {r : Reason} (hf : ti.fromId t = some v)
    (hr : aliasOf v = some u) (h : PointeeReason ti u r) : PointeeReason ti t r := by
  cases h with
  | missing h h1 => exact .missing (.step hf hr h) h1
  | other h h1 h2 h3 => exact .other (.step hf hr h) h1 h2 h3

theorem pointeeTidT_err {ti : TypeInformation} : ∀ {n : Nat} {t : UInt32} {r : Reason},
    pointeeTidT ti n t = .err r → PointeeReason ti t r
  | 0, _, _, h => by cases h
  | n + 1, t, r, h => by
    rw [pointeeTidT] at h
    cases hf : ti.fromId t with
    | none => rw [hf] at h; injection h with h; subst h; exact .missing .refl hf
    | some v =>
      rw [hf] at h
      cases v <;> first
        | (cases h; done)
        | exact pointeeReason_step hf rfl (pointeeTidT_err h)
        | (injection h with h; subst h; exact .other .refl hf rfl id)

theorem pointeeTidT_chain {ti : TypeInformation} {t a : UInt32} {r : Reason} (h : Chain ti aliasOf t a) :
    (∃ n, pointeeTidT ti n a = .err r) → ∃ n, pointeeTidT ti n t = .err r := by
  induction h with
  | refl => exact id
  | @step t v u w hf hr _ ih =>
    intro h
    obtain ⟨n, hn⟩ := ih h
    refine ⟨n + 1, ?_⟩
    rw [pointeeTidT, hf]
    cases v <;> first
      | (injection hr with hr; subst hr; exact hn)
      | cases hr

/-- The reason given by `pointee_tid` is the reason for which there is no pointee. -/
theorem pointeeTidT_err_iff {ti : TypeInformation} {t : UInt32} {r : Reason} :
    (∃ n, pointeeTidT ti n t = .err r) ↔ PointeeReason ti t r := by
  refine ⟨fun ⟨n, h⟩ => pointeeTidT_err h, fun h => ?_⟩
  cases h with
  | missing h h1 => exact pointeeTidT_chain h ⟨1, by rw [pointeeTidT, h1]⟩
  | other h h1 h2 h3 =>
    refine pointeeTidT_chain h ⟨1, ?_⟩
    rename_i v
    rw [pointeeTidT, h1]
    cases v <;> first | rfl | (cases h2; done) | exact absurd trivial h3

theorem resolveT_ok {ti : TypeInformation} {n : Nat} {t : UInt32} {v : TypeVariant} (h : resolveT ti n t = .ok v) :
    Resolves ti t v := resolve_ok_iff.1 ⟨n, by rw [← resolveT_outcome, h]; rfl⟩

theorem resolveT_err {ti : TypeInformation} {n : Nat} {t : UInt32} {r : Reason} (h : resolveT ti n t = .err r) :
    r = .invalidTypeId ∧ ∃ a, Chain ti accessAlias t a ∧ ti.fromId a = none := by
  have h1 := (resolve_err_iff (ti := ti) (t := t) (e := r.kind)).1 ⟨n, by rw [← resolveT_outcome, h]; rfl⟩
  refine ⟨?_, h1.2⟩
  clear h1
  induction n generalizing t with
  | zero => cases h
  | succ n ih =>
    rw [resolveT] at h
    cases hf : ti.fromId t with
    | none => rw [hf] at h; injection h with h; exact h.symm
    | some v => rw [hf] at h; cases v <;> first | exact ih h | cases h

theorem addT_err_iff {a b : Offset} {r : Reason} :
    a.addT b = .err r ↔ AddReason (bitPos a) (bitWidth a) (bitPos b) (bitWidth b) r := by
  cases a <;> cases b
  · rename_i a b
    unfold Offset.addT
    simp only [bitPos, bitWidth]
    constructor
    · intro h
      rcases Told.bind_err.1 h with h | ⟨_, _, h⟩
      · obtain ⟨h', rfl⟩ := Told.okOr_err.1 h
        rw [u32CheckedAdd_eq_none] at h'
        exact .bytes (by omega)
      · cases h
    · rintro ⟨h⟩
      exact Told.bind_err.2 (.inl (Told.okOr_err.2 ⟨u32CheckedAdd_eq_none.2 (by omega), rfl⟩))
  · rename_i a b w
    unfold Offset.addT
    simp only [bitPos, bitWidth]
    constructor
    · intro h
      rcases Told.bind_err.1 h with h | ⟨m, hm, h⟩
      · obtain ⟨h', rfl⟩ := Told.okOr_err.1 h
        rw [u32CheckedMul_eq_none] at h'
        simp at h'
        exact .left (by omega)
      · rcases Told.bind_err.1 h with h | ⟨_, _, h⟩
        · obtain ⟨h', rfl⟩ := Told.okOr_err.1 h
          rw [u32CheckedAdd_eq_none] at h'
          have := u32CheckedMul_eq_some.1 (Told.okOr_ok.1 hm)
          have := m.toNat_lt
          simp at *
          exact .sum (by omega) (by omega)
        · cases h
    · intro h
      cases h with
      | left h => exact Told.bind_err.2 (.inl (Told.okOr_err.2 ⟨u32CheckedMul_eq_none.2 (by simp; omega), rfl⟩))
      | sum h h' =>
        refine Told.bind_err.2 (.inr ⟨UInt32.ofNat (8 * a.toNat), Told.okOr_ok.2 (u32CheckedMul_eq_some.2 ?_), ?_⟩)
        · simp; omega
        · exact Told.bind_err.2 (.inl (Told.okOr_err.2 ⟨u32CheckedAdd_eq_none.2 (by simp; omega), rfl⟩))
  all_goals
    constructor
    · intro h; injection h with h; subst h; exact .bitfield
    · rintro ⟨⟩; rfl

theorem addU32T_err_iff {a : Offset} {b : UInt32} {r : Reason} :
    a.addU32T b = .err r ↔ AddReason (bitPos a) (bitWidth a) (8 * b.toNat) none r := by
  rw [show a.addU32T b = a.addT (.byteOffset b) by cases a <;> rfl]
  exact addT_err_iff

theorem addT_ok {a b c : Offset} (h : a.addT b = .ok c) :
    bitWidth a = none ∧ bitPos c = bitPos a + bitPos b ∧ bitWidth c = bitWidth b := by
  obtain ⟨h1, h2, h3⟩ := (Props.offset_add_ok a b c).1 (show a.add b = .ok c by rw [← addT_outcome, h]; rfl)
  exact ⟨by simpa [IsBitfield] using h1, h3, h2⟩

theorem probeAnonymousT_err {p : Offset → UInt32 → Told (UInt32 × Offset)} {offset : Offset} {r : Reason} :
    ∀ {ms : List Member}, probeAnonymousT p offset ms = .err r → ∃ m ∈ ms, m.offset.addT offset = .err r
  | [], h => by cases h
  | m :: rest, h => by
    rw [probeAnonymousT] at h
    cases ha : m.offset.addT offset with
    | ok start =>
      rw [ha] at h
      simp only [] at h
      cases hp : p start m.tid with
      | err r' =>
        rw [hp] at h
        obtain ⟨m', hm', h'⟩ := probeAnonymousT_err h
        exact ⟨m', List.mem_cons_of_mem _ hm', h'⟩
      | _ => rw [hp] at h; cases h
    | err r' => rw [ha] at h; injection h with h; subst h; exact ⟨m, List.mem_cons_self, ha⟩
    | _ => rw [ha] at h; cases h

theorem stepIndexT_err {cfg : Cfg} {ti : TypeInformation} {n : Nat} {offset : Offset} {t : UInt32} {v : TypeVariant} {i : Nat}
    {r : Reason} (hv : Resolves ti t v) (h0 : v ≠ .void) (h : stepIndexT cfg ti n offset v i = .err r) :
    Explains cfg ti ⟨t, bitPos offset, bitWidth offset⟩ (.index i) r := by
  cases v with
  | void => exact absurd rfl h0
  | array hd d =>
    rw [stepIndexT] at h
    split at h
    · injection h with h; subst h; exact .bounds hv (by assumption)
    · rename_i hi
      replace hi : i < d.elementCount.toNat := by omega
      rcases Told.bind_err.1 h with h | ⟨s, hs, h⟩
      · exact .elementSize hv hi (sizeOfT_err h)
      · have hs' : Returns (fun k => TypeInformation.sizeOf cfg ti k d.elementTid) (.ok s) :=
          ⟨by simp, n, (by rw [← sizeOfT_outcome, hs]; rfl : TypeInformation.sizeOf cfg ti n d.elementTid = .ok s)⟩
        rcases Told.bind_err.1 h with h | ⟨k, hk, h⟩
        · obtain ⟨h', rfl⟩ := Told.okOr_err.1 h
          refine .elementOffset (n := s) hv hi hs' ?_
          revert h'
          unfold u64CheckedMul u32TryFrom
          split
          · simp
          · simp
            omega
        · replace hk := Told.okOr_ok.1 hk
          have hk' : k.toNat = i * s := by
            revert hk
            unfold u64CheckedMul u32TryFrom
            split
            · simp only [Option.bind_some]
              split
              · intro h; injection h with h; subst h; simp; omega
              · simp
            · simp
          rcases Told.bind_err.1 h with h | ⟨_, _, h⟩
          · have := addU32T_err_iff.1 h
            rw [hk'] at this
            exact .elementPlace hv hi hs' (hk' ▸ k.toNat_lt) this
          · cases h
  | ptr hd d => injection h with h; subst h; exact .pointer hv
  | _ => injection h with h; subst h; exact .notArray hv h0 (by simp) id

theorem stepIndexT_ok {cfg : Cfg} {ti : TypeInformation} {n : Nat} {offset : Offset} {v : TypeVariant} {i : Nat}
    {x : UInt32 × Offset} (h : stepIndexT cfg ti n offset v i = .ok x) :
    ∃ hd d s, v = .array hd d ∧ i < d.elementCount.toNat ∧
      Returns (fun k => TypeInformation.sizeOf cfg ti k d.elementTid) (.ok s) ∧ bitWidth offset = none ∧
      (⟨x.1, bitPos x.2, bitWidth x.2⟩ : Place) = ⟨d.elementTid, bitPos offset + 8 * (i * s), none⟩ := by
  obtain ⟨hd, d, s, h1, h2, h3, h4, h5, h6, h7⟩ := stepIndex_ok (show stepIndex cfg ti n offset v i = .ok x by
    rw [← stepIndexT_outcome, h]; rfl)
  exact ⟨hd, d, s, h1, h2, ⟨by simp, n, h3⟩, h5, by rw [h4, h6, h7]⟩

/-- `pre` is what the iterator `it` yields until it is `it'`. -/
inductive Steps (cfg : Cfg) : PathIter → List PathComponent → PathIter → Prop where
  | refl {it} : Steps cfg it [] it
  | step {it it1 it2 c cs} : it.nextT cfg = (.ok (some c), it1) → Steps cfg it1 cs it2 → Steps cfg it (c :: cs) it2

/-- Where an error comes from: a component after a walk, or the iterator. -/
theorem offsetOfImplT_err {cfg : Cfg} {ti : TypeInformation} : ∀ {n : Nat} {offset : Offset} {t : UInt32} {it : PathIter}
    {r : Reason}, offsetOfImplT cfg ti n offset t it = .err r →
    ∃ pre q it', Steps cfg it pre it' ∧ Walk cfg ti ⟨t, bitPos offset, bitWidth offset⟩ pre q ∧
      ((∃ c it'', it'.nextT cfg = (.ok (some c), it'') ∧ Explains cfg ti q c r) ∨ (it'.nextT cfg).1 = .err r)
  | 0, _, _, _, _, h => by cases h
  | n + 1, offset, t, it, r, h => by
    rw [offsetOfImplT] at h
    rcases hn : it.nextT cfg with ⟨x, it1⟩
    rw [hn] at h
    cases x with
    | err r' => injection h with h; subst h; exact ⟨[], _, it, .refl, .here, .inr (by rw [hn])⟩
    | panic => cases h
    | nofuel => cases h
    | ok y =>
      cases y with
      | none => cases h
      | some c =>
        have here : Explains cfg ti ⟨t, bitPos offset, bitWidth offset⟩ c r → ∃ pre q it', Steps cfg it pre it' ∧ Walk cfg ti ⟨t, bitPos offset, bitWidth offset⟩ pre q ∧
            ((∃ c it'', it'.nextT cfg = (.ok (some c), it'') ∧ Explains cfg ti q c r) ∨ (it'.nextT cfg).1 = .err r) :=
          fun he => ⟨[], _, it, .refl, .here, .inl ⟨c, it1, hn, he⟩⟩
        rcases Told.bind_err.1 h with h | ⟨v, hv, h⟩
        · obtain ⟨rfl, a, h1, h2⟩ := resolveT_err h
          exact here (.missing h1 h2)
        · replace hv := resolveT_ok hv
          split at h
          · rename_i h0
            injection h with h
            subst h h0
            exact here (.void hv)
          · rename_i h0
            cases c with
            | index i =>
              rcases Told.bind_err.1 h with h' | ⟨x, hx, h'⟩
              · exact here (stepIndexT_err hv h0 h')
              · obtain ⟨hd, d, s, rfl, hi, hs, hw, hx⟩ := stepIndexT_ok hx
                obtain ⟨pre, u, it', h1, h2, h3⟩ := offsetOfImplT_err h'
                rw [hx] at h2
                rw [hw]
                exact ⟨_, u, it', .step hn h1, .element hv hi hs h2, h3⟩
            | name name =>
              simp only [memberListOf_eq] at h
              cases hm : membersOf v with
              | none => rw [hm] at h; injection h with h; subst h; exact here (.noMembers hv h0 hm)
              | some ms =>
                rw [hm] at h
                rcases Told.bind_err.1 h with h1 | ⟨x, hx, h1⟩
                · obtain ⟨m, hm', h'⟩ := probeAnonymousT_err h1
                  rw [List.mem_filter] at hm'
                  exact here (.unnamedPlace hv hm hm'.1 (by simpa using hm'.2) (addT_err_iff.1 h'))
                · cases x with
                  | some x => cases h1
                  | none =>
                    clear h
                    rename' h1 => h
                    simp only [] at h
                    cases hf : ms.find? (fun m => m.name = some name) with
                    | none =>
                      rw [hf] at h
                      injection h with h
                      subst h
                      refine here (.noMember hv hm fun m hm' => ?_)
                      simpa using List.find?_eq_none.1 hf m hm'
                    | some m =>
                      rw [hf] at h
                      obtain ⟨h1, pre, post, rfl, h2⟩ := List.find?_eq_some_iff_append.1 hf
                      replace h1 : m.name = some name := by simpa using h1
                      rcases Told.bind_err.1 h with h' | ⟨o, ho, h'⟩
                      · exact here (.memberPlace hv hm h1 (fun a ha => by simpa using h2 a ha) (addT_err_iff.1 h'))
                      · obtain ⟨cs, u, it', h3, h4, h5⟩ := offsetOfImplT_err h'
                        obtain ⟨o1, o2, o3⟩ := addT_ok ho
                        rw [o2, o3] at h4
                        rw [o1]
                        exact ⟨_, u, it', .step hn h3, .member hv hm h1 (fun a ha => by simpa using h2 a ha) h4, h5⟩

end Btf

import Verif.Spec.Obstacle
import Verif.Proofs.MessageSem
import Verif.Proofs.OffsetWF

/-!
# The first obstacle of a lookup
-/

namespace Btf

open Spec TypeInformation PathIter

variable {cfg : Cfg} {ti : TypeInformation}

theorem Told.bind_ok {α β : Type} {x : Told α} {f : α → Told β} {b : β} :
    x.bind f = .ok b ↔ ∃ a, x = .ok a ∧ f a = .ok b := by
  cases x <;> simp [Told.bind]

theorem summable_of_addT {a b c : Offset} (h : a.addT b = .ok c) :
    Summable (bitPos a) (bitWidth a) (bitPos b) (bitWidth b) := by
  intro r hr
  rw [addT_err_iff.2 hr] at h
  cases h

theorem probe_err {p : Offset → UInt32 → Told (UInt32 × Offset)} {offset : Offset} {r : Reason} :
    ∀ {ms : List Member}, probeAnonymousT p offset ms = .err r →
      ∃ pre m post, ms = pre ++ m :: post ∧ (∀ a ∈ pre, ∃ o, a.offset.addT offset = .ok o) ∧ m.offset.addT offset = .err r
  | [], h => by cases h
  | m :: rest, h => by
    rw [probeAnonymousT] at h
    cases ha : m.offset.addT offset with
    | ok start =>
      rw [ha] at h
      simp only [] at h
      cases hp : p start m.tid with
      | err r' =>
        rw [hp] at h
        obtain ⟨pre, m', post, rfl, h1, h2⟩ := probe_err h
        refine ⟨m :: pre, m', post, rfl, ?_, h2⟩
        intro a ha'
        rcases List.mem_cons.1 ha' with rfl | ha'
        · exact ⟨_, ha⟩
        · exact h1 a ha'
      | _ => rw [hp] at h; cases h
    | err r' =>
      rw [ha] at h; injection h with h; subst h
      exact ⟨[], m, rest, rfl, by simp, ha⟩
    | _ => rw [ha] at h; cases h

theorem probe_none {p : Offset → UInt32 → Told (UInt32 × Offset)} {offset : Offset} :
    ∀ {ms : List Member}, probeAnonymousT p offset ms = .ok none → ∀ a ∈ ms, ∃ o, a.offset.addT offset = .ok o
  | [], _, _, h => by cases h
  | m :: rest, h, a, ha' => by
    rw [probeAnonymousT] at h
    cases ha : m.offset.addT offset with
    | ok start =>
      rw [ha] at h
      simp only [] at h
      cases hp : p start m.tid with
      | err r' =>
        rw [hp] at h
        rcases List.mem_cons.1 ha' with rfl | ha'
        · exact ⟨_, ha⟩
        · exact probe_none h a ha'
      | _ => rw [hp] at h; cases h
    | _ => rw [ha] at h; cases h

/-- An element that is reached has a place. -/
theorem stepIndexT_place {n : Nat} {offset : Offset} {v : TypeVariant} {i : Nat} {x : UInt32 × Offset}
    (h : stepIndexT cfg ti n offset v i = .ok x) :
    ∃ hd d s, v = .array hd d ∧ i < d.elementCount.toNat ∧
      Returns (fun k => TypeInformation.sizeOf cfg ti k d.elementTid) (.ok s) ∧ i * s < 2 ^ 32 ∧
      Summable (bitPos offset) (bitWidth offset) (8 * (i * s)) none ∧
      (⟨x.1, bitPos x.2, bitWidth x.2⟩ : Place) = ⟨d.elementTid, bitPos offset + 8 * (i * s), none⟩ := by
  obtain ⟨hd, d, s, h1, h2, h3, h4, h5, h6, h7⟩ := stepIndex_ok (show stepIndex cfg ti n offset v i = .ok x by
    rw [← stepIndexT_outcome, h]; rfl)
  subst h1
  rw [stepIndexT, if_neg (by omega)] at h
  obtain ⟨s', hs, h⟩ := Told.bind_ok.1 h
  have : s' = s := by
    have : TypeInformation.sizeOf cfg ti n d.elementTid = .ok s' := by rw [← sizeOfT_outcome, hs]; rfl
    rw [this] at h3
    injection h3
  subst this
  obtain ⟨k, hk, h⟩ := Told.bind_ok.1 h
  obtain ⟨o, ho, h⟩ := Told.bind_ok.1 h
  replace hk := Told.okOr_ok.1 hk
  have hk' : k.toNat = i * s' := by
    revert hk
    unfold u64CheckedMul u32TryFrom
    split
    · simp only [Option.bind_some]
      split
      · intro h; injection h with h; subst h; simp; omega
      · simp
    · simp
  refine ⟨hd, d, s', rfl, h2, ⟨by simp, n, h3⟩, hk' ▸ k.toNat_lt, ?_, by rw [h4, h6, h7]⟩
  intro r hr
  rw [← hk'] at hr
  rw [addU32T_err_iff.2 hr] at ho
  cases ho

/-- What the iterator yields, and its error. -/
inductive YieldsT (cfg : Cfg) : PathIter → List PathComponent → Option Reason → Prop where
  | stop {it} : (it.nextT cfg).1 = .ok none → YieldsT cfg it [] none
  | fail {it r} : (it.nextT cfg).1 = .err r → YieldsT cfg it [] (some r)
  | tok {it it' c cs x} : it.nextT cfg = (.ok (some c), it') → YieldsT cfg it' cs x → YieldsT cfg it (c :: cs) x

theorem unnamed_split {ms pre' post' : List Member} {m : Member}
    (h : ms.filter (fun a => a.name.isNone) = pre' ++ m :: post') :
    ∃ pre post, ms = pre ++ m :: post ∧ pre.filter (fun a => a.name.isNone) = pre' ∧ m.name = none := by
  obtain ⟨l1, l2, rfl, h1, h2⟩ := List.filter_eq_append_iff.1 h
  obtain ⟨l3, l4, rfl, h3, h4, h5⟩ := List.filter_eq_cons_iff.1 h2
  refine ⟨l1 ++ l3, l4, by simp, ?_, by simpa using h4⟩
  rw [List.filter_append, h1, List.filter_eq_nil_iff.2 h3, List.append_nil]

theorem unnamedFit_of {t : UInt32} {offset : Offset} {ms : List Member}
    (h : ∀ a ∈ ms.filter (fun a => a.name.isNone), ∃ o, a.offset.addT offset = .ok o) :
    UnnamedFit ⟨t, bitPos offset, bitWidth offset⟩ ms := by
  intro a ha hn
  obtain ⟨o, ho⟩ := h a (List.mem_filter.2 ⟨ha, by simp [hn]⟩)
  exact summable_of_addT ho

/-- The error is the first obstacle. -/
theorem obstacle_of_err : ∀ {n : Nat} {offset : Offset} {t : UInt32} {it : PathIter} {cs : List PathComponent}
    {flaw : Option Reason} {r : Reason}, YieldsT cfg it cs flaw → offsetOfImplT cfg ti n offset t it = .err r →
    Obstacle cfg ti flaw ⟨t, bitPos offset, bitWidth offset⟩ cs r
  | 0, _, _, _, _, _, _, _, h => by cases h
  | n + 1, offset, t, it, cs, flaw, r, hy, h => by
    rw [offsetOfImplT] at h
    cases hy with
    | stop hn =>
      rcases hn' : it.nextT cfg with ⟨x, it1⟩
      rw [hn'] at h hn
      simp only [] at hn
      subst hn
      cases h
    | fail hn =>
      rcases hn' : it.nextT cfg with ⟨x, it1⟩
      rw [hn'] at h hn
      simp only [] at hn
      subst hn
      injection h with h
      subst h
      exact .text rfl
    | @tok _ it1 c cs _ hn hy =>
      rw [hn] at h
      rcases Told.bind_err.1 h with h | ⟨v, hv, h⟩
      · obtain ⟨rfl, a, h1, h2⟩ := resolveT_err h
        refine .component (fun name w ms _ hw _ => ?_) (.missing h1 h2)
        exact absurd hw (fun ⟨b, hc, hb, hr⟩ => by
          have := chain_end_unique h1 hc (by simp [h2]) (by simpa [hb] using hr)
          subst this
          rw [h2] at hb; cases hb)
      · replace hv := resolveT_ok hv
        split at h
        · rename_i h0
          injection h with h
          subst h h0
          refine .component (fun name w ms _ hw hm => ?_) (.void hv)
          rw [← resolves_unique hv hw] at hm
          cases hm
        · rename_i h0
          cases c with
          | index i =>
            rcases Told.bind_err.1 h with h' | ⟨x, hx, h'⟩
            · exact .component (by simp) (stepIndexT_err hv h0 h')
            · obtain ⟨hd, d, s, rfl, hi, hs, hl, hw, hx⟩ := stepIndexT_place hx
              have := obstacle_of_err hy h'
              rw [hx] at this
              exact .element hv hi hs hl hw this
          | name name =>
            simp only [memberListOf_eq] at h
            cases hm : membersOf v with
            | none =>
              rw [hm] at h; injection h with h; subst h
              refine .component (fun name w ms _ hw hm' => ?_) (.noMembers hv h0 hm)
              rw [← resolves_unique hv hw, hm] at hm'
              cases hm'
            | some ms =>
              rw [hm] at h
              rcases Told.bind_err.1 h with h1 | ⟨x, hx, h1⟩
              · obtain ⟨pre', m, post', h2, h3, h4⟩ := probe_err h1
                obtain ⟨pre, post, rfl, rfl, h5⟩ := unnamed_split h2
                exact .unnamed hv hm (unnamedFit_of h3) h5 (addT_err_iff.1 h4)
              · cases x with
                | some x => cases h1
                | none =>
                  have hfit : UnnamedFit ⟨t, bitPos offset, bitWidth offset⟩ ms := unnamedFit_of (probe_none hx)
                  have hfit' : ∀ name' w ms', PathComponent.name name = .name name' →
                      Resolves ti (Place.mk t (bitPos offset) (bitWidth offset)).type w → membersOf w = some ms' →
                      UnnamedFit ⟨t, bitPos offset, bitWidth offset⟩ ms' := by
                    intro name' w ms' _ hw hm'
                    rw [← resolves_unique hv hw, hm] at hm'
                    injection hm' with hm'
                    exact hm' ▸ hfit
                  clear h
                  rename' h1 => h
                  simp only [] at h
                  cases hf : ms.find? (fun m => m.name = some name) with
                  | none =>
                    rw [hf] at h
                    injection h with h
                    subst h
                    refine .component hfit' (.noMember hv hm fun m hm' => ?_)
                    simpa using List.find?_eq_none.1 hf m hm'
                  | some m =>
                    rw [hf] at h
                    obtain ⟨h1, pre, post, rfl, h2⟩ := List.find?_eq_some_iff_append.1 hf
                    replace h1 : m.name = some name := by simpa using h1
                    have h2' : ∀ a ∈ pre, a.name ≠ some name := fun a ha => by simpa using h2 a ha
                    rcases Told.bind_err.1 h with h' | ⟨o, ho, h'⟩
                    · exact .component hfit' (.memberPlace hv hm h1 h2' (addT_err_iff.1 h'))
                    · have := obstacle_of_err hy h'
                      obtain ⟨o1, o2, o3⟩ := addT_ok ho
                      rw [o2, o3] at this
                      exact .member hv hm hfit h1 h2' (summable_of_addT ho) this

/-! ### There is only one -/

theorem addReason_unique {a b : Nat} {w w' : Option UInt32} {r r' : Reason} (h : AddReason a w b w' r)
    (h' : AddReason a w b w' r') : r = r' := by
  cases h <;> cases h' <;> first | rfl | omega

/-- Where a chain of sizes ends. -/
def SizeEnd (ti : TypeInformation) (a : UInt32) (r : Reason) : Prop :=
  match ti.fromId a with
  | none => r = .invalidTypeId
  | some v => Unsized v ∧ r = .notSized v ∨ IsPtr v ∧
    match ti.idOf (str "list_head") with
    | none => r = .listHeadNotFound
    | some l =>
      match ti.fromId l with
      | none => r = .listHeadInvalid
      | some w => (∀ hd d, w ≠ .struct hd d) ∧ r = .listHeadNotStruct

theorem unsized_end {v : TypeVariant} (h : Unsized v ∨ IsPtr v) : sizeRef v = none := by
  cases v <;> first | rfl | (rcases h with h | h <;> cases h)

theorem sizeEnd_of {t : UInt32} {r : Reason} (h : SizeReason ti t r) :
    ∃ a, Chain ti sizeRef t a ∧ (∀ v, ti.fromId a = some v → sizeRef v = none) ∧ SizeEnd ti a r := by
  have leaf : ∀ {a : UInt32} {v : TypeVariant}, ti.fromId a = some v → (Unsized v ∨ IsPtr v) →
      ∀ w, ti.fromId a = some w → sizeRef w = none := by
    intro a v h1 h2 w h3
    rw [h1] at h3
    injection h3 with h3
    exact h3 ▸ unsized_end h2
  cases h with
  | missing h1 h2 => exact ⟨_, h1, by simp [h2], by simp [SizeEnd, h2]⟩
  | unsized h1 h2 h3 => exact ⟨_, h1, leaf h2 (.inl h3), by simp [SizeEnd, h2, h3]⟩
  | noListHead h1 h2 h3 h4 => exact ⟨_, h1, leaf h2 (.inr h3), by simp [SizeEnd, h2, h3, h4]⟩
  | danglingListHead h1 h2 h3 h4 h5 => exact ⟨_, h1, leaf h2 (.inr h3), by simp [SizeEnd, h2, h3, h4, h5]⟩
  | otherListHead h1 h2 h3 h4 h5 h6 =>
    refine ⟨_, h1, leaf h2 (.inr h3), ?_⟩
    simp only [SizeEnd, h2, h4, h5]
    exact .inr ⟨h3, h6, trivial⟩

theorem sizeEnd_unique {a : UInt32} {r r' : Reason} (h : SizeEnd ti a r) (h' : SizeEnd ti a r') : r = r' := by
  unfold SizeEnd at h h'
  cases hv : ti.fromId a with
  | none => rw [hv] at h h'; exact h.trans h'.symm
  | some v =>
    rw [hv] at h h'
    rcases h with ⟨h1, rfl⟩ | ⟨h1, h2⟩ <;> rcases h' with ⟨h1', rfl⟩ | ⟨h1', h2'⟩
    · rfl
    · cases v <;> first | (cases h1; done) | (cases h1'; done)
    · cases v <;> first | (cases h1; done) | (cases h1'; done)
    · cases hl : ti.idOf (str "list_head") with
      | none => rw [hl] at h2 h2'; exact h2.trans h2'.symm
      | some l =>
        simp only [hl] at h2 h2'
        cases hw : ti.fromId l with
        | none => rw [hw] at h2 h2'; exact h2.trans h2'.symm
        | some w => rw [hw] at h2 h2'; exact h2.2.trans h2'.2.symm

theorem sizeReason_unique {t : UInt32} {r r' : Reason} (h : SizeReason ti t r) (h' : SizeReason ti t r') : r = r' := by
  obtain ⟨a, h1, h2, h3⟩ := sizeEnd_of h
  obtain ⟨b, h1', h2', h3'⟩ := sizeEnd_of h'
  obtain rfl := chain_end_unique h1 h1' h2 h2'
  exact sizeEnd_unique h3 h3'

theorem size_not_both {t : UInt32} {r : Reason} {n : Nat} (h : SizeReason ti t r)
    (h' : Returns (fun k => TypeInformation.sizeOf cfg ti k t) (.ok n)) : False := by
  obtain ⟨k, hk⟩ := (sizeOfT_err_iff (cfg := cfg)).2 h
  have : Returns (fun k => TypeInformation.sizeOf cfg ti k t) (.err r.kind) := by
    refine ⟨by simp, k, ?_⟩
    show TypeInformation.sizeOf cfg ti k t = _
    rw [← sizeOfT_outcome, hk]; rfl
  cases FuelMono.returns_unique (sizeOf_mono cfg ti t) this h'

theorem size_ok_unique {t : UInt32} {n m : Nat} (h : Returns (fun k => TypeInformation.sizeOf cfg ti k t) (.ok n))
    (h' : Returns (fun k => TypeInformation.sizeOf cfg ti k t) (.ok m)) : n = m := by
  cases FuelMono.returns_unique (sizeOf_mono cfg ti t) h h'
  rfl

/-- What an index comes to in an array. -/
inductive IndexEnd (cfg : Cfg) (ti : TypeInformation) (p : Place) (d : ArrayData) (i : Nat) : Reason ⊕ Place → Prop where
  | bounds : d.elementCount.toNat ≤ i → IndexEnd cfg ti p d i (.inl (.indexOutOfBounds i d.elementCount))
  | size {r} : i < d.elementCount.toNat → SizeReason ti d.elementTid r → IndexEnd cfg ti p d i (.inl r)
  | far {n} : i < d.elementCount.toNat → Returns (fun k => TypeInformation.sizeOf cfg ti k d.elementTid) (.ok n) →
      2 ^ 32 ≤ i * n → IndexEnd cfg ti p d i (.inl .arrayOffsetOverflow)
  | nowhere {n r} : i < d.elementCount.toNat → Returns (fun k => TypeInformation.sizeOf cfg ti k d.elementTid) (.ok n) →
      i * n < 2 ^ 32 → AddReason p.bits p.width (8 * (i * n)) none r → IndexEnd cfg ti p d i (.inl r)
  | place {n} : i < d.elementCount.toNat → Returns (fun k => TypeInformation.sizeOf cfg ti k d.elementTid) (.ok n) →
      i * n < 2 ^ 32 → Summable p.bits p.width (8 * (i * n)) none →
      IndexEnd cfg ti p d i (.inr ⟨d.elementTid, p.bits + 8 * (i * n), none⟩)

theorem indexEnd_unique {p : Place} {d : ArrayData} {i : Nat} {x y : Reason ⊕ Place} (h : IndexEnd cfg ti p d i x)
    (h' : IndexEnd cfg ti p d i y) : x = y := by
  cases h with
  | bounds h1 => cases h' with
    | bounds => rfl
    | size g1 | far g1 | nowhere g1 | place g1 => omega
  | size h1 h2 => cases h' with
    | bounds => omega
    | size _ g2 => rw [sizeReason_unique h2 g2]
    | far _ g2 | nowhere _ g2 | place _ g2 => exact (size_not_both h2 g2).elim
  | far h1 h2 h3 => cases h' with
    | bounds => omega
    | size _ g2 => exact (size_not_both g2 h2).elim
    | far => rfl
    | nowhere _ g2 g3 | place _ g2 g3 => obtain rfl := size_ok_unique h2 g2; omega
  | nowhere h1 h2 h3 h4 => cases h' with
    | bounds => omega
    | size _ g2 => exact (size_not_both g2 h2).elim
    | far _ g2 g3 => obtain rfl := size_ok_unique h2 g2; omega
    | nowhere _ g2 g3 g4 => obtain rfl := size_ok_unique h2 g2; rw [addReason_unique h4 g4]
    | place _ g2 g3 g4 => obtain rfl := size_ok_unique h2 g2; exact absurd h4 (g4 _)
  | place h1 h2 h3 h4 => cases h' with
    | bounds => omega
    | size _ g2 => exact (size_not_both g2 h2).elim
    | far _ g2 g3 => obtain rfl := size_ok_unique h2 g2; omega
    | nowhere _ g2 g3 g4 => obtain rfl := size_ok_unique h2 g2; exact absurd g4 (h4 _)
    | place _ g2 g3 g4 => obtain rfl := size_ok_unique h2 g2; rfl

theorem split_unique {α : Type} {P : α → Prop} : ∀ {pre pre' post post' : List α} {m m' : α},
    pre ++ m :: post = pre' ++ m' :: post' → P m → P m' → (∀ a ∈ pre, ¬ P a) → (∀ a ∈ pre', ¬ P a) → pre = pre' ∧ m = m'
  | [], [], _, _, _, _, h, _, _, _, _ => ⟨rfl, by injection h⟩
  | [], b :: pre', _, _, _, _, h, hm, _, _, h' => by
    injection h with h1 _
    exact absurd (h1 ▸ hm) (h' b (by simp))
  | a :: pre, [], _, _, _, _, h, _, hm', h', _ => by
    injection h with h1 _
    exact absurd (h1 ▸ hm') (h' a (by simp))
  | a :: pre, b :: pre', _, _, _, _, h, hm, hm', h1, h2 => by
    injection h with e1 e2
    obtain ⟨rfl, rfl⟩ := split_unique e2 hm hm' (fun a ha => h1 a (by simp [ha])) (fun a ha => h2 a (by simp [ha]))
    exact ⟨by rw [e1], rfl⟩

/-- What a name comes to in a struct or union. -/
inductive MemberEnd (p : Place) (name : Str) (ms : List Member) : Reason ⊕ Place → Prop where
  | unnamed {pre m post r} : ms = pre ++ m :: post → UnnamedFit p pre → m.name = none →
      AddReason (bitPos m.offset) (bitWidth m.offset) p.bits p.width r → MemberEnd p name ms (.inl r)
  | absent : UnnamedFit p ms → (∀ a ∈ ms, a.name ≠ some name) → MemberEnd p name ms (.inl (.memberNotFound name))
  | nowhere {pre m post r} : UnnamedFit p ms → ms = pre ++ m :: post → m.name = some name → (∀ a ∈ pre, a.name ≠ some name) →
      AddReason p.bits p.width (bitPos m.offset) (bitWidth m.offset) r → MemberEnd p name ms (.inl r)
  | place {pre m post} : UnnamedFit p ms → ms = pre ++ m :: post → m.name = some name → (∀ a ∈ pre, a.name ≠ some name) →
      Summable p.bits p.width (bitPos m.offset) (bitWidth m.offset) →
      MemberEnd p name ms (.inr ⟨m.tid, p.bits + bitPos m.offset, bitWidth m.offset⟩)

theorem memberEnd_unique {p : Place} {name : Str} {ms : List Member} {x y : Reason ⊕ Place} (h : MemberEnd p name ms x)
    (h' : MemberEnd p name ms y) : x = y := by
  have nofit : ∀ {pre m post r}, ms = pre ++ m :: post → m.name = none →
      AddReason (bitPos m.offset) (bitWidth m.offset) p.bits p.width r → ¬ UnnamedFit p ms := by
    rintro pre m post r rfl hn hr hf
    exact hf m (by simp) hn r hr
  cases h with
  | unnamed h1 h2 h3 h4 => cases h' with
    | @unnamed pre' m' post' r' g1 g2 g3 g4 =>
      let P : Member → Prop := fun a => a.name = none ∧ ∃ r, AddReason (bitPos a.offset) (bitWidth a.offset) p.bits p.width r
      obtain ⟨rfl, rfl⟩ := split_unique (P := P) (h1.symm.trans g1) ⟨h3, _, h4⟩ ⟨g3, _, g4⟩
        (fun a ha ⟨e1, r, e2⟩ => h2 a ha e1 r e2) (fun a ha ⟨e1, r, e2⟩ => g2 a ha e1 r e2)
      rw [addReason_unique h4 g4]
    | absent g1 | nowhere g1 | place g1 => exact absurd g1 (nofit h1 h3 h4)
  | absent h1 h2 => cases h' with
    | unnamed g1 g2 g3 g4 => exact absurd h1 (nofit g1 g3 g4)
    | absent => rfl
    | nowhere _ g1 g2 | place _ g1 g2 => subst g1; exact absurd g2 (h2 _ (by simp))
  | nowhere h0 h1 h2 h3 h4 => cases h' with
    | unnamed g1 g2 g3 g4 => exact absurd h0 (nofit g1 g3 g4)
    | absent _ g => subst h1; exact absurd h2 (g _ (by simp))
    | nowhere _ g1 g2 g3 g4 =>
      obtain ⟨rfl, rfl⟩ := split_unique (P := fun a : Member => a.name = some name) (h1.symm.trans g1) h2 g2 h3 g3
      rw [addReason_unique h4 g4]
    | place _ g1 g2 g3 g4 =>
      obtain ⟨rfl, rfl⟩ := split_unique (P := fun a : Member => a.name = some name) (h1.symm.trans g1) h2 g2 h3 g3
      exact absurd h4 (g4 _)
  | place h0 h1 h2 h3 h4 => cases h' with
    | unnamed g1 g2 g3 g4 => exact absurd h0 (nofit g1 g3 g4)
    | absent _ g => subst h1; exact absurd h2 (g _ (by simp))
    | nowhere _ g1 g2 g3 g4 =>
      obtain ⟨rfl, rfl⟩ := split_unique (P := fun a : Member => a.name = some name) (h1.symm.trans g1) h2 g2 h3 g3
      exact absurd g4 (h4 _)
    | place _ g1 g2 g3 g4 =>
      obtain ⟨rfl, rfl⟩ := split_unique (P := fun a : Member => a.name = some name) (h1.symm.trans g1) h2 g2 h3 g3
      rfl

/-- What a component comes to in an object of type `v`. -/
def Applied (cfg : Cfg) (ti : TypeInformation) (p : Place) (v : TypeVariant) (c : PathComponent) (x : Reason ⊕ Place) : Prop :=
  match c with
  | .index i =>
    match v with
    | .void => x = .inl .voidDereference
    | .array _ d => IndexEnd cfg ti p d i x
    | .ptr _ _ => x = .inl .ptrNotIndexable
    | _ => x = .inl .typeNotIndexable
  | .name name =>
    match membersOf v with
    | some ms => MemberEnd p name ms x
    | none => x = .inl (if v = .void then .voidDereference else .notStructOrUnion)

theorem applied_unique {p : Place} {v : TypeVariant} {c : PathComponent} {x y : Reason ⊕ Place} (h : Applied cfg ti p v c x)
    (h' : Applied cfg ti p v c y) : x = y := by
  cases c with
  | index i =>
    cases v <;> first
      | exact h.trans h'.symm
      | exact indexEnd_unique h h'
  | name name =>
    unfold Applied at h h'
    cases hm : membersOf v with
    | none => simp only [hm] at h h'; exact h.trans h'.symm
    | some ms => simp only [hm] at h h'; exact memberEnd_unique h h'

theorem obstacle_cons {flaw : Option Reason} {p : Place} {c : PathComponent} {cs : List PathComponent} {r : Reason}
    (h : Obstacle cfg ti flaw p (c :: cs) r) :
    ((∃ a, Chain ti accessAlias p.type a ∧ ti.fromId a = none) ∧ r = .invalidTypeId) ∨
    ∃ v x, Resolves ti p.type v ∧ Applied cfg ti p v c x ∧ (x = .inl r ∨ ∃ q, x = .inr q ∧ Obstacle cfg ti flaw q cs r) := by
  cases h with
  | unnamed h1 h2 h3 h4 h5 =>
    exact .inr ⟨_, .inl r, h1, by simp only [Applied, h2]; exact .unnamed rfl h3 h4 h5, .inl rfl⟩
  | element h1 h2 h3 h4 h5 h6 => exact .inr ⟨_, _, h1, .place h2 h3 h4 h5, .inr ⟨_, rfl, h6⟩⟩
  | member h1 h2 h3 h4 h5 h6 h7 =>
    exact .inr ⟨_, _, h1, by simp only [Applied, h2]; exact .place h3 rfl h4 h5 h6, .inr ⟨_, rfl, h7⟩⟩
  | component hf he =>
    cases he with
    | missing h1 h2 => exact .inl ⟨⟨_, h1, h2⟩, rfl⟩
    | void h1 => refine .inr ⟨_, .inl _, h1, ?_, .inl rfl⟩; cases c <;> simp [Applied, membersOf]
    | bounds h1 h2 => exact .inr ⟨_, _, h1, .bounds h2, .inl rfl⟩
    | elementSize h1 h2 h3 => exact .inr ⟨_, _, h1, .size h2 h3, .inl rfl⟩
    | elementOffset h1 h2 h3 h4 => exact .inr ⟨_, _, h1, .far h2 h3 h4, .inl rfl⟩
    | pointer h1 => exact .inr ⟨_, .inl _, h1, rfl, .inl rfl⟩
    | @notArray v i h1 h2 h3 h4 =>
      refine .inr ⟨v, .inl _, h1, ?_, .inl rfl⟩
      cases v with
      | void => exact absurd rfl h2
      | array hd d => exact absurd rfl (h3 hd d)
      | ptr => exact absurd trivial h4
      | _ => rfl
    | noMembers h1 h2 h3 => exact .inr ⟨_, .inl _, h1, by simp [Applied, h2, h3], .inl rfl⟩
    | noMember h1 h2 h3 =>
      exact .inr ⟨_, .inl _, h1, by simp only [Applied, h2]; exact .absent (hf _ _ _ rfl h1 h2) h3, .inl rfl⟩
    | elementPlace h1 h2 h3 h4 h5 => exact .inr ⟨_, _, h1, .nowhere h2 h3 h4 h5, .inl rfl⟩
    | memberPlace h1 h2 h3 h4 h5 =>
      exact .inr ⟨_, .inl r, h1, by simp only [Applied, h2]; exact .nowhere (hf _ _ _ rfl h1 h2) rfl h3 h4 h5, .inl rfl⟩
    | unnamedPlace h1 h2 h3 h4 h5 => exact absurd h5 (hf _ _ _ rfl h1 h2 _ h3 h4 _)

theorem dangling_not_resolves {t a : UInt32} {v : TypeVariant} (h : Chain ti accessAlias t a) (h0 : ti.fromId a = none)
    (hv : Resolves ti t v) : False := by
  obtain ⟨b, hc, hb, hr⟩ := hv
  have := chain_end_unique h hc (by simp [h0]) (by simpa [hb] using hr)
  subst this
  rw [h0] at hb; cases hb

/-- There is only one first obstacle. -/
theorem obstacle_unique {flaw : Option Reason} : ∀ {cs : List PathComponent} {p : Place} {r r' : Reason},
    Obstacle cfg ti flaw p cs r → Obstacle cfg ti flaw p cs r' → r = r'
  | [], _, _, _, h, h' => by
    cases h with
    | text h => cases h' with
      | text h' => rw [h] at h'; injection h'
  | c :: cs, p, r, r', h, h' => by
    rcases obstacle_cons h with ⟨⟨a, h1, h2⟩, rfl⟩ | ⟨v, x, h1, h2, h3⟩ <;>
      rcases obstacle_cons h' with ⟨⟨b, g1, g2⟩, rfl⟩ | ⟨w, y, g1, g2, g3⟩
    · rfl
    · exact (dangling_not_resolves h1 h2 g1).elim
    · exact (dangling_not_resolves g1 g2 h1).elim
    · obtain rfl := resolves_unique h1 g1
      obtain rfl := applied_unique h2 g2
      rcases h3 with rfl | ⟨q, rfl, h3⟩ <;> rcases g3 with g3 | ⟨q', g3, g4⟩
      · injection g3
      · cases g3
      · cases g3
      · injection g3 with g3
        subst g3
        exact obstacle_unique h3 g4

end Btf

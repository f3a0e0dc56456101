import Verif.Spec.Regroup
import Verif.Proofs.OffsetWF

/-!
# Other orders of members, and unnamed members that are opened
-/

namespace Btf

open Spec TypeInformation Props

variable {ti ti' : TypeInformation}

theorem Spec.Regrouped.alias {v v' : TypeVariant} (h : Regrouped ti v v') : accessAlias v' = accessAlias v := by
  cases h <;> rfl

theorem Spec.Regrouped.sizeAlias {v v' : TypeVariant} (h : Regrouped ti v v') : sizeAlias v' = sizeAlias v := by
  cases h <;> rfl

theorem Spec.Regrouped.sizeRef {v v' : TypeVariant} (h : Regrouped ti v v') : sizeRef v' = sizeRef v := by
  cases h <;> rfl

theorem Spec.Regrouped.ownSize {v v' : TypeVariant} (h : Regrouped ti v v') : ownSize v' = ownSize v := by
  cases h with
  | same _ => rfl
  | struct h _ => simp [Spec.ownSize, h]
  | union h _ => simp [Spec.ownSize, h]

theorem Spec.Regrouped.isPtr {v v' : TypeVariant} (h : Regrouped ti v v') : IsPtr v' ↔ IsPtr v := by
  cases h <;> rfl

theorem Spec.Regrouped.isAggregate {v v' : TypeVariant} (h : Regrouped ti v v') : IsAggregate v' ↔ IsAggregate v := by
  cases h <;> rfl

theorem Spec.Regrouped.array {v v' : TypeVariant} (h : Regrouped ti v v') (hd : Header) (d : ArrayData) :
    v' = .array hd d ↔ v = .array hd d := by
  cases h <;> simp

theorem Spec.Regrouped.members {v v' : TypeVariant} (h : Regrouped ti v v') :
    (membersOf v = none ∧ membersOf v' = none) ∨
    ∃ ms ms', membersOf v = some ms ∧ membersOf v' = some ms' ∧ SameMembers ti ms ms' := by
  cases h with
  | same h => exact .inl ⟨h, h⟩
  | struct _ h => exact .inr ⟨_, _, rfl, rfl, h⟩
  | union _ h => exact .inr ⟨_, _, rfl, rfl, h⟩

theorem Spec.Regrouped.members_of {v v' : TypeVariant} (h : Regrouped ti v v') {ms : List Member} (hm : membersOf v = some ms) :
    ∃ ms', membersOf v' = some ms' ∧ SameMembers ti ms ms' := by
  rcases h.members with ⟨h1, _⟩ | ⟨ms1, ms', h1, h2, h3⟩
  · rw [h1] at hm; cases hm
  · rw [h1] at hm; cases hm; exact ⟨ms', h2, h3⟩

theorem Spec.Regrouped.members_of' {v v' : TypeVariant} (h : Regrouped ti v v') {ms' : List Member}
    (hm : membersOf v' = some ms') : ∃ ms, membersOf v = some ms ∧ SameMembers ti ms ms' := by
  rcases h.members with ⟨_, h1⟩ | ⟨ms, ms1, h1, h2, h3⟩
  · rw [h1] at hm; cases hm
  · rw [h2] at hm; cases hm; exact ⟨ms, h1, h3⟩

/-- What is there afterwards was there before. -/
theorem Spec.Regroups.before (h : Regroups ti ti') {t : UInt32} {v' : TypeVariant} (hv' : ti'.fromId t = some v') :
    ∃ v, ti.fromId t = some v ∧ Regrouped ti v v' := by
  cases hv : ti.fromId t with
  | none => rw [h.missing t hv] at hv'; cases hv'
  | some v =>
    obtain ⟨v1, h1, h2⟩ := h.present t v hv
    rw [h1] at hv'; cases hv'
    exact ⟨v, rfl, h2⟩

theorem Spec.Regroups.chain (h : Regroups ti ti') {t a : UInt32} (hc : Chain ti accessAlias t a) :
    Chain ti' accessAlias t a := by
  induction hc with
  | refl => exact .refl
  | step hv hr _ ih =>
    obtain ⟨v', hv', hg⟩ := h.present _ _ hv
    exact .step hv' (hg.alias.trans hr) ih

theorem Spec.Regroups.chain' (h : Regroups ti ti') {t a : UInt32} (hc : Chain ti' accessAlias t a) :
    Chain ti accessAlias t a := by
  induction hc with
  | refl => exact .refl
  | step hv hr _ ih =>
    obtain ⟨v, hv, hg⟩ := h.before hv
    exact .step hv (hg.alias.symm.trans hr) ih

theorem Spec.Regroups.resolves (h : Regroups ti ti') {t : UInt32} {v : TypeVariant} (hr : Resolves ti t v) :
    ∃ v', Resolves ti' t v' ∧ Regrouped ti v v' := by
  obtain ⟨a, hc, hv, hn⟩ := hr
  obtain ⟨v', hv', hg⟩ := h.present _ _ hv
  exact ⟨v', ⟨a, h.chain hc, hv', hg.alias.trans hn⟩, hg⟩

theorem Spec.Regroups.resolves' (h : Regroups ti ti') {t : UInt32} {v' : TypeVariant} (hr : Resolves ti' t v') :
    ∃ v, Resolves ti t v ∧ Regrouped ti v v' := by
  obtain ⟨a, hc, hv', hn⟩ := hr
  obtain ⟨v, hv, hg⟩ := h.before hv'
  exact ⟨v, ⟨a, h.chain' hc, hv, hg.alias.symm.trans hn⟩, hg⟩

theorem Spec.Regroups.resolves_array (h : Regroups ti ti') {t : UInt32} {hd : Header} {d : ArrayData} :
    Resolves ti t (.array hd d) ↔ Resolves ti' t (.array hd d) := by
  constructor
  · intro hr
    obtain ⟨v', h1, hg⟩ := h.resolves hr
    rwa [(hg.array hd d).2 rfl] at h1
  · intro hr
    obtain ⟨v', h1, hg⟩ := h.resolves' hr
    rwa [(hg.array hd d).1 rfl] at h1

theorem Spec.Regroups.hasSize (h : Regroups ti ti') {limit : Option Nat} {t : UInt32} {n : Nat} :
    HasSize limit ti t n ↔ HasSize limit ti' t n := by
  constructor
  · intro hs
    induction hs with
    | own hv ho =>
      obtain ⟨v', hv', hg⟩ := h.present _ _ hv
      exact .own hv' (hg.ownSize.trans ho)
    | ptr hv hp hn =>
      obtain ⟨v', hv', hg⟩ := h.present _ _ hv
      exact .ptr hv' (hg.isPtr.2 hp) ((h.pointers _ _ hv hp _).1 hn)
    | array hv _ hl ih =>
      obtain ⟨v', hv', hg⟩ := h.present _ _ hv
      rw [(hg.array _ _).2 rfl] at hv'
      exact .array hv' ih hl
    | «alias» hv ha _ ih =>
      obtain ⟨v', hv', hg⟩ := h.present _ _ hv
      exact .alias hv' (hg.sizeAlias.trans ha) ih
  · intro hs
    induction hs with
    | own hv ho =>
      obtain ⟨v', hv', hg⟩ := h.before hv
      exact .own hv' (hg.ownSize.symm.trans ho)
    | ptr hv hp hn =>
      obtain ⟨v', hv', hg⟩ := h.before hv
      exact .ptr hv' (hg.isPtr.1 hp) ((h.pointers _ _ hv' (hg.isPtr.1 hp) _).2 hn)
    | array hv _ hl ih =>
      obtain ⟨v', hv', hg⟩ := h.before hv
      rw [(hg.array _ _).1 rfl] at hv'
      exact .array hv' ih hl
    | «alias» hv ha _ ih =>
      obtain ⟨v', hv', hg⟩ := h.before hv
      exact .alias hv' (hg.sizeAlias.symm.trans ha) ih

/-- An access by name goes through one of the members `ms`, and then on in `ti`. -/
inductive Through (ti : TypeInformation) (ms : List Member) :
    List PathComponent → UInt32 → Nat → Option UInt32 → Prop where
  | member {m name cs u bits w} : m ∈ ms → m.name = some name → bitWidth m.offset = none → Access ti m.tid cs u bits w →
      Through ti ms (.name name :: cs) u (bitPos m.offset + bits) w
  | bitfield {m name w} : m ∈ ms → m.name = some name → bitWidth m.offset = some w →
      Through ti ms [.name name] m.tid (bitPos m.offset) (some w)
  | anonymous {m name cs u bits w} : m ∈ ms → m.name = none → bitWidth m.offset = none →
      Access ti m.tid (.name name :: cs) u bits w →
      Through ti ms (.name name :: cs) u (bitPos m.offset + bits) w

theorem Through.access {ms : List Member} {cs : List PathComponent} {t u : UInt32} {bits : Nat} {w : Option UInt32}
    {v : TypeVariant} (h : Through ti ms cs u bits w) (hr : Resolves ti t v) (hm : membersOf v = some ms) :
    Access ti t cs u bits w := by
  cases h with
  | member h1 h2 h3 h4 => exact .member hr hm h1 h2 h3 h4
  | bitfield h1 h2 h3 => exact .bitfield hr hm h1 h2 h3
  | anonymous h1 h2 h3 h4 => exact .anonymous hr hm h1 h2 h3 h4

theorem through_of_access {t u : UInt32} {name : Str} {cs : List PathComponent} {bits : Nat} {w : Option UInt32}
    {v : TypeVariant} {ms : List Member} (h : Access ti t (.name name :: cs) u bits w) (hr : Resolves ti t v)
    (hm : membersOf v = some ms) : Through ti ms (.name name :: cs) u bits w := by
  cases h with
  | member hr' hm' h1 h2 h3 h4 =>
    cases resolves_unique hr hr'; cases hm.symm.trans hm'; exact .member h1 h2 h3 h4
  | bitfield hr' hm' h1 h2 h3 =>
    cases resolves_unique hr hr'; cases hm.symm.trans hm'; exact .bitfield h1 h2 h3
  | anonymous hr' hm' h1 h2 h3 h4 =>
    cases resolves_unique hr hr'; cases hm.symm.trans hm'; exact .anonymous h1 h2 h3 h4

/-- A step inside of an unnamed member is a step among the members of the outer struct that stand for it. -/
theorem Through.lift {a : Member} {inner ms' : List Member} (hl : ∀ x ∈ inner, ∃ x' ∈ ms', Lifted a x x')
    {cs : List PathComponent} {u : UInt32} {bits : Nat} {w : Option UInt32} (h : Through ti inner cs u bits w) :
    Through ti ms' cs u (bitPos a.offset + bits) w := by
  cases h with
  | @member m _ _ _ bits _ h1 h2 h3 h4 =>
    obtain ⟨x', hx', hl⟩ := hl _ h1
    have := Through.member hx' (hl.name.trans h2) (hl.width.trans h3) (hl.type ▸ h4)
    rwa [hl.position, Nat.add_assoc] at this
  | @bitfield m _ _ h1 h2 h3 =>
    obtain ⟨x', hx', hl⟩ := hl _ h1
    have := Through.bitfield (ti := ti) hx' (hl.name.trans h2) (hl.width.trans h3)
    rwa [hl.position, hl.type] at this
  | @anonymous m _ _ _ bits _ h1 h2 h3 h4 =>
    obtain ⟨x', hx', hl⟩ := hl _ h1
    have := Through.anonymous hx' (hl.name.trans h2) (hl.width.trans h3) (hl.type ▸ h4)
    rwa [hl.position, Nat.add_assoc] at this

/-- Accesses before are accesses afterwards. -/
theorem Spec.Regroups.access_fwd (h : Regroups ti ti') {t u : UInt32} {cs : List PathComponent} {bits : Nat}
    {w : Option UInt32} (hA : Access ti t cs u bits w) : Access ti' t cs u bits w ∧
      ∀ v inner, Resolves ti t v → membersOf v = some inner → ∀ name cs', cs = .name name :: cs' →
        Through ti' inner cs u bits w := by
  induction hA with
  | here => exact ⟨.here, fun _ _ _ _ _ _ hc => by cases hc⟩
  | element hr hi hs _ ih =>
    exact ⟨.element (h.resolves_array.1 hr) hi (h.hasSize.1 hs) ih.1, fun _ _ _ _ _ _ hc => by cases hc⟩
  | @member t v ms m name cs u bits w hr hm hmem hn hb hA ih =>
    have hT : Through ti' ms (.name name :: cs) u (bitPos m.offset + bits) w := .member hmem hn hb ih.1
    obtain ⟨v', hr', hg⟩ := h.resolves hr
    obtain ⟨ms', hm', hsame⟩ := hg.members_of hm
    refine ⟨?_, fun v1 inner hr1 hm1 _ _ _ => ?_⟩
    · rcases hsame.all m hmem with hk | ⟨inner, hun, _⟩
      · exact .member hr' hm' hk hn hb ih.1
      · rw [hun.unnamed] at hn; cases hn
    · cases resolves_unique hr hr1; cases hm.symm.trans hm1; exact hT
  | @bitfield t v ms m name w hr hm hmem hn hb =>
    obtain ⟨v', hr', hg⟩ := h.resolves hr
    obtain ⟨ms', hm', hsame⟩ := hg.members_of hm
    refine ⟨?_, fun v1 inner hr1 hm1 _ _ _ => ?_⟩
    · rcases hsame.all m hmem with hk | ⟨inner, hun, _⟩
      · exact .bitfield hr' hm' hk hn hb
      · rw [hun.unnamed] at hn; cases hn
    · cases resolves_unique hr hr1; cases hm.symm.trans hm1; exact .bitfield hmem hn hb
  | @anonymous t v ms m name cs u bits w hr hm hmem hn hb hA ih =>
    obtain ⟨v', hr', hg⟩ := h.resolves hr
    obtain ⟨ms', hm', hsame⟩ := hg.members_of hm
    refine ⟨?_, fun v1 inner hr1 hm1 _ _ _ => ?_⟩
    · rcases hsame.all m hmem with hk | ⟨inner, hun, hl⟩
      · exact .anonymous hr' hm' hk hn hb ih.1
      · obtain ⟨v2, hr2, hm2⟩ := hun.members
        exact ((ih.2 v2 inner hr2 hm2 _ _ rfl).lift hl).access hr' hm'
    · cases resolves_unique hr hr1; cases hm.symm.trans hm1; exact .anonymous hmem hn hb ih.1

/-- Accesses afterwards are accesses before. -/
theorem Spec.Regroups.access_bwd (h : Regroups ti ti') {t u : UInt32} {cs : List PathComponent} {bits : Nat}
    {w : Option UInt32} (hA : Access ti' t cs u bits w) : Access ti t cs u bits w := by
  induction hA with
  | here => exact .here
  | element hr hi hs _ ih => exact .element (h.resolves_array.2 hr) hi (h.hasSize.2 hs) ih
  | @member t v' ms' m name cs u bits w hr' hm' hmem hn hb _ ih =>
    obtain ⟨v, hr, hg⟩ := h.resolves' hr'
    obtain ⟨ms, hm, hsame⟩ := hg.members_of' hm'
    rcases hsame.only m hmem with hk | ⟨a, ha, inner, hun, x, hx, hl⟩
    · exact .member hr hm hk hn hb ih
    · obtain ⟨v2, hr2, hm2⟩ := hun.members
      rw [hl.position, Nat.add_assoc]
      exact .anonymous hr hm ha hun.unnamed hun.bytes
        (.member hr2 hm2 hx (hl.name.symm.trans hn) (hl.width.symm.trans hb) (hl.type ▸ ih))
  | @bitfield t v' ms' m name w hr' hm' hmem hn hb =>
    obtain ⟨v, hr, hg⟩ := h.resolves' hr'
    obtain ⟨ms, hm, hsame⟩ := hg.members_of' hm'
    rcases hsame.only m hmem with hk | ⟨a, ha, inner, hun, x, hx, hl⟩
    · exact .bitfield hr hm hk hn hb
    · obtain ⟨v2, hr2, hm2⟩ := hun.members
      rw [hl.position, hl.type]
      exact .anonymous hr hm ha hun.unnamed hun.bytes
        (.bitfield hr2 hm2 hx (hl.name.symm.trans hn) (hl.width.symm.trans hb))
  | @anonymous t v' ms' m name cs u bits w hr' hm' hmem hn hb _ ih =>
    obtain ⟨v, hr, hg⟩ := h.resolves' hr'
    obtain ⟨ms, hm, hsame⟩ := hg.members_of' hm'
    rcases hsame.only m hmem with hk | ⟨a, ha, inner, hun, x, hx, hl⟩
    · exact .anonymous hr hm hk hn hb ih
    · obtain ⟨v2, hr2, hm2⟩ := hun.members
      rw [hl.position, Nat.add_assoc]
      exact .anonymous hr hm ha hun.unnamed hun.bytes
        (.anonymous hr2 hm2 hx (hl.name.symm.trans hn) (hl.width.symm.trans hb) (hl.type ▸ ih))

theorem Spec.Regroups.access (h : Regroups ti ti') {t u : UInt32} {cs : List PathComponent} {bits : Nat}
    {w : Option UInt32} : Access ti t cs u bits w ↔ Access ti' t cs u bits w :=
  ⟨fun hA => (h.access_fwd hA).1, h.access_bwd⟩

/-! ### The result is well-formed -/

theorem depends_chain {t a : UInt32} (hc : Chain ti accessAlias t a) : Relation.ReflTransGen (Depends ti) t a := by
  induction hc with
  | refl => exact .refl
  | step hv hr _ ih => exact .head (.alias hv hr) ih

theorem Spec.Regroups.depends (h : Regroups ti ti') {t u : UInt32} (hd : Depends ti' t u) :
    Relation.TransGen (Depends ti) t u := by
  cases hd with
  | «alias» hv ha =>
    obtain ⟨v, hv, hg⟩ := h.before hv
    exact .single (.alias hv (hg.alias.symm.trans ha))
  | size hv ha =>
    obtain ⟨v, hv, hg⟩ := h.before hv
    exact .single (.size hv (hg.sizeRef.symm.trans ha))
  | anonymous hv hm hmem hn =>
    obtain ⟨v, hv, hg⟩ := h.before hv
    obtain ⟨ms, hm, hsame⟩ := hg.members_of' hm
    rcases hsame.only _ hmem with hk | ⟨a, ha, inner, hun, x, hx, hl⟩
    · exact .single (.anonymous hv hm hk hn)
    · obtain ⟨v2, ⟨b, hc, hb, _⟩, hm2⟩ := hun.members
      rw [hl.type]
      exact .tail' ((depends_chain hc).head (.anonymous hv hm ha hun.unnamed)) (.anonymous hb hm2 hx (hl.name.symm.trans hn))

theorem Spec.Regroups.acyclic (h : Regroups ti ti') (hac : Acyclic ti) : Acyclic ti' := by
  have key : ∀ t u, Relation.TransGen (Depends ti') t u → Relation.TransGen (Depends ti) t u := by
    intro t u ht
    induction ht with
    | single hd => exact h.depends hd
    | tail _ hd ih => exact ih.trans (h.depends hd)
  exact fun t ht => hac t (key t t ht)

theorem bitPos_inj {o o' : Offset} (h1 : bitPos o = bitPos o') (h2 : bitWidth o = bitWidth o') : o = o' := by
  cases o <;> cases o' <;> simp [bitPos, bitWidth] at *
  · exact UInt32.toNat_inj.1 (by omega)
  · exact ⟨UInt32.toNat_inj.1 h1, h2⟩

theorem Spec.Regroups.layout (h : Regroups ti ti') (hw : Layout ti) : Layout ti' where
  small t n hs := hw.small t n (h.hasSize.2 hs)
  inside t v' ms' m s hv' hm' hmem ho := by
    obtain ⟨v, hv, hg⟩ := h.before hv'
    obtain ⟨ms, hm, hsame⟩ := hg.members_of' hm'
    have ho' := hg.ownSize.symm.trans ho
    rcases hsame.only m hmem with hk | ⟨a, ha, inner, hun, x, hx, hl⟩
    · have := hw.inside t v ms m s hv hm hk ho'
      unfold Inside at this ⊢
      split <;> rename_i hb <;> simp only [hb] at this
      · obtain ⟨n, h1, h2⟩ := this
        exact ⟨n, h.hasSize.1 h1, h2⟩
      · exact this
    · obtain ⟨v2, ⟨b, hc, hb, hna⟩, hm2⟩ := hun.members
      have h1 := hw.inside t v ms a s hv hm ha ho'
      obtain ⟨s2, hs2⟩ := members_ownSize hm2
      have h2 := hw.inside b v2 inner x s2 hb hm2 hx hs2
      have hab := hun.bytes
      unfold Inside at h1 h2 ⊢
      simp only [hab] at h1
      obtain ⟨n, hn, hle⟩ := h1
      have : n = s2 := by
        have := chain_hasSize hc hn
        exact hasSize_unique this (.own hb hs2)
      subst this
      rw [hl.width, hl.position, hl.type]
      split <;> rename_i hb <;> simp only [hb] at h2
      · obtain ⟨k, h3, h4⟩ := h2
        exact ⟨k, h.hasSize.1 h3, by omega⟩
      · omega
  bitfields t v' ms' m hv' hm' hmem hb := by
    obtain ⟨v, hv, hg⟩ := h.before hv'
    obtain ⟨ms, hm, hsame⟩ := hg.members_of' hm'
    rcases hsame.only m hmem with hk | ⟨a, ha, inner, hun, x, hx, hl⟩
    · obtain ⟨h1, h2⟩ := hw.bitfields t v ms m hv hm hk hb
      refine ⟨h1, fun u hu => ?_⟩
      obtain ⟨u0, hu0, hg0⟩ := h.resolves' hu
      rw [hg0.isAggregate]
      exact h2 u0 hu0
    · obtain ⟨v2, ⟨b, hc, hb2, hna⟩, hm2⟩ := hun.members
      have hbx : IsBitfield x.offset := by unfold IsBitfield at hb ⊢; rwa [← hl.width]
      obtain ⟨h1, h2⟩ := hw.bitfields b v2 inner x hb2 hm2 hx hbx
      refine ⟨hl.name ▸ h1, fun u hu => ?_⟩
      obtain ⟨u0, hu0, hg0⟩ := h.resolves' hu
      rw [hg0.isAggregate]
      exact h2 u0 (hl.type ▸ hu0)

/-- A member afterwards is a field before. -/
theorem Spec.SameMembers.field {ms ms' : List Member} (hsame : SameMembers ti ms ms') {v : TypeVariant}
    (hm : membersOf v = some ms) {m' : Member} (hmem : m' ∈ ms') {name : Str} (hn : m'.name = some name) :
    ∃ m, Field ti v name m (bitPos m'.offset) ∧ m'.nameOffset = m.nameOffset ∧ m'.tid = m.tid ∧
      bitWidth m'.offset = bitWidth m.offset := by
  rcases hsame.only m' hmem with hk | ⟨a, ha, inner, hun, x, hx, hl⟩
  · exact ⟨m', .direct hm hk hn, rfl, rfl, rfl⟩
  · obtain ⟨v2, hr2, hm2⟩ := hun.members
    refine ⟨x, ?_, hl.nameOffset, hl.type, hl.width⟩
    rw [hl.position]
    exact .nested hm ha hun.unnamed hun.bytes hr2 (.direct hm2 hx (hl.name.symm.trans hn))

theorem Spec.Regroups.wellFormed (h : Regroups ti ti') (hw : WellFormed ti) (hu : Unambiguous ti) : WellFormed ti' where
  toLayout := h.layout hw.toLayout
  acyclic := h.acyclic hw.acyclic
  distinct t v' ms' m m' name hv' hm' hmem hmem' hn hn' := by
    obtain ⟨v, hv, hg⟩ := h.before hv'
    obtain ⟨ms, hm, hsame⟩ := hg.members_of' hm'
    obtain ⟨x, hx, h1, h2, h3⟩ := hsame.field hm hmem hn
    obtain ⟨x', hx', h1', h2', h3'⟩ := hsame.field hm hmem' hn'
    obtain ⟨rfl, hp⟩ := hu t v name _ _ _ _ hv hx hx'
    have ho := bitPos_inj hp (h3.trans h3'.symm)
    cases m; cases m'; simp_all

/-! ### The other queries -/

theorem Spec.Regroups.pointerSize (h : Regroups ti ti') {t : UInt32} {v : TypeVariant}
    (hv : ti.fromId t = some v) (hp : IsPtr v) : ti'.pointerSize = ti.pointerSize := by
  rcases pointerSize_eq ti with ⟨n, h1, h2⟩ | ⟨h1, h2⟩ <;>
    rcases pointerSize_eq ti' with ⟨m, h3, h4⟩ | ⟨h3, h4⟩
  · rw [h1, h3, pointerSize_unique ((h.pointers t v hv hp n).1 h2) h4]
  · exact absurd ⟨n, (h.pointers t v hv hp n).1 h2⟩ h4
  · exact absurd ⟨m, (h.pointers t v hv hp m).2 h4⟩ h2
  · rw [h1, h3]

theorem Spec.Regroups.sizeOf (h : Regroups ti ti') (cfg : Cfg) (k : Nat) : ∀ t,
    TypeInformation.sizeOf cfg ti' k t = TypeInformation.sizeOf cfg ti k t := by
  induction k with
  | zero => intro t; rfl
  | succ k ih =>
    intro t
    cases hv : ti.fromId t with
    | none => simp only [TypeInformation.sizeOf, hv, h.missing t hv]
    | some v =>
      obtain ⟨v', hv', hr⟩ := h.present t v hv
      simp only [TypeInformation.sizeOf, hv, hv']
      cases hr with
      | same hm =>
        cases v
        case ptr => exact h.pointerSize hv trivial
        all_goals simp_all
      | struct h1 h2 => simp_all
      | union h1 h2 => simp_all

theorem Spec.Regroups.pointeeTid (h : Regroups ti ti') (k : Nat) : ∀ t,
    TypeInformation.pointeeTid ti' k t = TypeInformation.pointeeTid ti k t := by
  induction k with
  | zero => intro t; rfl
  | succ k ih =>
    intro t
    cases hv : ti.fromId t with
    | none => simp only [TypeInformation.pointeeTid, hv, h.missing t hv]
    | some v =>
      obtain ⟨v', hv', hr⟩ := h.present t v hv
      simp only [TypeInformation.pointeeTid, hv, hv']
      cases hr with
      | same hm => cases v <;> first | rfl | exact ih _
      | struct h1 h2 => rfl
      | union h1 h2 => rfl

end Btf

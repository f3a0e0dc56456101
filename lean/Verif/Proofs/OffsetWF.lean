import Verif.Proofs.Ev

/-!
# `offset_of` on well-formed type graphs: completeness, translation, containment
-/

namespace Btf

open Spec TypeInformation Props

/-! ### Accesses compose and split -/

section
variable {ti : TypeInformation}

theorem access_append {t u v : UInt32} {cs ds : List PathComponent} {b1 b2 : Nat} {w w' : Option UInt32}
    (h1 : Access ti t cs u b1 w) (hw : w = none) (h2 : Access ti u ds v b2 w') :
    Access ti t (cs ++ ds) v (b1 + b2) w' := by
  induction h1 with
  | here => simpa using h2
  | element hr hi hs _ ih => rw [Nat.add_assoc]; exact .element hr hi hs (ih hw h2)
  | member hr hm hmem hn hb _ ih => rw [Nat.add_assoc]; exact .member hr hm hmem hn hb (ih hw h2)
  | bitfield => cases hw
  | anonymous hr hm hmem hn hb _ ih => rw [Nat.add_assoc]; exact .anonymous hr hm hmem hn hb (ih hw h2)

theorem access_split {t v : UInt32} {es : List PathComponent} {b : Nat} {w : Option UInt32}
    (h : Access ti t es v b w) : ∀ {cs ds : List PathComponent}, es = cs ++ ds → ds ≠ [] →
    ∃ u b1 b2, Access ti t cs u b1 none ∧ Access ti u ds v b2 w ∧ b = b1 + b2 := by
  induction h with
  | here => intro cs ds he hd; simp at he; exact absurd he.2 hd
  | @element t hd d i n es u bits w hr hi hs hA ih =>
    intro cs ds he hne
    cases cs with
    | nil => simp at he; subst he; exact ⟨t, 0, _, .here, .element hr hi hs hA, by simp⟩
    | cons c cs =>
      simp at he
      obtain ⟨rfl, he⟩ := he
      obtain ⟨u', b1, b2, h1, h2, h3⟩ := ih he hne
      exact ⟨u', _, b2, .element hr hi hs h1, h2, by omega⟩
  | @member t v ms m name es u bits w hr hm hmem hn hb hA ih =>
    intro cs ds he hne
    cases cs with
    | nil => simp at he; subst he; exact ⟨t, 0, _, .here, .member hr hm hmem hn hb hA, by simp⟩
    | cons c cs =>
      simp at he
      obtain ⟨rfl, he⟩ := he
      obtain ⟨u', b1, b2, h1, h2, h3⟩ := ih he hne
      exact ⟨u', _, b2, .member hr hm hmem hn hb h1, h2, by omega⟩
  | @bitfield t v ms m name w hr hm hmem hn hb =>
    intro cs ds he hne
    cases cs with
    | nil => simp at he; subst he; exact ⟨t, 0, _, .here, .bitfield hr hm hmem hn hb, by simp⟩
    | cons c cs => simp at he; exact absurd he.2.2 hne
  | @anonymous t v ms m name es u bits w hr hm hmem hn hb hA ih =>
    intro cs ds he hne
    cases cs with
    | nil => simp at he; subst he; exact ⟨t, 0, _, .here, .anonymous hr hm hmem hn hb hA, by simp⟩
    | cons c cs =>
      have he' := he
      simp at he
      obtain ⟨rfl, he⟩ := he
      obtain ⟨u', b1, b2, h1, h2, h3⟩ := ih he' hne
      exact ⟨u', _, b2, .anonymous hr hm hmem hn hb h1, h2, by omega⟩

/-- A bitfield is reached only by naming one as the last component. -/
theorem access_bitfield {t u : UInt32} {cs : List PathComponent} {b : Nat} {w : Option UInt32} {k : UInt32}
    (h : Access ti t cs u b w) (hw : w = some k) :
    ∃ cs' name x v ms m, cs = cs' ++ [.name name] ∧ Resolves ti x v ∧ membersOf v = some ms ∧ m ∈ ms ∧
      m.name = some name ∧ m.tid = u ∧ bitWidth m.offset = some k := by
  induction h with
  | here => cases hw
  | element hr hi hs _ ih =>
    obtain ⟨cs', name, x, v, ms, m, rfl, h⟩ := ih hw
    exact ⟨_ :: cs', name, x, v, ms, m, rfl, h⟩
  | member hr hm hmem hn hb _ ih =>
    obtain ⟨cs', name, x, v, ms, m, rfl, h⟩ := ih hw
    exact ⟨_ :: cs', name, x, v, ms, m, rfl, h⟩
  | @bitfield t v ms m name w hr hm hmem hn hb =>
    exact ⟨[], name, t, v, ms, m, rfl, hr, hm, hmem, hn, rfl, by rw [hb, hw]⟩
  | anonymous hr hm hmem hn hb _ ih => exact ih hw

theorem resolves_unique {t : UInt32} {v v' : TypeVariant} (h : Resolves ti t v) (h' : Resolves ti t v') :
    v = v' := by
  obtain ⟨a, hc, hv, hn⟩ := h
  obtain ⟨a', hc', hv', hn'⟩ := h'
  have := chain_end_unique hc hc' (fun w hw => by rw [hv] at hw; cases hw; exact hn)
    (fun w hw => by rw [hv'] at hw; cases hw; exact hn')
  subst this
  rw [hv] at hv'; cases hv'; rfl

/-- The field an access by name goes through, and the rest of the access. -/
theorem access_field {t u : UInt32} {es : List PathComponent} {b : Nat} {w : Option UInt32}
    (h : Access ti t es u b w) : ∀ {name cs}, es = .name name :: cs →
    ∃ v m fb, Resolves ti t v ∧ Field ti v name m fb ∧
      ((∃ rest, bitWidth m.offset = none ∧ Access ti m.tid cs u rest w ∧ b = fb + rest) ∨
       (∃ k, bitWidth m.offset = some k ∧ cs = [] ∧ u = m.tid ∧ w = some k ∧ b = fb)) := by
  induction h with
  | here => intro name cs he; cases he
  | element => intro name cs he; cases he
  | @member t v ms m name es u bits w hr hm hmem hn hb hA ih =>
    intro name cs he; cases he
    exact ⟨v, m, _, hr, .direct hm hmem hn, .inl ⟨bits, hb, hA, rfl⟩⟩
  | @bitfield t v ms m name w hr hm hmem hn hb =>
    intro name cs he; cases he
    exact ⟨v, m, _, hr, .direct hm hmem hn, .inr ⟨w, hb, rfl, rfl, rfl, rfl⟩⟩
  | @anonymous t v ms m name es u bits w hr hm hmem hn hb hA ih =>
    intro name cs he; cases he
    obtain ⟨v', m', fb, hr', hf, h⟩ := ih rfl
    refine ⟨v, m', _, hr, .nested hm hmem hn hb hr' hf, ?_⟩
    rcases h with ⟨rest, h1, h2, h3⟩ | ⟨k, h1, h2, h3, h4, h5⟩
    · exact .inl ⟨rest, h1, h2, by omega⟩
    · exact .inr ⟨k, h1, h2, h3, h4, by omega⟩

/-- Where names are unambiguous, so are accesses. -/
theorem access_unique (hu : Unambiguous ti) {t u u' : UInt32} {cs : List PathComponent} {b b' : Nat}
    {w w' : Option UInt32} (h : Access ti t cs u b w) (h' : Access ti t cs u' b' w') :
    u = u' ∧ b = b' ∧ w = w' := by
  induction cs generalizing t u u' b b' w w' with
  | nil => cases h; cases h'; exact ⟨rfl, rfl, rfl⟩
  | cons c cs ih =>
    cases c with
    | index i =>
      cases h with
      | element hr hi hs hA =>
        cases h' with
        | element hr' hi' hs' hA' =>
          have := resolves_unique hr hr'
          cases this
          obtain ⟨rfl, rfl, rfl⟩ := ih hA hA'
          have := hasSize_unique hs hs'
          subst this
          exact ⟨rfl, rfl, rfl⟩
    | name name =>
      obtain ⟨v, m, fb, hr, hf, h⟩ := access_field h rfl
      obtain ⟨v', m', fb', hr', hf', h'⟩ := access_field h' rfl
      have := resolves_unique hr hr'
      subst this
      obtain ⟨a, -, hv, -⟩ := hr
      obtain ⟨rfl, rfl⟩ := hu a v name m fb m' fb' hv hf hf'
      rcases h with ⟨rest, h1, h2, rfl⟩ | ⟨k, h1, rfl, rfl, rfl, rfl⟩
      · rcases h' with ⟨rest', -, h2', rfl⟩ | ⟨k, h1', -⟩
        · obtain ⟨rfl, rfl, rfl⟩ := ih h2 h2'
          exact ⟨rfl, rfl, rfl⟩
        · rw [h1] at h1'; cases h1'
      · rcases h' with ⟨rest', h1', -⟩ | ⟨k', h1', -, rfl, rfl, rfl⟩
        · rw [h1] at h1'; cases h1'
        · rw [h1] at h1'; cases h1'
          exact ⟨rfl, rfl, rfl⟩

theorem accessAlias_no_own {v : TypeVariant} {u : UInt32} (h : accessAlias v = some u) : ownSize v = none := by
  cases v <;> simp_all [accessAlias, aliasOf, ownSize]

theorem accessAlias_no_ptr {v : TypeVariant} {u : UInt32} (h : accessAlias v = some u) : ¬ IsPtr v := by
  cases v <;> simp_all [accessAlias, aliasOf, IsPtr]

theorem accessAlias_sizeAlias {v : TypeVariant} {u u' : UInt32} (h : accessAlias v = some u)
    (h' : sizeAlias v = some u') : u = u' := by
  cases v <;> simp_all [accessAlias, aliasOf, sizeAlias]

theorem chain_hasSize {t a : UInt32} {n : Nat} (hc : Chain ti accessAlias t a) (hs : HasSize none ti t n) :
    HasSize none ti a n := by
  induction hc generalizing n with
  | refl => exact hs
  | step hv hu _ ih =>
    cases hs with
    | own hv' ho => rw [hv] at hv'; cases hv'; rw [accessAlias_no_own hu] at ho; cases ho
    | ptr hv' hp _ => rw [hv] at hv'; cases hv'; exact absurd hp (accessAlias_no_ptr hu)
    | array hv' => rw [hv] at hv'; cases hv'; simp [accessAlias, aliasOf] at hu
    | «alias» hv' ha h' =>
      rw [hv] at hv'; cases hv'
      rw [accessAlias_sizeAlias hu ha] at ih
      exact ih h'

theorem members_ownSize {v : TypeVariant} {ms : List Member} (h : membersOf v = some ms) :
    ∃ s, ownSize v = some s := by
  cases v <;> simp_all [membersOf, ownSize]

/-! ### Room -/

/-- Byte offset `n`. -/
def byteAt (n : Nat) : Offset := .byteOffset (UInt32.ofNat n)

theorem bitWidth_byteAt (n : Nat) : bitWidth (byteAt n) = none := rfl

theorem bitPos_byteAt {n : Nat} (h : n < 2 ^ 32) : bitPos (byteAt n) = 8 * n := by
  simp only [byteAt, bitPos, ofNat_toNat_lt h]

/-- At byte `b` there is room for an object of type `t` (below 2^29 bytes). -/
def Room (ti : TypeInformation) (b : Nat) (t : UInt32) : Prop :=
  b < 2 ^ 29 ∧ ∀ a n, Chain ti accessAlias t a → HasSize none ti a n → b + n < 2 ^ 29

theorem room_zero (hw : Layout ti) (t : UInt32) : Room ti 0 t :=
  ⟨by decide, fun a n _ h => by have := hw.small a n h; omega⟩

theorem room_of_hasSize {b n : Nat} {t : UInt32} (hs : HasSize none ti t n) (h : b + n < 2 ^ 29) :
    Room ti b t :=
  ⟨by omega, fun a n' hc h' => by have := hasSize_unique h' (chain_hasSize hc hs); omega⟩

/-- The offset of a member that is not a bitfield is a whole number of bytes. -/
theorem bytes_of_not_bitfield {o : Offset} (h : bitWidth o = none) :
    ∃ k, k < 2 ^ 32 ∧ bitPos o = 8 * k ∧ o = byteAt k := by
  cases o with
  | byteOffset b => exact ⟨b.toNat, b.toNat_lt, rfl, by simp [byteAt]⟩
  | bitOffsetAndSize x w => cases h

/-- A plain member of a type that has room. -/
theorem room_member (hw : Layout ti) {t : UInt32} {v : TypeVariant} {ms : List Member} {m : Member} {b : Nat}
    (hr : Resolves ti t v) (hm : membersOf v = some ms) (hmem : m ∈ ms) (hb : bitWidth m.offset = none)
    (hroom : Room ti b t) :
    ∃ k, bitPos m.offset = 8 * k ∧ m.offset.add (byteAt b) = .ok (byteAt (b + k)) ∧
      (byteAt b).add m.offset = .ok (byteAt (b + k)) ∧ Room ti (b + k) m.tid := by
  obtain ⟨a, hc, ha, -⟩ := hr
  obtain ⟨s, hs⟩ := members_ownSize hm
  have hin := hw.inside a v ms m s ha hm hmem hs
  rw [Inside, hb] at hin
  obtain ⟨n, hn, hle⟩ := hin
  have hbs := hroom.2 a s hc (.own ha hs)
  obtain ⟨k, hk, hpos, hoff⟩ := bytes_of_not_bitfield hb
  rw [hpos] at hle
  refine ⟨k, hpos, ?_, ?_, room_of_hasSize hn (by omega)⟩
  · rw [offset_add_ok]
    refine ⟨by simp [IsBitfield, hb], rfl, ?_⟩
    rw [bitPos_byteAt (by omega), bitPos_byteAt (by omega), hpos]; omega
  · rw [offset_add_ok]
    refine ⟨by simp [IsBitfield, bitWidth_byteAt], by rw [hb]; rfl, ?_⟩
    rw [bitPos_byteAt (by omega), bitPos_byteAt (by omega), hpos]; omega

/-- A bitfield member of a type that has room. -/
theorem room_bitfield (hw : Layout ti) {t : UInt32} {v : TypeVariant} {ms : List Member} {m : Member} {b : Nat}
    {w : UInt32} (hr : Resolves ti t v) (hm : membersOf v = some ms) (hmem : m ∈ ms)
    (hb : bitWidth m.offset = some w) (hroom : Room ti b t) :
    8 * b + bitPos m.offset < 2 ^ 32 ∧
    (byteAt b).add m.offset = .ok (.bitOffsetAndSize (UInt32.ofNat (8 * b + bitPos m.offset)) w) := by
  obtain ⟨a, hc, ha, -⟩ := hr
  obtain ⟨s, hs⟩ := members_ownSize hm
  have hin := hw.inside a v ms m s ha hm hmem hs
  rw [Inside, hb] at hin
  simp only [] at hin
  have hbs := hroom.2 a s hc (.own ha hs)
  have hlt : 8 * b + bitPos m.offset < 2 ^ 32 := by omega
  refine ⟨hlt, ?_⟩
  rw [offset_add_ok]
  refine ⟨by simp [IsBitfield, bitWidth_byteAt], by rw [hb]; rfl, ?_⟩
  rw [bitPos_byteAt (by omega)]
  exact ofNat_toNat_lt hlt

theorem sizeOf_wf (hw : Layout ti) (cfg : Cfg) {k : Nat} {t : UInt32} :
    (∀ n, TypeInformation.sizeOf cfg ti k t = .ok n → HasSize none ti t n) ∧
    TypeInformation.sizeOf cfg ti k t ≠ .panic := by
  have hmod : 2 ^ 32 ≤ cfg.usizeMod := by unfold Cfg.usizeMod; cases cfg.width <;> decide
  have h1 : ∀ k t n, TypeInformation.sizeOf cfg ti k t = .ok n → HasSize none ti t n := by
    intro k t n h
    have hf : SizesFit ti := fun t v n hv ho => by
      have := hw.small t n (.own hv ho); omega
    obtain ⟨m, hm, rfl⟩ := (hasSize_of_sizeOf h).2 hf
    have := hw.small t m hm
    rw [Nat.mod_eq_of_lt (by omega)]
    exact hm
  refine ⟨h1 k t, ?_⟩
  induction k generalizing t with
  | zero => intro h; cases h
  | succ k ih =>
    rcases goes_on_or_ends ti sizeRef t with ⟨w, u, hv, hu⟩ | hend
    · rw [(sizeOf_follows cfg ti).next k t w u hv hu, Ne, Outcome.bind_panic]
      rintro (h | ⟨a, ha, h⟩)
      · exact ih h
      · rcases sizeRef_cases hu with hal | ⟨hd, d, rfl, rfl⟩
        · rw [(sizeAlias_sizeRef hal).2] at h; cases h
        · have := hw.small t _ (.array hv (h1 _ _ _ ha) (by simp))
          simp only [sizePost, Cfg.usizeMul] at h
          rw [wrapOr_fits (by omega)] at h
          cases h
    · rw [(sizeOf_follows cfg ti).last k t hend]
      unfold sizeLeaf
      split
      · simp
      · split
        · simp
        · split
          · rcases pointerSize_eq ti with ⟨n, h, -⟩ | ⟨h, -⟩ <;> rw [h] <;> simp
          · simp

theorem sizesExact_wf (hw : Layout ti) (cfg : Cfg) : SizesExact cfg ti :=
  fun _ _ _ h => (sizeOf_wf hw cfg).1 _ h

theorem impl_wf_not_panic (hw : Layout ti) (cfg : Cfg) {clean : Bool} {n : Nat} {offset : Offset} {t : UInt32}
    {cs : List PathComponent} : impl cfg ti clean n offset t cs ≠ .panic := by
  intro h
  obtain ⟨k, u, h⟩ := impl_panic h
  exact (sizeOf_wf hw cfg).2 h

theorem ev_sizeOf (hw : WellFormed ti) (cfg : Cfg) {t : UInt32} {s : Nat} (h : HasSize none ti t s) :
    Ev (fun n => TypeInformation.sizeOf cfg ti n t) (.ok s) := by
  obtain ⟨o, hne, ho⟩ := sizeOf_settles cfg hw.acyclic t
  have hret := returns_of_ev hne ho
  cases o with
  | ok n =>
    obtain ⟨N, hN⟩ := ho
    rw [hasSize_unique h ((sizeOf_wf hw.toLayout cfg).1 n (hN N (Nat.le_refl _)))]
    exact ⟨N, hN⟩
  | nofuel => exact absurd rfl hne
  | panic =>
    obtain ⟨N, hN⟩ := ho
    exact absurd (hN N (Nat.le_refl _)) (sizeOf_wf hw.toLayout cfg).2
  | err e =>
    exfalso
    obtain ⟨u, hc, hend, hl⟩ := sizeOf_err_iff.1 hret.2
    clear hret ho
    induction hc generalizing s with
    | refl =>
      cases h with
      | own hv ho =>
        rw [sizeLeaf_ok.2 ⟨_, hv, .inl ho⟩] at hl; cases hl
      | ptr hv hp hs =>
        rw [sizeLeaf_ok.2 ⟨_, hv, .inr ⟨hp, hs⟩⟩] at hl; cases hl
      | array hv => have := hend _ hv; cases this
      | «alias» hv ha => have := hend _ hv; rw [(sizeAlias_sizeRef ha).1] at this; cases this
    | step hv hu _ ih =>
      cases h with
      | own hv' ho => rw [hv] at hv'; cases hv'; rw [ownSize_sizeRef ho] at hu; cases hu
      | ptr hv' hp _ => rw [hv] at hv'; cases hv'; rw [isPtr_sizeRef hp] at hu; cases hu
      | array hv' h' _ => rw [hv] at hv'; cases hv'; cases hu; exact ih h' hend hl
      | «alias» hv' ha h' =>
        rw [hv] at hv'; cases hv'; rw [(sizeAlias_sizeRef ha).1] at hu; cases hu; exact ih h' hend hl

/-- An element of an array that has room. -/
theorem room_element (cfg : Cfg) {t : UInt32} {hd : Header} {d : ArrayData} {i s b : Nat}
    (hr : Resolves ti t (.array hd d)) (hi : i < d.elementCount.toNat) (hs : HasSize none ti d.elementTid s)
    (hroom : Room ti b t) :
    Room ti (b + i * s) d.elementTid ∧
    (∀ n, TypeInformation.sizeOf cfg ti n d.elementTid = .ok s →
      stepIndex cfg ti n (byteAt b) (.array hd d) i = .ok (d.elementTid, byteAt (b + i * s))) := by
  obtain ⟨a, hc, ha, -⟩ := hr
  have hbs := hroom.2 a _ hc (.array ha hs (by simp))
  have hle : i * s + s ≤ s * d.elementCount.toNat := by
    calc i * s + s = s * (i + 1) := by rw [Nat.mul_succ, Nat.mul_comm]
      _ ≤ s * d.elementCount.toNat := Nat.mul_le_mul_left _ hi
  refine ⟨room_of_hasSize hs (by omega), fun n hsz => ?_⟩
  have h64 : (u64CheckedMul i s).bind u32TryFrom = some (UInt32.ofNat (i * s)) := by
    have h1 : i * s < 2 ^ 64 := by omega
    have h2 : i * s < 2 ^ 32 := by omega
    simp only [u64CheckedMul, u32TryFrom, if_pos h1, if_pos h2, Option.bind]
  have hadd : (byteAt b).addU32 (UInt32.ofNat (i * s)) = .ok (byteAt (b + i * s)) := by
    rw [offset_add_u32_ok]
    refine ⟨by simp [IsBitfield, bitWidth_byteAt], rfl, ?_⟩
    rw [bitPos_byteAt (by omega), bitPos_byteAt (by omega), ofNat_toNat_lt (by omega)]; omega
  have hnot : ¬ i ≥ d.elementCount.toNat := by omega
  simp only [stepIndex, if_neg hnot, hsz, h64, okOr, hadd, Bind.bind, Res.bind, Pure.pure]

/-! ### Completeness -/

/-- Probing the anonymous members of a type that has room gives an answer, and finds one if there is
one. -/
theorem probe_wf (hw : WellFormed ti) (cfg : Cfg) {t : UInt32} {v : TypeVariant} {ms : List Member} {b : Nat}
    (hr : Resolves ti t v) (hm : membersOf v = some ms) (hroom : Room ti b t) (es : List PathComponent)
    (sub : List Member) (hsub : ∀ m ∈ sub, m ∈ ms ∧ m.name = none) :
    (∃ r, Ev (fun n => probeAnonymous (fun o u => impl cfg ti true n o u es) (byteAt b) sub) (.ok (some r))) ∨
    (Ev (fun n => probeAnonymous (fun o u => impl cfg ti true n o u es) (byteAt b) sub) (.ok none) ∧
      ∀ m ∈ sub, ∀ k, bitPos m.offset = 8 * k →
        ∃ e, Ev (fun n => impl cfg ti true n (byteAt (b + k)) m.tid es) (.err e)) := by
  induction sub with
  | nil => exact .inr ⟨ev_const _, by simp⟩
  | cons m rest ih =>
    have hmem := hsub m (by simp)
    have hnb : bitWidth m.offset = none := by
      obtain ⟨a, -, ha, -⟩ := hr
      by_contra hb
      exact (hw.bitfields a v ms m ha hm hmem.1 hb).1 hmem.2
    obtain ⟨k, hk, hadd, -, -⟩ := room_member hw.toLayout hr hm hmem.1 hnb hroom
    obtain ⟨o, hne, ho⟩ := impl_settles cfg hw.acyclic true es m.tid (byteAt (b + k))
    have key : ∀ n, probeAnonymous (fun o u => impl cfg ti true n o u es) (byteAt b) (m :: rest) =
        match impl cfg ti true n (byteAt (b + k)) m.tid es with
        | .ok r => .ok (some r)
        | .err _ => probeAnonymous (fun o u => impl cfg ti true n o u es) (byteAt b) rest
        | .panic => .panic
        | .nofuel => .nofuel := by
      intro n; rw [probeAnonymous, hadd]; simp only []; cases impl cfg ti true n (byteAt (b + k)) m.tid es <;> rfl
    obtain ⟨N, hN⟩ := ho
    cases o with
    | nofuel => exact absurd rfl hne
    | panic => exact absurd (hN N (Nat.le_refl _)) (impl_wf_not_panic hw.toLayout cfg)
    | ok r => exact .inl ⟨r, N, fun n hn => by beta_reduce at *; rw [key, hN n hn]⟩
    | err e =>
      have hstep : ∀ o', Ev (fun n => probeAnonymous (fun o u => impl cfg ti true n o u es) (byteAt b) rest) o' →
          Ev (fun n => probeAnonymous (fun o u => impl cfg ti true n o u es) (byteAt b) (m :: rest)) o' := by
        rintro o' ⟨M, hM⟩
        exact ⟨max N M, fun n hn => by beta_reduce at *; rw [key, hN n (by omega)]; exact hM n (by omega)⟩
      rcases ih (fun m' hm' => hsub m' (by simp [hm'])) with ⟨r, h⟩ | ⟨h, h'⟩
      · exact .inl ⟨r, hstep _ h⟩
      · refine .inr ⟨hstep _ h, ?_⟩
        intro m' hm' k' hk'
        rcases List.mem_cons.1 hm' with rfl | hm'
        · have : k' = k := by omega
          subst this
          exact ⟨e, N, hN⟩
        · exact h' m' hm' k' hk'

/-- Completeness: a C access from a place that has room is found (perhaps through another member, if the
names are ambiguous). -/
theorem impl_complete (hw : WellFormed ti) (cfg : Cfg) {t u : UInt32} {cs : List PathComponent} {bits : Nat}
    {w : Option UInt32} (h : Access ti t cs u bits w) :
    ∀ b, Room ti b t → ∃ r, Ev (fun n => impl cfg ti true n (byteAt b) t cs) (.ok r) := by
  induction h with
  | here => intro b _; exact ⟨_, ev_impl_nil⟩
  | @element t hd d i s cs u bits w hr hi hs _ ih =>
    intro b hroom
    obtain ⟨hroom', hst⟩ := room_element cfg hr hi hs hroom
    obtain ⟨r, hr'⟩ := ih _ hroom'
    refine ⟨r, ev_impl_index (x := (d.elementTid, byteAt (b + i * s))) hr ?_ hr'⟩
    obtain ⟨N, hN⟩ := ev_sizeOf hw cfg hs
    exact ⟨N, fun n hn => hst n (hN n hn)⟩
  | @member t v ms m name cs u bits w hr hm hmem hn hb _ ih =>
    intro b hroom
    rcases probe_wf hw cfg hr hm hroom (.name name :: cs) (ms.filter (fun m => m.name.isNone))
      (fun m' h' => by rw [List.mem_filter] at h'; exact ⟨h'.1, by simpa using h'.2⟩) with ⟨r, h⟩ | ⟨h, -⟩
    · exact ⟨r, ev_impl_anon hr hm h⟩
    · obtain ⟨k, -, -, hadd, hroom'⟩ := room_member hw.toLayout hr hm hmem hb hroom
      obtain ⟨r, hr'⟩ := ih _ hroom'
      have hf : ms.find? (fun m => m.name = some name) = some m := by
        cases hf : ms.find? (fun m => m.name = some name) with
        | none => have := List.find?_eq_none.1 hf m hmem; simp [hn] at this
        | some m' =>
          obtain ⟨a, -, ha, -⟩ := hr
          rw [hw.distinct a v ms m m' name ha hm hmem (List.mem_of_find?_eq_some hf) hn
            (by simpa using List.find?_some hf)]
      exact ⟨r, ev_impl_named hr hm h hf hadd hr'⟩
  | @bitfield t v ms m name w hr hm hmem hn hb =>
    intro b hroom
    rcases probe_wf hw cfg hr hm hroom [.name name] (ms.filter (fun m => m.name.isNone))
      (fun m' h' => by rw [List.mem_filter] at h'; exact ⟨h'.1, by simpa using h'.2⟩) with ⟨r, h⟩ | ⟨h, -⟩
    · exact ⟨r, ev_impl_anon hr hm h⟩
    · obtain ⟨-, hadd⟩ := room_bitfield hw.toLayout hr hm hmem hb hroom
      have hf : ms.find? (fun m => m.name = some name) = some m := by
        cases hf : ms.find? (fun m => m.name = some name) with
        | none => have := List.find?_eq_none.1 hf m hmem; simp [hn] at this
        | some m' =>
          obtain ⟨a, -, ha, -⟩ := hr
          rw [hw.distinct a v ms m m' name ha hm hmem (List.mem_of_find?_eq_some hf) hn
            (by simpa using List.find?_some hf)]
      exact ⟨_, ev_impl_named hr hm h hf hadd ev_impl_nil⟩
  | @anonymous t v ms m name cs u bits w hr hm hmem hn hb _ ih =>
    intro b hroom
    rcases probe_wf hw cfg hr hm hroom (.name name :: cs) (ms.filter (fun m => m.name.isNone))
      (fun m' h' => by rw [List.mem_filter] at h'; exact ⟨h'.1, by simpa using h'.2⟩) with ⟨r, h⟩ | ⟨h, hno⟩
    · exact ⟨r, ev_impl_anon hr hm h⟩
    · exfalso
      obtain ⟨k, hk, -, -, hroom'⟩ := room_member hw.toLayout hr hm hmem hb hroom
      obtain ⟨r, hr'⟩ := ih _ hroom'
      obtain ⟨e, he⟩ := hno m (by rw [List.mem_filter]; exact ⟨hmem, by simp [hn]⟩) k hk
      have := ev_unique hr' he
      cases this

/-! ### Translation: a lookup that starts further on finds the same, further on -/

/-- Move an offset `b` bytes further. -/
def shift (b : Nat) : Offset → Offset
  | .byteOffset x => byteAt (x.toNat + b)
  | .bitOffsetAndSize x w => .bitOffsetAndSize (UInt32.ofNat (x.toNat + 8 * b)) w

/-- Move a result `b` bytes further. -/
def shiftOut (b : Nat) : Outcome (UInt32 × Offset) → Outcome (UInt32 × Offset)
  | .ok (u, o) => .ok (u, shift b o)
  | .err e => .err e
  | .panic => .panic
  | .nofuel => .nofuel

theorem shift_byteAt {b x : Nat} (h : x < 2 ^ 32) : shift b (byteAt x) = byteAt (b + x) := by
  simp only [byteAt, shift, ofNat_toNat_lt h, Nat.add_comm]

/-- From a place whose type is not an aggregate, a step fails in a way that does not depend on the
offset. -/
theorem impl_scalar (cfg : Cfg) {clean : Bool} {t : UInt32} (h : ∀ u, Resolves ti t u → ¬ IsAggregate u)
    (n : Nat) (o o' : Offset) (c : PathComponent) (cs : List PathComponent) :
    impl cfg ti clean n o t (c :: cs) = impl cfg ti clean n o' t (c :: cs) ∧
      ∀ r, impl cfg ti clean n o t (c :: cs) ≠ .ok r := by
  cases n with
  | zero => exact ⟨rfl, fun r h => by cases h⟩
  | succ n =>
    rw [impl_succ, impl_succ]
    cases hv : resolve ti n t with
    | err e => exact ⟨rfl, fun r h => by cases h⟩
    | panic => exact ⟨rfl, fun r h => by cases h⟩
    | nofuel => exact ⟨rfl, fun r h => by cases h⟩
    | ok v =>
      have hna := h v (resolve_ok_iff.1 ⟨n, hv⟩)
      simp only [Res.bind]
      split
      · exact ⟨rfl, fun r h => by cases h⟩
      · cases c with
        | index i =>
          cases v <;> first | exact absurd trivial hna | exact ⟨rfl, fun r h => by cases h⟩
        | name name =>
          cases v <;> first | exact absurd trivial hna | exact ⟨rfl, fun r h => by cases h⟩

theorem probe_shift {p q : Offset → UInt32 → Outcome (UInt32 × Offset)} {b x : Nat} {sub : List Member}
    (h : ∀ m ∈ sub, ∃ k, m.offset.add (byteAt (b + x)) = .ok (byteAt (b + (x + k))) ∧
      m.offset.add (byteAt x) = .ok (byteAt (x + k)) ∧
      p (byteAt (b + (x + k))) m.tid = shiftOut b (q (byteAt (x + k)) m.tid)) :
    probeAnonymous p (byteAt (b + x)) sub =
      match probeAnonymous q (byteAt x) sub with
      | .ok (some (u, o)) => .ok (some (u, shift b o))
      | o => o := by
  induction sub with
  | nil => rfl
  | cons m rest ih =>
    obtain ⟨k, h1, h2, h3⟩ := h m (by simp)
    have ih := ih (fun m' hm' => h m' (by simp [hm']))
    rw [probeAnonymous, probeAnonymous, h1, h2]
    simp only []
    rw [h3]
    cases q (byteAt (x + k)) m.tid with
    | ok r => rfl
    | err e => exact ih
    | panic => rfl
    | nofuel => rfl

theorem impl_shift (hw : Layout ti) (cfg : Cfg) (clean : Bool) (b : Nat) (n : Nat) :
    ∀ (x : Nat) (t : UInt32) (cs : List PathComponent), Room ti (b + x) t →
      impl cfg ti clean n (byteAt (b + x)) t cs = shiftOut b (impl cfg ti clean n (byteAt x) t cs) := by
  induction n with
  | zero => intros; rfl
  | succ n ih =>
    intro x t cs hroom
    have hroom0 : Room ti x t := ⟨by have := hroom.1; omega, fun a n' hc hs => by have := hroom.2 a n' hc hs; omega⟩
    cases cs with
    | nil =>
      simp only [impl]
      split
      · simp only [shiftOut, shift_byteAt (show x < 2 ^ 32 by have := hroom.1; omega)]
      · rfl
    | cons c cs =>
      rw [impl_succ, impl_succ]
      cases hv : resolve ti n t with
      | err e => rfl
      | panic => rfl
      | nofuel => rfl
      | ok v =>
        have hr := resolve_ok_iff.1 ⟨n, hv⟩
        simp only [Res.bind]
        split
        · rfl
        · cases c with
          | index i =>
            simp only []
            cases v
            case array hd d _ =>
              by_cases hi : i < d.elementCount.toNat
              · cases hs : TypeInformation.sizeOf cfg ti n d.elementTid with
                | ok s =>
                  have hsz := (sizeOf_wf hw cfg).1 s hs
                  obtain ⟨hroom', h1⟩ := room_element cfg hr hi hsz hroom
                  obtain ⟨-, h2⟩ := room_element cfg hr hi hsz hroom0
                  rw [h1 n hs, h2 n hs]
                  simp only []
                  rw [Nat.add_assoc] at hroom' ⊢
                  exact ih _ _ _ hroom'
                | err e => simp [stepIndex, hs, Bind.bind, Res.bind, show ¬ d.elementCount.toNat ≤ i by omega, shiftOut]
                | panic => simp [stepIndex, hs, Bind.bind, Res.bind, show ¬ d.elementCount.toNat ≤ i by omega, shiftOut]
                | nofuel => simp [stepIndex, hs, Bind.bind, Res.bind, show ¬ d.elementCount.toNat ≤ i by omega, shiftOut]
              · simp [stepIndex, show d.elementCount.toNat ≤ i by omega, offsetErr, shiftOut]
            all_goals rfl
          | name name =>
            simp only []
            cases hm : memberListOf v with
            | none => rfl
            | some ms =>
              have hm' : membersOf v = some ms := by rw [← memberListOf_eq]; exact hm
              simp only []
              rw [probe_shift (q := fun o u => impl cfg ti clean n o u (.name name :: cs)) (x := x) (b := b)
                (p := fun o u => impl cfg ti clean n o u (.name name :: cs)) ?_]
              · cases probeAnonymous (fun o u => impl cfg ti clean n o u (.name name :: cs)) (byteAt x)
                    (ms.filter (fun m => m.name.isNone)) with
                | err e => rfl
                | panic => rfl
                | nofuel => rfl
                | ok anon =>
                  cases anon with
                  | some r => rfl
                  | none =>
                    simp only []
                    cases hf : ms.find? (fun m => m.name = some name) with
                    | none => rfl
                    | some m =>
                      have hmem := List.mem_of_find?_eq_some hf
                      simp only []
                      cases hb : bitWidth m.offset with
                      | none =>
                        obtain ⟨k, hk, -, hadd, hroom'⟩ := room_member hw hr hm' hmem hb hroom
                        obtain ⟨k', hk', -, hadd', -⟩ := room_member hw hr hm' hmem hb hroom0
                        have : k' = k := by omega
                        subst this
                        rw [hadd, hadd']
                        simp only []
                        rw [Nat.add_assoc] at hroom' ⊢
                        exact ih _ _ _ hroom'
                      | some w =>
                        obtain ⟨hlt, hadd⟩ := room_bitfield hw hr hm' hmem hb hroom
                        obtain ⟨hlt', hadd'⟩ := room_bitfield hw hr hm' hmem hb hroom0
                        rw [hadd, hadd']
                        simp only []
                        cases cs with
                        | nil =>
                          cases n with
                          | zero => rfl
                          | succ n =>
                            simp only [impl]
                            split
                            · simp only [shiftOut, shift, ofNat_toNat_lt hlt']
                              rw [show 8 * x + bitPos m.offset + 8 * b = 8 * (b + x) + bitPos m.offset by omega]
                            · rfl
                        | cons c' cs' =>
                          obtain ⟨a, -, ha, -⟩ := hr
                          have hsc := (hw.bitfields a v ms m ha hm' hmem (by rw [IsBitfield, hb]; simp)).2
                          rw [(impl_scalar cfg hsc n _ (.bitOffsetAndSize (UInt32.ofNat (8 * x + bitPos m.offset)) w)
                            c' cs').1]
                          have hno := (impl_scalar (clean := clean) cfg hsc n
                            (.bitOffsetAndSize (UInt32.ofNat (8 * x + bitPos m.offset)) w)
                            (.byteOffset 0) c' cs').2
                          revert hno
                          cases impl cfg ti clean n (.bitOffsetAndSize (UInt32.ofNat (8 * x + bitPos m.offset)) w)
                            m.tid (c' :: cs') with
                          | ok r => intro hno; exact absurd rfl (hno r)
                          | err e => intro _; rfl
                          | panic => intro _; rfl
                          | nofuel => intro _; rfl
              · intro m hmem
                rw [List.mem_filter] at hmem
                have hname : m.name = none := by simpa using hmem.2
                have hnb : bitWidth m.offset = none := by
                  obtain ⟨a, -, ha, -⟩ := hr
                  by_contra hb
                  exact (hw.bitfields a v ms m ha hm' hmem.1 hb).1 hname
                obtain ⟨k, hk, hadd, -, hroom'⟩ := room_member hw hr hm' hmem.1 hnb hroom
                obtain ⟨k', hk', hadd', -, -⟩ := room_member hw hr hm' hmem.1 hnb hroom0
                have : k' = k := by omega
                subst this
                rw [Nat.add_assoc] at hadd hroom'
                exact ⟨k', hadd, hadd', ih _ _ _ hroom'⟩

/-- Results stay below the bound. -/
theorem impl_room (hw : Layout ti) (cfg : Cfg) {b : Nat} {n : Nat} :
    ∀ {x : Nat} {t : UInt32} {cs : List PathComponent} {u : UInt32} {o : Offset}, Room ti (b + x) t →
      impl cfg ti true n (byteAt x) t cs = .ok (u, o) → 8 * b + bitPos o < 2 ^ 32 := by
  induction n with
  | zero => intro x t cs u o _ h; cases h
  | succ n ih =>
    intro x t cs u o hroom h
    have hroom0 : Room ti x t := ⟨by have := hroom.1; omega, fun a n' hc hs => by have := hroom.2 a n' hc hs; omega⟩
    cases cs with
    | nil =>
      cases h
      have := hroom.1
      rw [bitPos_byteAt (by omega)]; omega
    | cons c cs =>
      obtain ⟨v, hv, h⟩ := impl_cons_ok h
      have hr := resolve_ok_iff.1 ⟨n, hv⟩
      rcases h with ⟨i, y, rfl, hs, h⟩ | ⟨name, ms, rfl, hm, h⟩
      · obtain ⟨hd, d, s, rfl, hi, hsz, -⟩ := stepIndex_ok hs
        have hse := (sizeOf_wf hw cfg).1 s hsz
        obtain ⟨hroom', -⟩ := room_element cfg hr hi hse hroom
        obtain ⟨-, h2⟩ := room_element cfg hr hi hse hroom0
        rw [h2 n hsz] at hs; cases hs
        rw [Nat.add_assoc] at hroom'
        exact ih hroom' h
      · rcases h with ⟨m, hmem, hname, start, ha, h⟩ | ⟨m, hmem, hname, o', ha, h⟩
        · have hnb : bitWidth m.offset = none := by
            obtain ⟨hnb, -⟩ := (offset_add_ok _ _ _).1 ha
            simpa [IsBitfield] using hnb
          obtain ⟨k, hk, -, -, hroom'⟩ := room_member hw hr hm hmem hnb hroom
          obtain ⟨k', hk', hadd', -⟩ := room_member hw hr hm hmem hnb hroom0
          have : k' = k := by omega
          subst this
          rw [hadd'] at ha; cases ha
          rw [Nat.add_assoc] at hroom'
          exact ih hroom' h
        · cases hb : bitWidth m.offset with
          | none =>
            obtain ⟨k, hk, -, -, hroom'⟩ := room_member hw hr hm hmem hb hroom
            obtain ⟨k', hk', -, hadd', -⟩ := room_member hw hr hm hmem hb hroom0
            have : k' = k := by omega
            subst this
            rw [hadd'] at ha; cases ha
            rw [Nat.add_assoc] at hroom'
            exact ih hroom' h
          | some w =>
            obtain ⟨hlt, -⟩ := room_bitfield hw hr hm hmem hb hroom
            obtain ⟨hlt', hadd'⟩ := room_bitfield hw hr hm hmem hb hroom0
            rw [hadd'] at ha; cases ha
            have hcs := impl_bitfield (by simp [IsBitfield, bitWidth]) h
            subst hcs
            cases n with
            | zero => cases h
            | succ n =>
              cases h
              show 8 * b + (UInt32.ofNat (8 * x + bitPos m.offset)).toNat < 2 ^ 32
              rw [ofNat_toNat_lt hlt']
              omega

/-! ### Containment -/

theorem access_inside (hw : Layout ti) {t u : UInt32} {cs : List PathComponent} {bits : Nat}
    {w : Option UInt32} (h : Access ti t cs u bits w) :
    ∀ {s : Nat}, HasSize none ti t s →
      (∀ n, w = none → HasSize none ti u n → bits + 8 * n ≤ 8 * s) ∧
      (∀ k, w = some k → bits + k.toNat ≤ 8 * s) := by
  induction h with
  | here =>
    intro s hs
    exact ⟨fun n _ hn => by have := hasSize_unique hs hn; omega, fun k hk => by cases hk⟩
  | @element t hd d i n cs u bits w hr hi hsz _ ih =>
    intro s hs
    obtain ⟨a, hc, ha, -⟩ := hr
    have hsa := hasSize_unique (chain_hasSize hc hs) (.array ha hsz (by simp))
    have hle : i * n + n ≤ n * d.elementCount.toNat := by
      calc i * n + n = n * (i + 1) := by rw [Nat.mul_succ, Nat.mul_comm]
        _ ≤ n * d.elementCount.toNat := Nat.mul_le_mul_left _ hi
    obtain ⟨h1, h2⟩ := ih hsz
    exact ⟨fun k hk hkn => by have := h1 k hk hkn; omega, fun k hk => by have := h2 k hk; omega⟩
  | @member t v ms m name cs u bits w hr hm hmem hn hb _ ih =>
    intro s hs
    obtain ⟨a, hc, ha, -⟩ := hr
    obtain ⟨s', hs'⟩ := members_ownSize hm
    have hsa := hasSize_unique (chain_hasSize hc hs) (.own ha hs')
    have hin := hw.inside a v ms m s' ha hm hmem hs'
    rw [Inside, hb] at hin
    obtain ⟨l, hl, hle⟩ := hin
    obtain ⟨h1, h2⟩ := ih hl
    exact ⟨fun k hk hkn => by have := h1 k hk hkn; omega, fun k hk => by have := h2 k hk; omega⟩
  | @bitfield t v ms m name w hr hm hmem hn hb =>
    intro s hs
    obtain ⟨a, hc, ha, -⟩ := hr
    obtain ⟨s', hs'⟩ := members_ownSize hm
    have hsa := hasSize_unique (chain_hasSize hc hs) (.own ha hs')
    have hin := hw.inside a v ms m s' ha hm hmem hs'
    rw [Inside, hb] at hin
    exact ⟨fun n h => by (cases h), fun k hk => by cases hk; rw [hsa]; exact hin⟩
  | @anonymous t v ms m name cs u bits w hr hm hmem hn hb _ ih =>
    intro s hs
    obtain ⟨a, hc, ha, -⟩ := hr
    obtain ⟨s', hs'⟩ := members_ownSize hm
    have hsa := hasSize_unique (chain_hasSize hc hs) (.own ha hs')
    have hin := hw.inside a v ms m s' ha hm hmem hs'
    rw [Inside, hb] at hin
    obtain ⟨l, hl, hle⟩ := hin
    obtain ⟨h1, h2⟩ := ih hl
    exact ⟨fun k hk hkn => by have := h1 k hk hkn; omega, fun k hk => by have := h2 k hk; omega⟩

end

end Btf

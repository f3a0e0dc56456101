import Verif.Proofs.OffsetTok
import Verif.Proofs.Size
import Verif.Props.Offset

/-!
# Soundness of `offset_of` against `Access`, error kinds, panics, fuel
-/

namespace Btf

open Spec TypeInformation Props

theorem memberListOf_eq (v : TypeVariant) : memberListOf v = membersOf v := by cases v <;> rfl

/-! ### Fuel -/

theorem probeAnonymous_mono {p q : Offset → UInt32 → Outcome (UInt32 × Offset)} {offset : Offset}
    {ms : List Member} (h : ∀ o u, p o u ≠ .nofuel → q o u = p o u)
    (hne : probeAnonymous p offset ms ≠ .nofuel) :
    probeAnonymous q offset ms = probeAnonymous p offset ms := by
  induction ms with
  | nil => rfl
  | cons m rest ih =>
    unfold probeAnonymous at hne ⊢
    cases ha : m.offset.add offset with
    | err e => rfl
    | panic => rfl
    | nofuel => rfl
    | ok start =>
      simp only [ha] at hne ⊢
      have hp : p start m.tid ≠ .nofuel := by
        intro h0; rw [h0] at hne; exact hne rfl
      rw [h _ _ hp]
      cases hpp : p start m.tid with
      | ok r => rfl
      | panic => rfl
      | nofuel => rfl
      | err e => rw [hpp] at hne; exact ih hne

theorem stepIndex_mono (cfg : Cfg) (ti : TypeInformation) (offset : Offset) (t : TypeVariant) (i : Nat) :
    FuelMono (fun n => stepIndex cfg ti n offset t i) := by
  intro n hne
  cases t <;> try rfl
  rename_i hd d
  simp only [stepIndex] at hne ⊢
  split
  · rfl
  · rename_i hlt
    rw [if_neg hlt] at hne
    have : TypeInformation.sizeOf cfg ti n d.elementTid ≠ .nofuel := by
      intro h0; rw [h0] at hne; exact hne rfl
    have h2 := sizeOf_mono cfg ti d.elementTid n this
    simp only [] at h2
    rw [h2]

theorem impl_mono (cfg : Cfg) (ti : TypeInformation) (clean : Bool) (n : Nat) :
    ∀ (offset : Offset) (t : UInt32) (cs : List PathComponent),
      impl cfg ti clean n offset t cs ≠ .nofuel →
      impl cfg ti clean (n + 1) offset t cs = impl cfg ti clean n offset t cs := by
  induction n with
  | zero => intro offset t cs h; exact absurd rfl h
  | succ n ih =>
    intro offset t cs hne
    cases cs with
    | nil => rfl
    | cons c cs =>
      rw [impl] at hne
      rw [impl, impl]
      have hr : resolve ti n t ≠ .nofuel := by
        intro h0; rw [h0] at hne; exact hne rfl
      have hr' := resolve_mono ti t n hr
      simp only [] at hr'
      rw [hr']
      cases hv : resolve ti n t with
      | err e => rfl
      | panic => rfl
      | nofuel => rfl
      | ok v =>
        rw [hv] at hne
        simp only [Res.bind] at hne ⊢
        split
        · rfl
        · rename_i hvoid
          rw [if_neg hvoid] at hne
          cases c with
          | index i =>
            simp only [] at hne ⊢
            have hs : stepIndex cfg ti n offset v i ≠ .nofuel := by
              intro h0; rw [h0] at hne; exact hne rfl
            have hs' := stepIndex_mono cfg ti offset v i n hs
            simp only [] at hs'
            rw [hs']
            cases hx : stepIndex cfg ti n offset v i with
            | err e => rfl
            | panic => rfl
            | nofuel => rfl
            | ok r => rw [hx] at hne; exact ih _ _ _ hne
          | name name =>
            simp only [] at hne ⊢
            cases hm : memberListOf v with
            | none => rfl
            | some ms =>
              rw [hm] at hne
              simp only [] at hne ⊢
              have hp : probeAnonymous (fun o u => impl cfg ti clean n o u (.name name :: cs)) offset
                  (ms.filter (fun m => m.name.isNone)) ≠ .nofuel := by
                intro h0; rw [h0] at hne; exact hne rfl
              rw [probeAnonymous_mono (q := fun o u => impl cfg ti clean (n + 1) o u (.name name :: cs))
                (fun o u h => ih o u _ h) hp]
              cases hx : probeAnonymous (fun o u => impl cfg ti clean n o u (.name name :: cs)) offset
                  (ms.filter (fun m => m.name.isNone)) with
              | err e => rfl
              | panic => rfl
              | nofuel => rfl
              | ok anon =>
                rw [hx] at hne
                cases anon with
                | some r => rfl
                | none =>
                  simp only [] at hne ⊢
                  cases hf : ms.find? (fun m => m.name = some name) with
                  | none => rfl
                  | some m =>
                    rw [hf] at hne
                    simp only [] at hne ⊢
                    cases ha : offset.add m.offset with
                    | err e => rfl
                    | panic => rfl
                    | nofuel => rfl
                    | ok o => rw [ha] at hne; exact ih _ _ _ hne

theorem impl_fuelMono (cfg : Cfg) (ti : TypeInformation) (clean : Bool) (offset : Offset) (t : UInt32)
    (cs : List PathComponent) : FuelMono (fun n => impl cfg ti clean n offset t cs) :=
  fun n h => impl_mono cfg ti clean n offset t cs h

/-! ### Decomposing a successful run -/

/-- The three ways a step can succeed. -/
theorem impl_cons_ok {cfg : Cfg} {ti : TypeInformation} {clean : Bool} {n : Nat} {offset : Offset} {t : UInt32}
    {c : PathComponent} {cs : List PathComponent} {r : UInt32 × Offset}
    (h : impl cfg ti clean (n + 1) offset t (c :: cs) = .ok r) :
    ∃ v, resolve ti n t = .ok v ∧
      ((∃ i x, c = .index i ∧ stepIndex cfg ti n offset v i = .ok x ∧
          impl cfg ti clean n x.2 x.1 cs = .ok r) ∨
       (∃ name ms, c = .name name ∧ membersOf v = some ms ∧
          ((∃ m ∈ ms, m.name = none ∧ ∃ start, m.offset.add offset = .ok start ∧
              impl cfg ti clean n start m.tid (.name name :: cs) = .ok r) ∨
           (∃ m ∈ ms, m.name = some name ∧ ∃ o, offset.add m.offset = .ok o ∧
              impl cfg ti clean n o m.tid cs = .ok r)))) := by
  rw [impl, Outcome.bind_ok] at h
  obtain ⟨v, hv, h⟩ := h
  refine ⟨v, hv, ?_⟩
  split at h
  · cases h
  · cases c with
    | index i =>
      left
      simp only [Outcome.bind_ok] at h
      obtain ⟨x, hx, h⟩ := h
      exact ⟨i, x, rfl, hx, h⟩
    | name name =>
      right
      simp only [] at h
      cases hm : memberListOf v with
      | none => rw [hm] at h; cases h
      | some ms =>
        rw [hm] at h
        simp only [Outcome.bind_ok] at h
        obtain ⟨anon, hp, h⟩ := h
        refine ⟨name, ms, rfl, by rw [← memberListOf_eq]; exact hm, ?_⟩
        cases anon with
        | some r' =>
          cases h
          left
          obtain ⟨m, hmem, start, h1, h2⟩ := probeAnonymous_some hp
          rw [List.mem_filter] at hmem
          exact ⟨m, hmem.1, by simpa using hmem.2, start, h1, h2⟩
        | none =>
          right
          simp only [] at h
          cases hf : ms.find? (fun m => m.name = some name) with
          | none => rw [hf] at h; cases h
          | some m =>
            rw [hf] at h
            simp only [Outcome.bind_ok] at h
            obtain ⟨o, ho, h⟩ := h
            exact ⟨m, List.mem_of_find?_eq_some hf, by simpa using List.find?_some hf, o, ho, h⟩

theorem stepIndex_ok {cfg : Cfg} {ti : TypeInformation} {n : Nat} {offset : Offset} {v : TypeVariant} {i : Nat}
    {x : UInt32 × Offset} (h : stepIndex cfg ti n offset v i = .ok x) :
    ∃ hd d s, v = .array hd d ∧ i < d.elementCount.toNat ∧
      TypeInformation.sizeOf cfg ti n d.elementTid = .ok s ∧ x.1 = d.elementTid ∧
      bitWidth offset = none ∧ bitWidth x.2 = none ∧ bitPos x.2 = bitPos offset + 8 * (i * s) := by
  cases v <;> try (simp [stepIndex, offsetErr] at h; done)
  rename_i hd d
  simp only [stepIndex] at h
  split at h
  · cases h
  · rename_i hlt
    change Res.bind _ _ = _ at h
    rw [Outcome.bind_ok] at h
    obtain ⟨s, hs, h⟩ := h
    change Res.bind _ _ = _ at h
    rw [Outcome.bind_ok] at h
    obtain ⟨k, hk, h⟩ := h
    change Res.bind _ _ = _ at h
    rw [Outcome.bind_ok] at h
    obtain ⟨o, ho, h⟩ := h
    cases h
    have hk' : k.toNat = i * s := by
      unfold okOr at hk
      split at hk
      · rename_i a ha
        cases hk
        rw [Option.bind_eq_some_iff] at ha
        obtain ⟨w, hw, ha⟩ := ha
        unfold u64CheckedMul at hw
        split at hw
        · cases hw
          unfold u32TryFrom at ha
          split at ha
          · rename_i hlt; cases ha; exact ofNat_toNat_lt hlt
          · cases ha
        · cases hw
      · cases hk
    obtain ⟨h1, h2, h3⟩ := (offset_add_u32_ok offset o k).1 ho
    exact ⟨hd, d, s, rfl, by omega, hs, rfl, by simpa [IsBitfield] using h1, h2, by rw [h3, hk']⟩

/-- From a bitfield no further step succeeds. -/
theorem impl_bitfield {cfg : Cfg} {ti : TypeInformation} {clean : Bool} {n : Nat} :
    ∀ {offset : Offset} {t : UInt32} {cs : List PathComponent} {r : UInt32 × Offset},
      IsBitfield offset → impl cfg ti clean n offset t cs = .ok r → cs = [] := by
  induction n with
  | zero => intro offset t cs r _ h; cases h
  | succ n ih =>
    intro offset t cs r hb h
    cases cs with
    | nil => rfl
    | cons c cs =>
      exfalso
      obtain ⟨v, -, h⟩ := impl_cons_ok h
      rcases h with ⟨i, x, -, hs, -⟩ | ⟨name, ms, -, -, h⟩
      · obtain ⟨_, _, _, _, _, _, _, hw, _⟩ := stepIndex_ok hs
        exact hb hw
      · rcases h with ⟨m, -, -, start, ha, h⟩ | ⟨m, -, -, o, ha, h⟩
        · obtain ⟨-, hw, -⟩ := (offset_add_ok _ _ _).1 ha
          have := ih (offset := start) (by rw [IsBitfield, hw]; exact hb) h
          cases this
        · obtain ⟨hw, -, -⟩ := (offset_add_ok _ _ _).1 ha
          exact hw hb

/-- Sizes computed by this build are exact. -/
def SizesExact (cfg : Cfg) (ti : TypeInformation) : Prop :=
  ∀ k t n, TypeInformation.sizeOf cfg ti k t = .ok n → HasSize none ti t n

theorem hasSize_weaken {l : Option Nat} {ti : TypeInformation} {t : UInt32} {n : Nat} (h : HasSize l ti t n) :
    HasSize none ti t n := by
  induction h with
  | own hv ho => exact .own hv ho
  | ptr hv hp hs => exact .ptr hv hp hs
  | array hv _ _ ih => exact .array hv ih (by simp)
  | alias hv ha _ ih => exact .alias hv ha ih

theorem sizesExact_checked {cfg : Cfg} (hc : cfg.overflowChecks = true) (ti : TypeInformation) :
    SizesExact cfg ti := fun _ _ _ h => hasSize_weaken ((hasSize_of_sizeOf h).1 hc)

/-- Soundness. -/
theorem impl_sound {cfg : Cfg} {ti : TypeInformation} (hx : SizesExact cfg ti) {n : Nat} :
    ∀ {offset : Offset} {t : UInt32} {cs : List PathComponent} {u : UInt32} {o : Offset},
      bitWidth offset = none → impl cfg ti true n offset t cs = .ok (u, o) →
      ∃ bits w, Access ti t cs u bits w ∧ bitWidth o = w ∧ bitPos o = bitPos offset + bits := by
  induction n with
  | zero => intro offset t cs u o _ h; cases h
  | succ n ih =>
    intro offset t cs u o hb h
    cases cs with
    | nil => cases h; exact ⟨0, none, .here, hb, by simp⟩
    | cons c cs =>
      obtain ⟨v, hv, h⟩ := impl_cons_ok h
      have hres := resolve_ok_iff.1 ⟨n, hv⟩
      rcases h with ⟨i, x, rfl, hs, h⟩ | ⟨name, ms, rfl, hm, h⟩
      · obtain ⟨hd, d, s, rfl, hi, hsz, hx1, -, hw, hp⟩ := stepIndex_ok hs
        rw [hx1] at h
        obtain ⟨bits, w, hA, h1, h2⟩ := ih hw h
        exact ⟨_, w, .element hres hi (hx _ _ _ hsz) hA, h1, by rw [h2, hp]; omega⟩
      · rcases h with ⟨m, hmem, hname, start, ha, h⟩ | ⟨m, hmem, hname, o', ha, h⟩
        · obtain ⟨hnb, hw, hp⟩ := (offset_add_ok _ _ _).1 ha
          obtain ⟨bits, w, hA, h1, h2⟩ := ih (offset := start) (by rw [hw]; exact hb) h
          exact ⟨_, w, .anonymous hres hm hmem hname (by simpa [IsBitfield] using hnb) hA, h1,
            by rw [h2, hp]; omega⟩
        · obtain ⟨-, hw, hp⟩ := (offset_add_ok _ _ _).1 ha
          cases hbw : bitWidth m.offset with
          | none =>
            obtain ⟨bits, w, hA, h1, h2⟩ := ih (offset := o') (by rw [hw]; exact hbw) h
            exact ⟨_, w, .member hres hm hmem hname hbw hA, h1, by rw [h2, hp]; omega⟩
          | some w =>
            have hcs := impl_bitfield (offset := o') (by rw [IsBitfield, hw, hbw]; simp) h
            subst hcs
            have : (u, o) = (m.tid, o') := by
              cases n with
              | zero => cases h
              | succ n => simp only [impl] at h; cases h; rfl
            cases this
            exact ⟨_, some w, .bitfield hres hm hmem hname hbw, by rw [hw, hbw], hp⟩

/-- A path with a syntax error never succeeds. -/
theorem impl_unclean {cfg : Cfg} {ti : TypeInformation} {n : Nat} :
    ∀ {offset : Offset} {t : UInt32} {cs : List PathComponent} {r : UInt32 × Offset},
      impl cfg ti false n offset t cs ≠ .ok r := by
  induction n with
  | zero => intro offset t cs r h; cases h
  | succ n ih =>
    intro offset t cs r h
    cases cs with
    | nil => cases h
    | cons c cs =>
      obtain ⟨v, -, h⟩ := impl_cons_ok h
      rcases h with ⟨i, x, -, -, h⟩ | ⟨name, ms, -, -, h⟩
      · exact ih h
      · rcases h with ⟨m, -, -, start, -, h⟩ | ⟨m, -, -, o, -, h⟩ <;> exact ih h

/-! ### Errors and panics -/

/-- The documented error kinds of `offset_of`. -/
def OffsetKind (e : ErrorKind) : Prop :=
  e = .InvalidTypePath ∨ e = .InvalidTypeID ∨ e = .InvalidOffset ∨ e = .UnexpectedBitfield ∨ e = .NotSized

theorem add_err_kind {a b : Offset} {e : ErrorKind} (h : a.add b = .err e) : OffsetKind e := by
  rcases (offset_add_err a b e).1 h with ⟨rfl, -⟩ | ⟨rfl, -⟩ <;> simp [OffsetKind]

theorem add_returns (a b : Offset) : (∃ o, a.add b = .ok o) ∨ ∃ e, a.add b = .err e := by
  cases a with
  | bitOffsetAndSize x y => exact .inr ⟨_, rfl⟩
  | byteOffset l =>
    cases b with
    | byteOffset r =>
      simp only [Offset.add]
      cases u32CheckedAdd l r with
      | none => exact .inr ⟨_, rfl⟩
      | some s => exact .inl ⟨_, rfl⟩
    | bitOffsetAndSize rb rs =>
      simp only [Offset.add]
      cases u32CheckedMul l 8 with
      | none => exact .inr ⟨_, rfl⟩
      | some m =>
        change (∃ o, Res.bind (okOr (u32CheckedAdd m rb) _) _ = _) ∨
          ∃ e, Res.bind (okOr (u32CheckedAdd m rb) _) _ = _
        cases u32CheckedAdd m rb with
        | none => exact .inr ⟨_, rfl⟩
        | some s => exact .inl ⟨_, rfl⟩

theorem addU32_returns (a : Offset) (k : UInt32) : (∃ o, a.addU32 k = .ok o) ∨ ∃ e, a.addU32 k = .err e := by
  cases a with
  | bitOffsetAndSize x y => exact .inr ⟨_, rfl⟩
  | byteOffset l =>
    simp only [Offset.addU32]
    cases u32CheckedAdd l k with
    | none => exact .inr ⟨_, rfl⟩
    | some s => exact .inl ⟨_, rfl⟩

theorem add_not_panic (a b : Offset) : a.add b ≠ .panic := by
  rcases add_returns a b with ⟨o, h⟩ | ⟨e, h⟩ <;> rw [h] <;> simp

theorem add_not_nofuel (a b : Offset) : a.add b ≠ .nofuel := by
  rcases add_returns a b with ⟨o, h⟩ | ⟨e, h⟩ <;> rw [h] <;> simp

theorem addU32_not_panic (a : Offset) (k : UInt32) : a.addU32 k ≠ .panic := by
  rcases addU32_returns a k with ⟨o, h⟩ | ⟨e, h⟩ <;> rw [h] <;> simp

theorem addU32_not_nofuel (a : Offset) (k : UInt32) : a.addU32 k ≠ .nofuel := by
  rcases addU32_returns a k with ⟨o, h⟩ | ⟨e, h⟩ <;> rw [h] <;> simp

theorem probeAnonymous_err {probe : Offset → UInt32 → Outcome (UInt32 × Offset)} {offset : Offset}
    {ms : List Member} {e : ErrorKind} (h : probeAnonymous probe offset ms = .err e) :
    ∃ m ∈ ms, m.offset.add offset = .err e := by
  induction ms with
  | nil => cases h
  | cons m rest ih =>
    unfold probeAnonymous at h
    cases ha : m.offset.add offset with
    | ok start =>
      rw [ha] at h
      simp only [] at h
      cases hp : probe start m.tid with
      | ok r' => rw [hp] at h; cases h
      | err e =>
        rw [hp] at h
        obtain ⟨m', hm', h'⟩ := ih h
        exact ⟨m', by simp [hm'], h'⟩
      | panic => rw [hp] at h; cases h
      | nofuel => rw [hp] at h; cases h
    | err e => rw [ha] at h; cases h; exact ⟨m, by simp, ha⟩
    | panic => rw [ha] at h; cases h
    | nofuel => rw [ha] at h; cases h

theorem probeAnonymous_panic {probe : Offset → UInt32 → Outcome (UInt32 × Offset)} {offset : Offset}
    {ms : List Member} (h : probeAnonymous probe offset ms = .panic) :
    ∃ m ∈ ms, ∃ start, probe start m.tid = .panic := by
  induction ms with
  | nil => cases h
  | cons m rest ih =>
    unfold probeAnonymous at h
    cases ha : m.offset.add offset with
    | ok start =>
      rw [ha] at h
      simp only [] at h
      cases hp : probe start m.tid with
      | ok r' => rw [hp] at h; cases h
      | err e =>
        rw [hp] at h
        obtain ⟨m', hm', h'⟩ := ih h
        exact ⟨m', by simp [hm'], h'⟩
      | panic => exact ⟨m, by simp, start, hp⟩
      | nofuel => rw [hp] at h; cases h
    | err e => rw [ha] at h; cases h
    | panic => exact absurd ha (add_not_panic _ _)
    | nofuel => rw [ha] at h; cases h

theorem stepIndex_err {cfg : Cfg} {ti : TypeInformation} {n : Nat} {offset : Offset} {v : TypeVariant} {i : Nat}
    {e : ErrorKind} (h : stepIndex cfg ti n offset v i = .err e) : OffsetKind e := by
  cases v
  case array hd d =>
    simp only [stepIndex] at h
    split at h
    · cases h; simp [OffsetKind, OffsetError.kind]
    · change Res.bind _ _ = _ at h
      rw [Outcome.bind_err] at h
      rcases h with h | ⟨s, -, h⟩
      · obtain ⟨u, hc, hend, hl⟩ := sizeOf_err_iff.1 ⟨n, h⟩
        rcases (sizeLeaf_err hend).1 hl with ⟨rfl, -⟩ | ⟨rfl, -⟩ <;> simp [OffsetKind]
      · change Res.bind _ _ = _ at h
        rw [Outcome.bind_err] at h
        rcases h with h | ⟨k, -, h⟩
        · unfold okOr at h
          split at h
          · cases h
          · cases h; simp [OffsetKind, OffsetError.kind]
        · change Res.bind _ _ = _ at h
          rw [Outcome.bind_err] at h
          rcases h with h | ⟨o, -, h⟩
          · rcases (offset_add_u32_err _ _ _).1 h with ⟨rfl, -⟩ | ⟨rfl, -⟩ <;> simp [OffsetKind]
          · cases h
  all_goals (cases h; simp [OffsetKind, OffsetError.kind])

theorem impl_err_kind {cfg : Cfg} {ti : TypeInformation} {clean : Bool} {n : Nat} :
    ∀ {offset : Offset} {t : UInt32} {cs : List PathComponent} {e : ErrorKind},
      impl cfg ti clean n offset t cs = .err e → OffsetKind e := by
  induction n with
  | zero => intro offset t cs e h; cases h
  | succ n ih =>
    intro offset t cs e h
    cases cs with
    | nil =>
      simp only [impl] at h
      split at h
      · cases h
      · cases h; simp [OffsetKind]
    | cons c cs =>
      rw [impl, Outcome.bind_err] at h
      rcases h with h | ⟨v, hv, h⟩
      · rw [(resolve_err_iff.1 ⟨n, h⟩).1]; simp [OffsetKind]
      · split at h
        · cases h; simp [OffsetKind]
        · cases c with
          | index i =>
            simp only [Outcome.bind_err] at h
            rcases h with h | ⟨x, -, h⟩
            · exact stepIndex_err h
            · exact ih h
          | name name =>
            simp only [] at h
            cases hm : memberListOf v with
            | none => rw [hm] at h; cases h; simp [OffsetKind]
            | some ms =>
              rw [hm] at h
              simp only [Outcome.bind_err] at h
              rcases h with h | ⟨anon, -, h⟩
              · obtain ⟨m, -, h⟩ := probeAnonymous_err h
                exact add_err_kind h
              · cases anon with
                | some r => cases h
                | none =>
                  simp only [] at h
                  cases hf : ms.find? (fun m => m.name = some name) with
                  | none => rw [hf] at h; cases h; simp [OffsetKind]
                  | some m =>
                    rw [hf] at h
                    simp only [Outcome.bind_err] at h
                    rcases h with h | ⟨o, -, h⟩
                    · exact add_err_kind h
                    · exact ih h

/-- `offset_of` panics only if `size_of` does. -/
theorem impl_panic {cfg : Cfg} {ti : TypeInformation} {clean : Bool} {n : Nat} :
    ∀ {offset : Offset} {t : UInt32} {cs : List PathComponent},
      impl cfg ti clean n offset t cs = .panic → ∃ k u, TypeInformation.sizeOf cfg ti k u = .panic := by
  induction n with
  | zero => intro offset t cs h; cases h
  | succ n ih =>
    intro offset t cs h
    cases cs with
    | nil =>
      simp only [impl] at h
      split at h <;> cases h
    | cons c cs =>
      rw [impl, Outcome.bind_panic] at h
      rcases h with h | ⟨v, hv, h⟩
      · exact absurd h resolve_not_panic
      · split at h
        · cases h
        · cases c with
          | index i =>
            simp only [Outcome.bind_panic] at h
            rcases h with h | ⟨x, -, h⟩
            · cases v
              case array hd d =>
                simp only [stepIndex] at h
                split at h
                · cases h
                · change Res.bind _ _ = _ at h
                  rw [Outcome.bind_panic] at h
                  rcases h with h | ⟨s, -, h⟩
                  · exact ⟨n, _, h⟩
                  · change Res.bind _ _ = _ at h
                    rw [Outcome.bind_panic] at h
                    rcases h with h | ⟨k, -, h⟩
                    · unfold okOr at h; split at h <;> cases h
                    · change Res.bind _ _ = _ at h
                      rw [Outcome.bind_panic] at h
                      rcases h with h | ⟨o, -, h⟩
                      · exact absurd h (addU32_not_panic _ _)
                      · cases h
              all_goals cases h
            · exact ih h
          | name name =>
            simp only [] at h
            cases hm : memberListOf v with
            | none => rw [hm] at h; cases h
            | some ms =>
              rw [hm] at h
              simp only [Outcome.bind_panic] at h
              rcases h with h | ⟨anon, -, h⟩
              · obtain ⟨m, -, start, h⟩ := probeAnonymous_panic h
                exact ih h
              · cases anon with
                | some r => cases h
                | none =>
                  simp only [] at h
                  cases hf : ms.find? (fun m => m.name = some name) with
                  | none => rw [hf] at h; cases h
                  | some m =>
                    rw [hf] at h
                    simp only [Outcome.bind_panic] at h
                    rcases h with h | ⟨o, -, h⟩
                    · exact absurd h (add_not_panic _ _)
                    · exact ih h

theorem sizeOf_not_panic {cfg : Cfg} (hc : cfg.overflowChecks = false) {ti : TypeInformation} {k : Nat} :
    ∀ {t : UInt32}, TypeInformation.sizeOf cfg ti k t ≠ .panic := by
  induction k with
  | zero => intro t h; cases h
  | succ k ih =>
    intro t
    rcases goes_on_or_ends ti sizeRef t with ⟨w, u, hw, hu⟩ | hend
    · rw [(sizeOf_follows cfg ti).next k t w u hw hu, Ne, Outcome.bind_panic]
      rintro (h | ⟨a, -, h⟩)
      · exact ih h
      · cases w <;> simp [sizePost, Cfg.usizeMul, Cfg.wrapOr, hc] at h
        split at h <;> cases h
    · rw [(sizeOf_follows cfg ti).last k t hend]
      unfold sizeLeaf
      split
      · simp
      · split
        · simp
        · split
          · rcases pointerSize_eq ti with ⟨n, h, -⟩ | ⟨h, -⟩ <;> rw [h] <;> simp
          · simp

end Btf

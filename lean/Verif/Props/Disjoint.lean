import Verif.Props.Lookup
import Verif.Spec.Disjoint
import Mathlib.Data.List.Pairwise

/-!
# Property C83: different members occupy different bits
-/

namespace Btf.Props

open Btf Spec TypeInformation

variable {ti : TypeInformation}

instance apart_symm : Std.Symm (Apart ti) := ⟨fun _ _ h => h.symm⟩

/-- The object of type `u` located by the offset `o` occupies `e` bits: 8 per byte of its size, or its width if it is a
bitfield. -/
def Extent (cfg : Cfg) (ti : TypeInformation) (u : UInt32) (o : Offset) (e : Nat) : Prop :=
  match bitWidth o with
  | none => ∃ n, SizeOf cfg ti u (.ok n) ∧ e = 8 * n
  | some w => e = w.toNat

/-- What an access by name goes through first. -/
theorem access_first {t u : UInt32} {c : Str} {cs : List PathComponent} {b : Nat} {w : Option UInt32}
    (h : Access ti t (.name c :: cs) u b w) :
    ∃ v ms m, Resolves ti t v ∧ membersOf v = some ms ∧ m ∈ ms ∧
      ((m.name = some c ∧ bitWidth m.offset = none ∧ ∃ b1, Access ti m.tid cs u b1 w ∧ b = bitPos m.offset + b1) ∨
       (m.name = some c ∧ ∃ k, bitWidth m.offset = some k ∧ w = some k ∧ b = bitPos m.offset) ∨
       (m.name = none ∧ bitWidth m.offset = none ∧
          ∃ b1, Access ti m.tid (.name c :: cs) u b1 w ∧ b = bitPos m.offset + b1)) := by
  cases h with
  | member hr hm hmem hn hb hA => exact ⟨_, _, _, hr, hm, hmem, .inl ⟨hn, hb, _, hA, rfl⟩⟩
  | bitfield hr hm hmem hn hb => exact ⟨_, _, _, hr, hm, hmem, .inr (.inl ⟨hn, _, hb, rfl, rfl⟩)⟩
  | anonymous hr hm hmem hn hb hA => exact ⟨_, _, _, hr, hm, hmem, .inr (.inr ⟨hn, hb, _, hA, rfl⟩)⟩

/-- The extent of what an access reaches. -/
def Reach (ti : TypeInformation) (u : UInt32) (w : Option UInt32) (e : Nat) : Prop :=
  match w with
  | none => ∃ n, HasSize none ti u n ∧ e = 8 * n
  | some k => e = k.toNat

theorem reach_inside (hw : Layout ti) {t u : UInt32} {cs : List PathComponent} {b e : Nat} {w : Option UInt32}
    (h : Access ti t cs u b w) (he : Reach ti u w e) {n : Nat} (hn : HasSize none ti t n) : b + e ≤ 8 * n := by
  obtain ⟨h1, h2⟩ := access_inside hw h hn
  cases w with
  | none => obtain ⟨k, hk, rfl⟩ := he; exact h1 k rfl hk
  | some k => cases he; exact h2 k rfl

/-- The member has an extent, and the access stays inside. -/
theorem first_inside (hw : Layout ti) {t u : UInt32} {v : TypeVariant} {ms : List Member} {m : Member} {c : Str}
    {cs : List PathComponent} {b e : Nat} {w : Option UInt32} (he : Reach ti u w e)
    (hr : Resolves ti t v) (hm : membersOf v = some ms) (hmem : m ∈ ms)
    (h : (m.name = some c ∧ bitWidth m.offset = none ∧ ∃ b1, Access ti m.tid cs u b1 w ∧ b = bitPos m.offset + b1) ∨
       (m.name = some c ∧ ∃ k, bitWidth m.offset = some k ∧ w = some k ∧ b = bitPos m.offset) ∨
       (m.name = none ∧ bitWidth m.offset = none ∧
          ∃ b1, Access ti m.tid (.name c :: cs) u b1 w ∧ b = bitPos m.offset + b1)) :
    ∃ e', MemberExtent ti m e' ∧ bitPos m.offset ≤ b ∧ b + e ≤ bitPos m.offset + e' := by
  obtain ⟨a, -, hv, -⟩ := hr
  have hown : ∃ s, ownSize v = some s := by cases v <;> simp [membersOf] at hm <;> exact ⟨_, rfl⟩
  obtain ⟨s, hs⟩ := hown
  have hin := hw.inside a v ms m s hv hm hmem hs
  unfold Inside at hin
  unfold MemberExtent
  rcases h with ⟨-, hb, b1, hA, rfl⟩ | ⟨-, k, hb, rfl, rfl⟩ | ⟨-, hb, b1, hA, rfl⟩
  · rw [hb] at hin ⊢
    obtain ⟨n, hn, -⟩ := hin
    have := reach_inside hw hA he hn
    exact ⟨8 * n, ⟨n, hn, rfl⟩, by omega, by omega⟩
  · rw [hb]
    cases he
    exact ⟨_, rfl, by omega, by omega⟩
  · rw [hb] at hin ⊢
    obtain ⟨n, hn, -⟩ := hin
    have := reach_inside hw hA he hn
    exact ⟨8 * n, ⟨n, hn, rfl⟩, by omega, by omega⟩

/-- An access by name starts at a field. -/
theorem access_field {u : UInt32} {c : Str} {cs : List PathComponent} {w : Option UInt32} {t : UInt32}
    {es : List PathComponent} {b : Nat} (h : Access ti t es u b w) : es = .name c :: cs →
    ∀ {v}, Resolves ti t v → ∃ m b', Field ti v c m b' := by
  induction h with
  | here => intro he; cases he
  | element => intro he; cases he
  | member hr hm hmem hn _ _ _ =>
    intro he v hv
    cases he
    cases resolves_unique hr hv
    exact ⟨_, _, .direct hm hmem hn⟩
  | bitfield hr hm hmem hn _ =>
    intro he v hv
    cases he
    cases resolves_unique hr hv
    exact ⟨_, _, .direct hm hmem hn⟩
  | anonymous hr hm hmem hn hb hA ih =>
    intro he v hv
    cases he
    cases resolves_unique hr hv
    obtain ⟨v', _, _, hr', -⟩ := access_first hA
    obtain ⟨m', b', hf⟩ := ih rfl hr'
    exact ⟨_, _, .nested hm hmem hn hb hr' hf⟩

theorem first_field {u : UInt32} {v : TypeVariant} {ms : List Member} {m : Member} {c : Str}
    {cs : List PathComponent} {b : Nat} {w : Option UInt32}
    (hm : membersOf v = some ms) (hmem : m ∈ ms)
    (h : (m.name = some c ∧ bitWidth m.offset = none ∧ ∃ b1, Access ti m.tid cs u b1 w ∧ b = bitPos m.offset + b1) ∨
       (m.name = some c ∧ ∃ k, bitWidth m.offset = some k ∧ w = some k ∧ b = bitPos m.offset) ∨
       (m.name = none ∧ bitWidth m.offset = none ∧
          ∃ b1, Access ti m.tid (.name c :: cs) u b1 w ∧ b = bitPos m.offset + b1)) :
    ∃ m b, Field ti v c m b := by
  rcases h with ⟨hn, -⟩ | ⟨hn, -⟩ | ⟨hn, hb, b1, hA, -⟩
  · exact ⟨_, _, .direct hm hmem hn⟩
  · exact ⟨_, _, .direct hm hmem hn⟩
  · obtain ⟨v', _, _, hr', -⟩ := access_first hA
    obtain ⟨m', b', hf⟩ := access_field hA rfl hr'
    exact ⟨_, _, .nested hm hmem hn hb hr' hf⟩

theorem names_apart (hw : Layout ti) (ho : NoOverlap ti) {c d : Str} (hcd : c ≠ d) {u u' : UInt32}
    {cs ds : List PathComponent} {w w' : Option UInt32} {e e' : Nat} (he : Reach ti u w e) (he' : Reach ti u' w' e')
    {t : UInt32} {es : List PathComponent} {b : Nat} (h : Access ti t es u b w) : es = .name c :: cs →
    ∀ {b'}, Access ti t (.name d :: ds) u' b' w' →
    ∀ {v}, Resolves ti t v → b + e ≤ b' ∨ b' + e' ≤ b ∨ Share ti v c d := by
  -- two different members
  have key : ∀ {t v ms m m' b b'}, Resolves ti t v → membersOf v = some ms → m ∈ ms → m' ∈ ms → m ≠ m' →
      ((m.name = some c ∧ bitWidth m.offset = none ∧ ∃ b1, Access ti m.tid cs u b1 w ∧ b = bitPos m.offset + b1) ∨
       (m.name = some c ∧ ∃ k, bitWidth m.offset = some k ∧ w = some k ∧ b = bitPos m.offset) ∨
       (m.name = none ∧ bitWidth m.offset = none ∧
          ∃ b1, Access ti m.tid (.name c :: cs) u b1 w ∧ b = bitPos m.offset + b1)) →
      ((m'.name = some d ∧ bitWidth m'.offset = none ∧ ∃ b1, Access ti m'.tid ds u' b1 w' ∧ b' = bitPos m'.offset + b1) ∨
       (m'.name = some d ∧ ∃ k, bitWidth m'.offset = some k ∧ w' = some k ∧ b' = bitPos m'.offset) ∨
       (m'.name = none ∧ bitWidth m'.offset = none ∧
          ∃ b1, Access ti m'.tid (.name d :: ds) u' b1 w' ∧ b' = bitPos m'.offset + b1)) →
      b + e ≤ b' ∨ b' + e' ≤ b ∨ Share ti v c d := by
    intro t v ms m m' b b' hr hm hmem hmem' hne h h'
    obtain ⟨x, hx, h1, h2⟩ := first_inside hw he hr hm hmem h
    obtain ⟨x', hx', h1', h2'⟩ := first_inside hw he' hr hm hmem' h'
    obtain ⟨f, bf, hf⟩ := first_field hm hmem h
    obtain ⟨f', bf', hf'⟩ := first_field hm hmem' h'
    cases v with
    | «union» hd s => exact .inr (.inr ⟨hd, s, f, bf, f', bf', .self, hf, hf'⟩)
    | struct hd s =>
      obtain ⟨a, -, hv, -⟩ := hr
      cases hm
      have hap := (ho a hd s hv).forall hmem hmem' hne
      rcases hap with hap | hap
      · have := hap x hx; exact .inl (by omega)
      · have := hap x' hx'; exact .inr (.inl (by omega))
    | _ => cases hm
  induction h with
  | here => intro he; cases he
  | element => intro he; cases he
  | @member t v ms m name _ _ bits _ hr hm hmem hn hb hA ih =>
    intro heq b' h' v' hv
    cases heq
    cases resolves_unique hr hv
    obtain ⟨v2, ms2, m', hr2, hm2, hmem2, hc⟩ := access_first h'
    cases resolves_unique hr hr2
    rw [hm] at hm2; cases hm2
    refine key hr hm hmem hmem2 ?_ (.inl ⟨hn, hb, _, hA, rfl⟩) hc
    rintro rfl
    rcases hc with ⟨hn', -⟩ | ⟨hn', -⟩ | ⟨hn', -⟩ <;> rw [hn] at hn' <;> cases hn' <;> exact hcd rfl
  | @bitfield t v ms m name _ hr hm hmem hn hb =>
    intro heq b' h' v' hv
    cases heq
    cases resolves_unique hr hv
    obtain ⟨v2, ms2, m', hr2, hm2, hmem2, hc⟩ := access_first h'
    cases resolves_unique hr hr2
    rw [hm] at hm2; cases hm2
    refine key hr hm hmem hmem2 ?_ (.inr (.inl ⟨hn, _, hb, rfl, rfl⟩)) hc
    rintro rfl
    rcases hc with ⟨hn', -⟩ | ⟨hn', -⟩ | ⟨hn', -⟩ <;> rw [hn] at hn' <;> cases hn' <;> exact hcd rfl
  | @anonymous t v ms m name _ _ bits _ hr hm hmem hn hb hA ih =>
    intro heq b' h' v' hv
    cases heq
    cases resolves_unique hr hv
    obtain ⟨v2, ms2, m', hr2, hm2, hmem2, hc⟩ := access_first h'
    cases resolves_unique hr hr2
    rw [hm] at hm2; cases hm2
    by_cases hmm : m = m'
    · subst hmm
      rcases hc with ⟨hn', -⟩ | ⟨hn', -⟩ | ⟨-, -, b1, hA', rfl⟩
      · rw [hn] at hn'; cases hn'
      · rw [hn] at hn'; cases hn'
      · obtain ⟨v3, _, _, hr3, -⟩ := access_first hA
        rcases ih he key rfl hA' hr3 with h | h | ⟨hd, x, f, bf, f', bf', hB, h1, h2⟩
        · exact .inl (by omega)
        · exact .inr (.inl (by omega))
        · exact .inr (.inr ⟨hd, x, f, bf, f', bf', .unnamed hm hmem hn hr3 hB, h1, h2⟩)
    · exact key hr hm hmem hmem2 hmm (.inr (.inr ⟨hn, hb, _, hA, rfl⟩)) hc

theorem extent_reach (hw : Layout ti) {cfg : Cfg} {u : UInt32} {o : Offset} {e : Nat} (h : Extent cfg ti u o e) :
    Reach ti u (bitWidth o) e := by
  unfold Extent at h
  unfold Reach
  cases hb : bitWidth o with
  | none =>
    rw [hb] at h
    obtain ⟨n, ⟨-, k, hk⟩, rfl⟩ := h
    exact ⟨n, (sizeOf_wf hw cfg).1 n hk, rfl⟩
  | some w => rw [hb] at h; exact h

/-- C83: two paths that part, at some object of type `x`, lead to objects that do not overlap — unless they part inside
a union, whose members share their storage. -/
theorem offset_of_disjoint (cfg : Cfg) (ti : TypeInformation) (hw : WellFormed ti) (hu : Unambiguous ti)
    (ho : NoOverlap ti) (t u u' : UInt32) (s s' : String) (ps cs ds : List PathComponent) (c d : PathComponent)
    (o o' : Offset) (e e' : Nat)
    (hp : AcceptedPath cfg.usizeMod (str s) (ps ++ c :: cs)) (hp' : AcceptedPath cfg.usizeMod (str s') (ps ++ d :: ds))
    (hcd : c ≠ d)
    (h : OffsetOf cfg ti t (str s) (.ok (u, o))) (h' : OffsetOf cfg ti t (str s') (.ok (u', o')))
    (he : Extent cfg ti u o e) (he' : Extent cfg ti u' o' e') :
    bitPos o + e ≤ bitPos o' ∨ bitPos o' + e' ≤ bitPos o ∨
      ∃ x b v n n', Access ti t ps x b none ∧ Resolves ti x v ∧ c = .name n ∧ d = .name n' ∧ Share ti v n n' := by
  obtain ⟨b, w, hA, hD⟩ := (offset_of_iff_path cfg ti hw hu t u (utf8Like_str s) hp o).1 h
  obtain ⟨b', w', hA', hD'⟩ := (offset_of_iff_path cfg ti hw hu t u' (utf8Like_str s') hp' o').1 h'
  obtain ⟨x, b1, b2, hA1, hA2, rfl⟩ := access_split hA rfl (by simp)
  obtain ⟨x', b1', b2', hA1', hA2', rfl⟩ := access_split hA' rfl (by simp)
  obtain ⟨rfl, rfl, -⟩ := access_unique hu hA1 hA1'
  have hl := hw.toLayout
  have hr := extent_reach hl he
  have hr' := extent_reach hl he'
  rw [hD.2] at hr
  rw [hD'.2] at hr'
  rw [hD.1, hD'.1]
  cases c with
  | index i =>
    cases hA2 with
    | @element _ hd y _ n _ _ b3 _ hres hi hn hA3 =>
      cases d with
      | index j =>
        cases hA2' with
        | @element _ hd' y' _ n' _ _ b3' _ hres' hi' hn' hA3' =>
          cases resolves_unique hres hres'
          cases hasSize_unique hn hn'
          have h1 := reach_inside hl hA3 hr hn
          have h2 := reach_inside hl hA3' hr' hn
          rcases Nat.lt_or_gt_of_ne (fun hij : i = j => hcd (by rw [hij])) with hij | hij
          · have : (i + 1) * n ≤ j * n := Nat.mul_le_mul_right n hij
            rw [Nat.add_mul] at this
            left; omega
          · have : (j + 1) * n ≤ i * n := Nat.mul_le_mul_right n hij
            rw [Nat.add_mul] at this
            right; left; omega
      | name n' =>
        obtain ⟨v, ms, m, hres', hm, -⟩ := access_first hA2'
        cases resolves_unique hres hres'
        cases hm
  | name n =>
    obtain ⟨v, ms, m, hres, hm, -⟩ := access_first hA2
    cases d with
    | index j =>
      cases hA2' with
      | element hres' =>
        cases resolves_unique hres hres'
        cases hm
    | name n' =>
      rcases names_apart hl ho (fun hnn : n = n' => hcd (by rw [hnn])) hr hr' hA2 rfl hA2' hres with h | h | h
      · left; omega
      · right; left; omega
      · exact .inr (.inr ⟨x, b1, v, n, n', hA1, hres, rfl, rfl, h⟩)

/-- C83: and if one path is the beginning of the other, the object of the longer one lies inside that of the shorter. -/
theorem offset_of_nested (cfg : Cfg) (ti : TypeInformation) (hw : WellFormed ti) (hu : Unambiguous ti)
    (t u u' : UInt32) (s s' : String) (cs ds : List PathComponent) (o o' : Offset) (e e' : Nat)
    (hp : AcceptedPath cfg.usizeMod (str s) cs) (hp' : AcceptedPath cfg.usizeMod (str s') (cs ++ ds))
    (h : OffsetOf cfg ti t (str s) (.ok (u, o))) (h' : OffsetOf cfg ti t (str s') (.ok (u', o')))
    (he : Extent cfg ti u o e) (he' : Extent cfg ti u' o' e') :
    bitPos o ≤ bitPos o' ∧ bitPos o' + e' ≤ bitPos o + e := by
  obtain ⟨b, w, hA, hD⟩ := (offset_of_iff_path cfg ti hw hu t u (utf8Like_str s) hp o).1 h
  obtain ⟨b', w', hA', hD'⟩ := (offset_of_iff_path cfg ti hw hu t u' (utf8Like_str s') hp' o').1 h'
  have hl := hw.toLayout
  have hr := extent_reach hl he
  have hr' := extent_reach hl he'
  rw [hD.2] at hr
  rw [hD'.2] at hr'
  rw [hD.1, hD'.1]
  by_cases hds : ds = []
  · subst hds
    rw [List.append_nil] at hA'
    obtain ⟨rfl, rfl, rfl⟩ := access_unique hu hA hA'
    have : e = e' := by
      cases w with
      | none =>
        obtain ⟨n, hn, rfl⟩ := hr
        obtain ⟨n', hn', rfl⟩ := hr'
        rw [hasSize_unique hn hn']
      | some w => cases hr; cases hr'; rfl
    omega
  · obtain ⟨x, b1, b2, hA1, hA2, rfl⟩ := access_split hA' rfl hds
    obtain ⟨rfl, rfl, rfl⟩ := access_unique hu hA hA1
    obtain ⟨n, hn, rfl⟩ := hr
    have := reach_inside hl hA2 hr' hn
    omega

theorem zoo_noOverlap : NoOverlap Samples.zoo := by
  have hext : ∀ {m : Member} {e : Nat}, MemberExtent Samples.zoo m e →
      e = (match bitWidth m.offset with | none => 8 * Samples.zooSize m.tid | some w => w.toNat) := by
    intro m e h
    unfold MemberExtent at h
    cases hb : bitWidth m.offset with
    | none => rw [hb] at h; obtain ⟨n, hn, rfl⟩ := h; rw [Samples.zoo_size hn]
    | some w => rw [hb] at h; exact h
  intro t hd d hv
  have := Samples.zoo_all (fun _ v => match v with
    | .struct _ d => decide (d.memberList.Pairwise (fun m m' =>
        bitPos m.offset + (match bitWidth m.offset with | none => 8 * Samples.zooSize m.tid | some w => w.toNat) ≤
          bitPos m'.offset))
    | _ => true) (by decide +kernel) hv
  refine (of_decide_eq_true this).imp ?_
  intro m m' h
  left
  intro e he
  rw [hext he]
  exact h

/-- `head.next` of `struct outer` and `arr` do not overlap. -/
example : bitPos (.byteOffset 64) + 64 ≤ bitPos (.byteOffset 24) ∨ bitPos (.byteOffset 24) + 320 ≤ bitPos (.byteOffset 64) ∨
    ∃ x b v n n', Access Samples.zoo 7 [] x b none ∧ Resolves Samples.zoo x v ∧ PathComponent.name (str "head") = .name n ∧
      PathComponent.name (str "arr") = .name n' ∧ Share Samples.zoo v n n' :=
  offset_of_disjoint Samples.dbg Samples.zoo Samples.zoo_wf Samples.zoo_unambiguous zoo_noOverlap 7 4 5 "head.next" "arr"
    [] [.name (str "next")] [] (.name (str "head")) (.name (str "arr")) _ _ 64 320
    (.strict (path_join (p := str "head") (q := str "next") (cs := [.name (str "head")]) (ds := [.name (str "next")]) (sample_ident _ 104 [101, 97, 100] (by decide) (by decide))
      (sample_ident _ 110 [101, 120, 116] (by decide) (by decide))))
    (.strict (sample_ident _ 97 [114, 114] (by decide) (by decide))) (by decide)
    ⟨by simp, 8, by decide +kernel⟩ ⟨by simp, 8, by decide +kernel⟩
    ⟨8, ⟨by simp, 8, by decide +kernel⟩, rfl⟩ ⟨40, ⟨by simp, 8, by decide +kernel⟩, rfl⟩

/-- The exception is needed: `a` and `b` of `struct outer` lie in an unnamed union; `a` and `b.next` overlap. -/
example : OffsetOf Samples.dbg Samples.zoo 7 (str "a") (.ok (1, .byteOffset 8)) ∧
    OffsetOf Samples.dbg Samples.zoo 7 (str "b.next") (.ok (4, .byteOffset 8)) ∧
    Extent Samples.dbg Samples.zoo 1 (.byteOffset 8) 32 ∧ Extent Samples.dbg Samples.zoo 4 (.byteOffset 8) 64 :=
  ⟨⟨by simp, 8, by decide +kernel⟩, ⟨by simp, 8, by decide +kernel⟩, ⟨4, ⟨by simp, 8, by decide +kernel⟩, rfl⟩,
    ⟨8, ⟨by simp, 8, by decide +kernel⟩, rfl⟩⟩

end Btf.Props

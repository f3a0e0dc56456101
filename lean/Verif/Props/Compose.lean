import Verif.Props.Lookup

/-!
# Property C79: taking paths apart
-/

namespace Btf.Props

open Btf Spec TypeInformation

/-- C79: a lookup of `p` followed by `q` succeeds exactly if `p` leads to some object that is not a bitfield and `q`
leads on from there; the answer is the type `q` leads to, and the offsets add up. -/
theorem offset_of_join (cfg : Cfg) (ti : TypeInformation) (hw : WellFormed ti) (hu : Unambiguous ti)
    (t v : UInt32) (p q : String) (cs ds : List PathComponent) (o : Offset)
    (hp : Path cfg.usizeMod (str p) cs) (hq : Path cfg.usizeMod (str q) ds) (hne : q ≠ "") :
    OffsetOf cfg ti t (join (str p) (str q)) (.ok (v, o)) ↔
      ∃ u o1 o2, OffsetOf cfg ti t (str p) (.ok (u, o1)) ∧ OffsetOf cfg ti u (str q) (.ok (v, o2)) ∧
        bitWidth o1 = none ∧ bitPos o = bitPos o1 + bitPos o2 ∧ bitWidth o = bitWidth o2 := by
  have hj : Utf8Like (join (str p) (str q)) := utf8Like_join (utf8Like_str p) (utf8Like_str q)
  have hjp := path_join hp hq
  have hds : ds ≠ [] := by
    rintro rfl
    exact hne (str_eq_nil (accepted_empty (.strict hq)))
  constructor
  · intro h
    obtain ⟨b, w, hA, hD⟩ := (offset_of_iff_path cfg ti hw hu t v hj (.strict hjp) o).1 h
    obtain ⟨u, b1, b2, hA1, hA2, rfl⟩ := access_split hA rfl hds
    obtain ⟨o1, hD1, h1⟩ := offset_of_unique cfg ti hw t u p cs b1 none (.strict hp) hA1
      (fun u' b' w' hA' => by
        obtain ⟨rfl, rfl, rfl⟩ := access_unique hu hA1 hA'
        exact ⟨rfl, rfl, rfl⟩)
    obtain ⟨o2, hD2, h2⟩ := offset_of_unique cfg ti hw u v q ds b2 w (.strict hq) hA2
      (fun u' b' w' hA' => by
        obtain ⟨rfl, rfl, rfl⟩ := access_unique hu hA2 hA'
        exact ⟨rfl, rfl, rfl⟩)
    exact ⟨u, o1, o2, (h1 _).2 rfl, (h2 _).2 rfl, hD1.2, by rw [hD.1, hD1.1, hD2.1], by rw [hD.2, hD2.2]⟩
  · rintro ⟨u, o1, o2, h1, h2, hb, hpos, hwid⟩
    obtain ⟨b1, w1, hA1, hD1⟩ := (offset_of_iff_path cfg ti hw hu t u (utf8Like_str p) (.strict hp) o1).1 h1
    obtain ⟨b2, w2, hA2, hD2⟩ := (offset_of_iff_path cfg ti hw hu u v (utf8Like_str q) (.strict hq) o2).1 h2
    have hw1 : w1 = none := by rw [← hD1.2, hb]
    refine (offset_of_iff_path cfg ti hw hu t v hj (.strict hjp) o).2 ⟨_, _, access_append hA1 hw1 hA2, ?_, ?_⟩
    · rw [hpos, hD1.1, hD2.1]
    · rw [hwid, hD2.2]

/-- C79: every beginning of a path that leads somewhere leads somewhere; the object found lies `bitPos o1` bits in. -/
theorem offset_of_beginning (cfg : Cfg) (ti : TypeInformation) (hw : WellFormed ti) (hu : Unambiguous ti)
    (t v : UInt32) (p q : String) (cs ds : List PathComponent) (o : Offset)
    (hp : Path cfg.usizeMod (str p) cs) (hq : Path cfg.usizeMod (str q) ds)
    (h : OffsetOf cfg ti t (join (str p) (str q)) (.ok (v, o))) :
    ∃ u o1, OffsetOf cfg ti t (str p) (.ok (u, o1)) ∧ bitPos o1 ≤ bitPos o := by
  by_cases hne : q = ""
  · subst hne
    have : join (str p) (str "") = str p := by
      have : str "" = [] := by decide
      rw [this]
      unfold join
      split
      · rename_i h; exact h.symm
      · rfl
    rw [this] at h
    exact ⟨v, o, h, Nat.le_refl _⟩
  · obtain ⟨u, o1, o2, h1, -, -, h2, -⟩ := (offset_of_join cfg ti hw hu t v p q cs ds o hp hq hne).1 h
    exact ⟨u, o1, h1, by omega⟩

/-- C79: whether a path leads somewhere does not depend on how its beginning got to an object: two paths to objects of
the same type can be continued by the same paths, and the continuations are equally far from them. -/
theorem offset_of_continue (cfg : Cfg) (ti : TypeInformation) (hw : WellFormed ti) (hu : Unambiguous ti)
    (t t' u v : UInt32) (p p' q : String) (cs cs' ds : List PathComponent) (o1 o1' o : Offset)
    (hp : Path cfg.usizeMod (str p) cs) (hp' : Path cfg.usizeMod (str p') cs') (hq : Path cfg.usizeMod (str q) ds)
    (h1 : OffsetOf cfg ti t (str p) (.ok (u, o1))) (h1' : OffsetOf cfg ti t' (str p') (.ok (u, o1')))
    (h : OffsetOf cfg ti t (join (str p) (str q)) (.ok (v, o))) (hne : q ≠ "") :
    ∃ o', OffsetOf cfg ti t' (join (str p') (str q)) (.ok (v, o')) ∧
      bitPos o' + bitPos o1 = bitPos o + bitPos o1' ∧ bitWidth o' = bitWidth o := by
  obtain ⟨u', a1, a2, g1, g2, -, g4, g5⟩ := (offset_of_join cfg ti hw hu t v p q cs ds o hp hq hne).1 h
  have := offset_of_deterministic cfg ti t p _ _ h1 g1
  simp only [Res.ok.injEq, Prod.mk.injEq] at this
  obtain ⟨rfl, rfl⟩ := this
  obtain ⟨o', k1, k2, k3⟩ := offset_of_compose cfg ti hw hu t' u v p' q cs' ds o1' a2 hp' hq h1' g2
  rw [if_neg hne] at k3
  exact ⟨o', k1, by omega, by rw [k3, g5]⟩

/-- The hypotheses can be met: `head.next` of `struct outer` (7) is `head` and then `next`. -/
example : ∃ u o1 o2, OffsetOf Samples.dbg Samples.zoo 7 (str "head") (.ok (u, o1)) ∧
    OffsetOf Samples.dbg Samples.zoo u (str "next") (.ok (4, o2)) ∧ bitWidth o1 = none ∧ 8 * 64 = bitPos o1 + bitPos o2 ∧
    none = bitWidth o2 :=
  (offset_of_join Samples.dbg Samples.zoo Samples.zoo_wf Samples.zoo_unambiguous 7 4 "head" "next" _ _ (.byteOffset 64)
    (sample_ident _ 104 [101, 97, 100] (by decide) (by decide))
    (sample_ident _ 110 [101, 120, 116] (by decide) (by decide)) (by decide)).1 ⟨by simp, 8, by decide +kernel⟩

end Btf.Props

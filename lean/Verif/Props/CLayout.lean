import Verif.Spec.CLayout
import Verif.Props.CSame

/-!
# Property C121: the layout of structs
-/

namespace Btf.Props

open Btf Spec CTypes TypeInformation

theorem le_roundUp {a : Nat} (n : Nat) (ha : 0 < a) : n ≤ roundUp n a := by
  have h := Nat.div_add_mod (n + a - 1) a
  have hm := Nat.mod_lt (n + a - 1) ha
  rw [roundUp, Nat.mul_comm]
  omega

theorem dvd_roundUp (n a : Nat) : a ∣ roundUp n a := ⟨(n + a - 1) / a, Nat.mul_comm _ _⟩

/-- The first multiple: there is none between. -/
theorem roundUp_least {a n m : Nat} (hm : a ∣ m) (h : n ≤ m) : roundUp n a ≤ m := by
  obtain ⟨k, rfl⟩ := hm
  rcases Nat.eq_zero_or_pos a with rfl | ha
  · simp [roundUp]
  rw [roundUp, Nat.mul_comm]
  refine Nat.mul_le_mul_left a ?_
  rw [← Nat.lt_succ_iff, Nat.div_lt_iff_lt_mul ha, Nat.succ_mul, Nat.mul_comm k a]
  omega

mutual
theorem align_pow {p : Nat} : ∀ S : CSource, S.Legal p → ∃ k, S.align p = 2 ^ k
  | .scalar s a, h => by rw [CSource.Legal] at h; exact h.2.1
  | .pointer _, h => by rw [CSource.Legal] at h; exact h.2
  | .array n t, h => by rw [CSource.Legal] at h; exact align_pow t h.1
  | .record u tag ms, h => by rw [CSource.Legal] at h; exact fields_align_pow ms h.2.1
  | .renamed _ t, h => by rw [CSource.Legal] at h; exact align_pow t h.1

theorem fields_align_pow {p : Nat} : ∀ ms : CFields, ms.Legal p → ∃ k, ms.align p = 2 ^ k
  | .nil, _ => ⟨0, rfl⟩
  | .cons _ _ t rest, h => by
    rw [CFields.Legal] at h
    rw [CFields.align]
    rcases Nat.le_total (t.align p) (rest.align p) with g | g
    · rw [Nat.max_eq_right g]; exact fields_align_pow rest h.2.1
    · rw [Nat.max_eq_left g]; exact align_pow t h.1
end

theorem align_pos {p : Nat} {S : CSource} (h : S.Legal p) : 0 < S.align p := by
  obtain ⟨k, hk⟩ := align_pow S h
  rw [hk]
  exact Nat.two_pow_pos k

theorem fields_align_pos {p : Nat} {ms : CFields} (h : ms.Legal p) : 0 < ms.align p := by
  obtain ⟨k, hk⟩ := fields_align_pow ms h
  rw [hk]
  exact Nat.two_pow_pos k

theorem pow_dvd_of_le {a b : Nat} (ha : ∃ k, a = 2 ^ k) (hb : ∃ k, b = 2 ^ k) (h : a ≤ b) : a ∣ b := by
  obtain ⟨k, rfl⟩ := ha
  obtain ⟨l, rfl⟩ := hb
  exact Nat.pow_dvd_pow 2 ((Nat.pow_le_pow_iff_right (by decide)).1 h)

theorem roundUp_bytes (n a : Nat) : 8 * (roundUp n (8 * a) / 8) = roundUp n (8 * a) :=
  Nat.mul_div_cancel' (Nat.dvd_trans (Nat.dvd_mul_right 8 a) (dvd_roundUp n (8 * a)))

/-- The size is a multiple of the alignment. -/
theorem align_dvd_size {p : Nat} : ∀ S : CSource, S.Legal p → S.align p ∣ S.size p
  | .scalar s a, h => by rw [CSource.Legal] at h; exact h.2.2
  | .pointer _, _ => Nat.dvd_refl _
  | .array n t, h => by
    rw [CSource.Legal] at h
    exact Nat.dvd_mul_left_of_dvd (align_dvd_size t h.1) n
  | .record u tag ms, _ => by
    rw [CSource.align, CSource.size]
    refine Nat.dvd_of_mul_dvd_mul_left (by decide : 0 < 8) ?_
    rw [roundUp_bytes]
    exact dvd_roundUp _ _
  | .renamed _ t, h => by rw [CSource.Legal] at h; exact align_dvd_size t h.1

theorem size_lt {p : Nat} : ∀ S : CSource, S.Legal p → S.size p < 2 ^ 29
  | .scalar s a, h => by rw [CSource.Legal] at h; exact h.1
  | .pointer _, h => by rw [CSource.Legal] at h; exact h.1
  | .array n t, h => by rw [CSource.Legal] at h; exact h.2.2
  | .record u tag ms, h => by
    rw [CSource.Legal] at h
    have := h.2.2.2.2.2
    rw [CSource.size]
    refine Nat.lt_of_lt_of_le this ?_
    cases ms.hasWidth <;> decide
  | .renamed _ t, h => by rw [CSource.Legal] at h; exact size_lt t h.1

theorem ofNat_toNat {n : Nat} (h : n < 2 ^ 32) : (UInt32.ofNat n).toNat = n := by
  rw [UInt32.toNat_ofNat']
  exact Nat.mod_eq_of_lt h

theorem compile_size {p : Nat} : ∀ S : CSource, S.Legal p → (S.compile p).size p = S.size p
  | .scalar s a, h => by
    rw [CSource.Legal] at h
    exact ofNat_toNat (by omega)
  | .pointer _, _ => rfl
  | .array n t, h => by
    rw [CSource.Legal] at h
    rw [CSource.compile, CType.size, CSource.size, compile_size t h.1, ofNat_toNat h.2.1, Nat.mul_comm]
  | .record u tag ms, h => by
    have := size_lt _ h
    exact ofNat_toNat (by rw [CSource.size] at this; omega)
  | .renamed _ t, h => by
    rw [CSource.Legal] at h
    exact compile_size t h.1

mutual
theorem compile_names (p : Nat) : ∀ S : CSource, (S.compile p).names = S.names
  | .scalar _ _ => rfl
  | .pointer _ => rfl
  | .array _ _ => rfl
  | .record u tag ms => by rw [CSource.compile, CType.names, CSource.names, compile_fields_names]
  | .renamed _ t => by rw [CSource.compile, CType.names, CSource.names, compile_names p t]

theorem compile_fields_names (p : Nat) (u : Bool) : ∀ (place : Nat) (ms : CFields), (ms.compile p u place).names = ms.names
  | _, .nil => rfl
  | place, .cons name _ t rest => by
    rw [CFields.compile, CMembers.names, CFields.names, compile_names p t, compile_fields_names p u _ rest]
end

theorem compile_isScalar (p : Nat) : ∀ S : CSource, (S.compile p).isScalar = S.isScalar
  | .scalar _ _ => rfl
  | .pointer _ => rfl
  | .array _ _ => rfl
  | .record _ _ _ => rfl
  | .renamed _ t => by rw [CSource.compile, CType.isScalar, CSource.isScalar, compile_isScalar p t]

theorem compile_target (p : Nat) : ∀ S : CSource, (S.compile p).target = S.target
  | .scalar _ _ => rfl
  | .pointer _ => rfl
  | .array _ _ => rfl
  | .record _ _ _ => rfl
  | .renamed _ t => by rw [CSource.compile, CType.target, CSource.target, compile_target p t]

theorem le_memberStart {place align size : Nat} {width : Option Nat} (ha : 0 < align) :
    place ≤ memberStart false place width align size := by
  have h := le_roundUp (a := 8 * align) place (by omega)
  cases width with
  | none => exact h
  | some w =>
    show place ≤ if place / (8 * size) = (place + w - 1) / (8 * size) then place else roundUp place (8 * align)
    split
    · exact Nat.le_refl _
    · exact h

theorem le_finish {p : Nat} : ∀ (place : Nat) (ms : CFields), ms.Legal p → place ≤ ms.finish p place
  | place, .nil, _ => Nat.le_refl _
  | place, .cons _ width t rest, h => by
    rw [CFields.Legal] at h
    rw [CFields.finish]
    have h1 := le_memberStart (place := place) (size := t.size p) (width := width) (align_pos h.1)
    have h2 := le_finish (memberStart false place width (t.align p) (t.size p) + memberBits width (t.size p)) rest h.2.1
    omega

/-- The bits of the struct or union that the members use. -/
def usedBits (p : Nat) (u : Bool) (place : Nat) (ms : CFields) : Nat := if u then ms.widest p else ms.finish p place

theorem used_first {p : Nat} {u : Bool} {place : Nat} {name : Name} {width : Option Nat} {t : CSource} {rest : CFields}
    (h : rest.Legal p) : memberStart u place width (t.align p) (t.size p) + memberBits width (t.size p) ≤
      usedBits p u place (.cons name width t rest) := by
  cases u
  · exact le_finish _ rest h
  · show 0 + memberBits width (t.size p) ≤ max (memberBits width (t.size p)) (rest.widest p)
    omega

theorem used_rest {p : Nat} {u : Bool} {place : Nat} {name : Name} {width : Option Nat} {t : CSource} {rest : CFields} :
    usedBits p u (memberStart u place width (t.align p) (t.size p) + memberBits width (t.size p)) rest ≤
      usedBits p u place (.cons name width t rest) := by
  cases u
  · exact Nat.le_refl _
  · exact Nat.le_max_right _ _

theorem used_size {p : Nat} {u : Bool} {tag : Name} {ms : CFields} (h : ms.Legal p) :
    usedBits p u 0 ms ≤ 8 * (CSource.record u tag ms).size p := by
  rw [CSource.size, roundUp_bytes]
  exact le_roundUp _ (by have := fields_align_pos h; omega)

theorem memberStart_dvd (u : Bool) (place align size : Nat) : 8 * align ∣ memberStart u place none align size := by
  cases u
  · exact dvd_roundUp _ _
  · exact Nat.dvd_zero _

mutual
theorem compile_proper {p : Nat} : ∀ S : CSource, S.Legal p → (S.compile p).Proper p
  | .scalar s a, h => by
    rw [CSource.Legal] at h
    rw [CSource.compile, CType.Proper, ofNat_toNat (by omega)]
    exact h.1
  | .pointer _, h => by
    rw [CSource.Legal] at h
    exact h.1
  | .array n t, h => by
    have hs := size_lt _ h
    have hc := compile_size _ h
    rw [CSource.Legal] at h
    rw [CSource.compile, CType.size] at hc
    rw [CSource.compile, CType.Proper]
    exact ⟨compile_proper t h.1, hc ▸ hs⟩
  | .record u tag ms, h => by
    have hs := size_lt _ h
    have hc := compile_size _ h
    rw [CSource.Legal] at h
    rw [CSource.compile, CType.size] at hc
    rw [CSource.compile, CType.Proper]
    refine ⟨by rw [compile_fields_names]; exact h.1, compile_fields_proper u 0 ms h.2.1 _ ?_, hc ▸ hs⟩
    rw [hc]
    exact used_size h.2.1
  | .renamed _ t, h => by
    rw [CSource.Legal] at h
    rw [CSource.compile, CType.Proper]
    exact compile_proper t h.1

theorem compile_fields_proper {p : Nat} (u : Bool) : ∀ (place : Nat) (ms : CFields), ms.Legal p → ∀ size : Nat,
    usedBits p u place ms ≤ 8 * size → (ms.compile p u place).Proper p size
  | _, .nil, _, _, _ => trivial
  | place, .cons name width t rest, h, size, hle => by
    rw [CFields.Legal] at h
    rw [CFields.compile, proper_cons]
    have h1 := used_first (u := u) (place := place) (name := name) (width := width) (t := t) h.2.1
    refine ⟨compile_proper t h.1, compile_fields_proper u _ rest h.2.1 size (Nat.le_trans used_rest hle), h.2.2.1, ?_⟩
    cases width with
    | none =>
      refine ⟨Nat.dvd_trans (Nat.dvd_mul_right 8 _) (memberStart_dvd u place (t.align p) (t.size p)), ?_⟩
      rw [compile_size t h.1]
      exact Nat.le_trans h1 hle
    | some w =>
      obtain ⟨g1, g2, g3, g4, -⟩ := h.2.2.2 w rfl
      exact ⟨g1, by rw [compile_isScalar]; exact g2, g3, g4, Nat.le_trans h1 hle⟩
end

theorem compile_fields_length (p : Nat) (u : Bool) : ∀ (place : Nat) (ms : CFields) (k : Nat),
    ((ms.compile p u place).fields k).length = ms.number
  | _, .nil, _ => rfl
  | place, .cons name _ t rest, k => by
    rw [CFields.compile, CMembers.fields, List.length_cons, compile_fields_length p u _ rest, CFields.number]

theorem compile_fields_plain (p : Nat) (u : Bool) : ∀ (place : Nat) (ms : CFields) (k : Nat), ms.hasWidth = false →
    ∀ m ∈ (ms.compile p u place).fields k, m.width = none
  | _, .nil, _, _, m, hm => by simp [CFields.compile, CMembers.fields] at hm
  | place, .cons name width t rest, k, h, m, hm => by
    rw [CFields.hasWidth, Bool.or_eq_false_iff] at h
    rw [CFields.compile, CMembers.fields, List.mem_cons] at hm
    rcases hm with rfl | hm
    · cases width with
      | none => rfl
      | some w => exact absurd h.1 (by simp)
    · exact compile_fields_plain p u _ rest _ h.2 m hm

theorem position_inside {p size : Nat} : ∀ (ms : CMembers) (k : Nat), ms.Proper p size → ∀ m ∈ ms.fields k, m.position ≤ 8 * size
  | .nil, _, _, m, hm => by simp [CMembers.fields] at hm
  | .cons name pos width T rest, k, h, m, hm => by
    rw [proper_cons] at h
    rw [CMembers.fields, List.mem_cons] at hm
    rcases hm with rfl | hm
    · show pos ≤ 8 * size
      cases width with
      | none => have := h.2.2.2.2; omega
      | some w => have := h.2.2.2.2.2.2.2; omega
    · exact position_inside rest _ h.2.1 m hm

mutual
theorem compile_recordable {p : Nat} : ∀ S : CSource, S.Legal p → (S.compile p).Recordable
  | .scalar _ _, _ => trivial
  | .pointer _, _ => trivial
  | .array n t, h => by
    rw [CSource.Legal] at h
    rw [CSource.compile, CType.Recordable]
    exact compile_recordable t h.1
  | .record u tag ms, h => by
    rw [CSource.Legal] at h
    rw [CSource.compile, CType.Recordable]
    refine ⟨compile_fields_recordable u 0 ms h.2.1, h.2.2.2.1, h.2.2.2.2.1, by rw [compile_fields_length]; exact h.2.2.1,
      fun hb m hm => ?_⟩
    cases hw : ms.hasWidth with
    | false =>
      rw [hasBitfield, List.any_eq_true] at hb
      obtain ⟨m', hm', hw'⟩ := hb
      rw [compile_fields_plain p u 0 ms 0 hw m' hm'] at hw'
      simp at hw'
    | true =>
      have hs := h.2.2.2.2.2
      rw [if_pos hw] at hs
      have := position_inside _ 0 (compile_fields_proper u 0 ms h.2.1 _ (used_size (tag := tag) h.2.1)) m hm
      rw [CSource.size] at this
      omega
  | .renamed _ t, h => by
    rw [CSource.Legal] at h
    rw [CSource.compile, CType.Recordable]
    exact ⟨compile_recordable t h.1, h.2⟩

theorem compile_fields_recordable {p : Nat} (u : Bool) : ∀ (place : Nat) (ms : CFields), ms.Legal p → (ms.compile p u place).Recordable
  | _, .nil, _ => trivial
  | place, .cons name _ t rest, h => by
    rw [CFields.Legal] at h
    rw [CFields.compile, CMembers.Recordable]
    exact ⟨compile_recordable t h.1, compile_fields_recordable u _ rest h.2.1⟩
end

theorem offset_cons {p : Nat} (u : Bool) (place : Nat) (name : Name) (width : Option Nat) (t : CSource) (rest : CFields) (x : Str)
    (cs : List PathComponent) : (CFields.cons name width t rest).offset p u place x cs =
    if name = [] then
      match t.offset p (.name x :: cs) with
      | some y => some (y.shift (memberStart u place width (t.align p) (t.size p)))
      | none => rest.offset p u (memberStart u place width (t.align p) (t.size p) + memberBits width (t.size p)) x cs
    else if name = x then
      match width with
      | none => (t.offset p cs).map (·.shift (memberStart u place none (t.align p) (t.size p)))
      | some w => if cs = [] then some ⟨t, memberStart u place (some w) (t.align p) (t.size p), some w⟩ else none
    else rest.offset p u (memberStart u place width (t.align p) (t.size p) + memberBits width (t.size p)) x cs := by
  rw [CFields.offset.eq_def]; rfl

/-- What the compiler has found at a place. -/
def compiledAt (p : Nat) (y : Placed) : Found := ⟨y.type.compile p, y.bits, y.width⟩

mutual
theorem compile_reach {p : Nat} : ∀ (S : CSource) (cs : List PathComponent), S.Legal p →
    (S.compile p).reach p cs = (S.offset p cs).map (compiledAt p)
  | S, [], _ => by
    rw [reach_nil]
    cases S <;> rfl
  | .scalar _ _, _ :: _, _ => by simp [CSource.compile, CType.reach, CSource.offset]
  | .pointer _, _ :: _, _ => by simp [CSource.compile, CType.reach, CSource.offset]
  | .array _ _, .name _ :: _, _ => by simp [CSource.compile, CType.reach, CSource.offset]
  | .array n t, .index i :: cs, h => by
    rw [CSource.Legal] at h
    rw [CSource.compile, CType.reach, CSource.offset, ofNat_toNat h.2.1, compile_reach t cs h.1, compile_size t h.1]
    split
    · cases t.offset p cs <;> rfl
    · rfl
  | .record _ _ _, .index _ :: _, _ => by simp [CSource.compile, CType.reach, CSource.offset]
  | .record u tag ms, .name x :: cs, h => by
    rw [CSource.Legal] at h
    rw [CSource.compile, CType.reach, CSource.offset, compile_fields_reach u 0 ms x cs h.2.1]
  | .renamed _ t, c :: cs, h => by
    rw [CSource.Legal] at h
    rw [CSource.compile, CType.reach, CSource.offset, compile_reach t (c :: cs) h.1]

theorem compile_fields_reach {p : Nat} (u : Bool) : ∀ (place : Nat) (ms : CFields) (x : Str) (cs : List PathComponent), ms.Legal p →
    (ms.compile p u place).reach p x cs = (ms.offset p u place x cs).map (compiledAt p)
  | _, .nil, _, _, _ => rfl
  | place, .cons name width t rest, x, cs, h => by
    rw [CFields.Legal] at h
    rw [CFields.compile, reach_cons, offset_cons, compile_reach t (.name x :: cs) h.1, compile_reach t cs h.1,
      compile_fields_reach u _ rest x cs h.2.1]
    split
    · cases t.offset p (.name x :: cs) <;> rfl
    · split
      · cases width with
        | none => cases t.offset p cs <;> rfl
        | some w =>
          show (if cs = [] then _ else _) = Option.map (compiledAt p) (if cs = [] then _ else _)
          split <;> rfl
      · rfl
end

mutual
/-- What a path leads to is legal, lies inside, and is aligned unless it is a bitfield; it does not demand more than the whole. -/
theorem offset_facts {p : Nat} : ∀ (S : CSource) (cs : List PathComponent) (x : Placed), S.Legal p → S.offset p cs = some x →
    x.type.Legal p ∧ x.bits + memberBits x.width (x.type.size p) ≤ 8 * S.size p ∧
      (x.width = none → 8 * x.type.align p ∣ x.bits ∧ x.type.align p ∣ S.align p)
  | S, [], x, h, hx => by
    have : S.offset p [] = some ⟨S, 0, none⟩ := by cases S <;> rfl
    rw [this, Option.some.injEq] at hx
    subst hx
    exact ⟨h, by simp [memberBits], fun _ => ⟨Nat.dvd_zero _, Nat.dvd_refl _⟩⟩
  | .scalar _ _, _ :: _, _, _, hx => by simp [CSource.offset] at hx
  | .pointer _, _ :: _, _, _, hx => by simp [CSource.offset] at hx
  | .array _ _, .name _ :: _, _, _, hx => by simp [CSource.offset] at hx
  | .array k t, .index i :: cs, x, h, hx => by
    rw [CSource.Legal] at h
    rw [CSource.offset] at hx
    split at hx
    · rename_i hi
      rw [Option.map_eq_some_iff] at hx
      obtain ⟨y, h1, rfl⟩ := hx
      obtain ⟨g1, g2, g3⟩ := offset_facts t cs y h.1 h1
      have : (i + 1) * t.size p ≤ k * t.size p := Nat.mul_le_mul_right _ hi
      rw [Nat.succ_mul] at this
      refine ⟨g1, ?_, fun hw => ?_⟩
      · show 8 * (i * t.size p) + y.bits + memberBits y.width (y.type.size p) ≤ 8 * (k * t.size p)
        omega
      · obtain ⟨k1, k2⟩ := g3 hw
        exact ⟨Nat.dvd_add (Nat.mul_dvd_mul_left 8 (Nat.dvd_mul_left_of_dvd (Nat.dvd_trans k2 (align_dvd_size t h.1)) i)) k1, k2⟩
    · simp at hx
  | .record _ _ _, .index _ :: _, _, _, hx => by simp [CSource.offset] at hx
  | .record u tag ms, .name x :: cs, y, h, hx => by
    rw [CSource.Legal] at h
    rw [CSource.offset] at hx
    obtain ⟨g1, g2, g3⟩ := fields_offset_facts u 0 ms x cs y h.2.1 hx
    exact ⟨g1, Nat.le_trans g2 (used_size h.2.1), g3⟩
  | .renamed _ t, c :: cs, x, h, hx => by
    rw [CSource.Legal] at h
    rw [CSource.offset] at hx
    exact offset_facts t (c :: cs) x h.1 hx

theorem fields_offset_facts {p : Nat} (u : Bool) : ∀ (place : Nat) (ms : CFields) (x : Str) (cs : List PathComponent) (y : Placed),
    ms.Legal p → ms.offset p u place x cs = some y →
      y.type.Legal p ∧ y.bits + memberBits y.width (y.type.size p) ≤ usedBits p u place ms ∧
        (y.width = none → 8 * y.type.align p ∣ y.bits ∧ y.type.align p ∣ ms.align p)
  | _, .nil, _, _, _, _, hx => by simp [CFields.offset] at hx
  | place, .cons name width t rest, x, cs, y, h, hx => by
    have hpow := fields_align_pow _ h
    rw [CFields.Legal] at h
    have ht : t.align p ∣ (CFields.cons name width t rest).align p :=
      pow_dvd_of_le (align_pow t h.1) hpow (by rw [CFields.align]; exact Nat.le_max_left _ _)
    have hr : rest.align p ∣ (CFields.cons name width t rest).align p :=
      pow_dvd_of_le (fields_align_pow rest h.2.1) hpow (by rw [CFields.align]; exact Nat.le_max_right _ _)
    have h1 := used_first (u := u) (place := place) (name := name) (width := width) (t := t) h.2.1
    have hrest : rest.offset p u (memberStart u place width (t.align p) (t.size p) + memberBits width (t.size p)) x cs = some y →
        y.type.Legal p ∧ y.bits + memberBits y.width (y.type.size p) ≤ usedBits p u place (.cons name width t rest) ∧
        (y.width = none → 8 * y.type.align p ∣ y.bits ∧ y.type.align p ∣ (CFields.cons name width t rest).align p) := by
      intro hx
      obtain ⟨g1, g2, g3⟩ := fields_offset_facts u _ rest x cs y h.2.1 hx
      exact ⟨g1, Nat.le_trans g2 used_rest, fun hw => ⟨(g3 hw).1, Nat.dvd_trans (g3 hw).2 hr⟩⟩
    have hin : width = none → ∀ (cs : List PathComponent) (z : Placed), t.offset p cs = some z →
        z.type.Legal p ∧ memberStart u place none (t.align p) (t.size p) + z.bits + memberBits z.width (z.type.size p) ≤
            usedBits p u place (.cons name width t rest) ∧
        (z.width = none → 8 * z.type.align p ∣ memberStart u place none (t.align p) (t.size p) + z.bits ∧
          z.type.align p ∣ (CFields.cons name width t rest).align p) := by
      rintro rfl cs z hz
      obtain ⟨g1, g2, g3⟩ := offset_facts t cs z h.1 hz
      refine ⟨g1, ?_, fun hw => ⟨Nat.dvd_add (Nat.dvd_trans (Nat.mul_dvd_mul_left 8 (g3 hw).2) (memberStart_dvd u place _ _)) (g3 hw).1,
        Nat.dvd_trans (g3 hw).2 ht⟩⟩
      have : memberBits none (t.size p) = 8 * t.size p := rfl
      omega
    rw [offset_cons] at hx
    split at hx
    · rename_i hn
      have hw : width = none := by
        cases width with
        | none => rfl
        | some w => exact absurd hn (h.2.2.2 w rfl).1
      split at hx
      · rename_i z hz
        rw [Option.some.injEq] at hx
        subst hx
        have := hin hw _ z hz
        subst hw
        exact this
      · exact hrest hx
    · split at hx
      · cases width with
        | none =>
          obtain ⟨z, hz, rfl⟩ := Option.map_eq_some_iff.1 hx
          exact hin rfl _ z hz
        | some w =>
          have hx : (if cs = [] then some (Placed.mk t (memberStart u place (some w) (t.align p) (t.size p)) (some w)) else none) = some y := hx
          split at hx
          · rw [Option.some.injEq] at hx
            subst hx
            exact ⟨h.1, h1, by simp⟩
          · simp at hx
      · exact hrest hx
end

theorem compile_label (p : Nat) (S : CSource) : (S.compile p).label = S.label := by
  cases S with
  | renamed how t => cases how <;> rfl
  | _ => rfl

theorem compile_core (p : Nat) : ∀ S : CSource, (S.compile p).core = S.core.compile p
  | .scalar _ _ => rfl
  | .pointer _ => rfl
  | .array _ _ => rfl
  | .record _ _ _ => rfl
  | .renamed _ t => by rw [CSource.compile, CType.core, CSource.core, compile_core p t]

mutual
theorem compile_parts (p : Nat) : ∀ S : CSource, (S.compile p).parts = S.parts.map (CSource.compile p)
  | .scalar _ _ => rfl
  | .pointer _ => rfl
  | .array n t => by rw [CSource.compile, CType.parts, CSource.parts, compile_parts p t, List.map_append]; rfl
  | .record u tag ms => by rw [CSource.compile, CType.parts, CSource.parts, compile_fields_parts p u 0 ms, List.map_append]; rfl
  | .renamed how t => by rw [CSource.compile, CType.parts, CSource.parts, compile_parts p t, List.map_append]; rfl

theorem compile_fields_parts (p : Nat) (u : Bool) : ∀ (place : Nat) (ms : CFields),
    (ms.compile p u place).parts = ms.parts.map (CSource.compile p)
  | _, .nil => rfl
  | place, .cons name _ t rest => by
    rw [CFields.compile, CMembers.parts, CFields.parts, compile_parts p t, compile_fields_parts p u _ rest, List.map_append]
end

theorem compile_sourceParts (p : Nat) : ∀ Ss : List CSource,
    headerParts (Ss.map (CSource.compile p)) = (sourceParts Ss).map (CSource.compile p)
  | [] => rfl
  | S :: Ss => by
    have h := compile_sourceParts p Ss
    rw [headerParts, sourceParts] at h
    rw [headerParts, sourceParts, List.map_cons, List.flatMap_cons, List.flatMap_cons, List.map_append, compile_parts, h]

mutual
theorem legal_parts {p : Nat} : ∀ S : CSource, S.Legal p → ∀ T ∈ S.parts, T.Legal p
  | .scalar _ _, h, T, hT => by
    rw [CSource.parts, List.mem_singleton] at hT
    exact hT ▸ h
  | .pointer _, h, T, hT => by
    rw [CSource.parts, List.mem_singleton] at hT
    exact hT ▸ h
  | .array n t, h, T, hT => by
    rw [CSource.parts, List.mem_append, List.mem_singleton] at hT
    rcases hT with hT | rfl
    · rw [CSource.Legal] at h
      exact legal_parts t h.1 T hT
    · exact h
  | .record u tag ms, h, T, hT => by
    rw [CSource.parts, List.mem_append, List.mem_singleton] at hT
    rcases hT with hT | rfl
    · rw [CSource.Legal] at h
      exact legal_fields_parts ms h.2.1 T hT
    · exact h
  | .renamed how t, h, T, hT => by
    rw [CSource.parts, List.mem_append, List.mem_singleton] at hT
    rcases hT with hT | rfl
    · rw [CSource.Legal] at h
      exact legal_parts t h.1 T hT
    · exact h

theorem legal_fields_parts {p : Nat} : ∀ ms : CFields, ms.Legal p → ∀ T ∈ ms.parts, T.Legal p
  | .nil, _, T, hT => by simp [CFields.parts] at hT
  | .cons _ _ t rest, h, T, hT => by
    rw [CFields.Legal] at h
    rw [CFields.parts, List.mem_append] at hT
    rcases hT with hT | hT
    · exact legal_parts t h.1 T hT
    · exact legal_fields_parts rest h.2.1 T hT
end

theorem legal_sourceParts {p : Nat} {Ss : List CSource} (h : ∀ S ∈ Ss, S.Legal p) : ∀ S ∈ sourceParts Ss, S.Legal p := by
  intro S hS
  rw [sourceParts, List.mem_flatMap] at hS
  obtain ⟨S', h1, h2⟩ := hS
  exact legal_parts S' (h S' h1) S h2

theorem compile_one {p : Nat} {Ss : List CSource} (h : OneSource Ss) : OneMeaning (Ss.map (CSource.compile p)) := by
  intro T hT T' hT' hl hne
  rw [compile_sourceParts, List.mem_map] at hT hT'
  obtain ⟨S, hS, rfl⟩ := hT
  obtain ⟨S', hS', rfl⟩ := hT'
  rw [compile_label, compile_label] at hl
  rw [compile_label] at hne
  rw [compile_core, compile_core, h S hS S' hS' hl hne]

/-- The id answers as the rules of the layout say: the size is that of the rules, a path that C compiles leads to the place of the rules,
and to an id of the right size; every other text gives `InvalidTypePath`; `pointee_tid` gives the target of a pointer. What is found lies inside the object, and is at a whole byte
that is a multiple of its alignment, unless it is a bitfield. -/
def LaidOut (cfg : Cfg) (ti : TypeInformation) (p : Nat) (t : UInt32) (S : CSource) : Prop :=
  (∀ r, SizeOf cfg ti t r ↔ r = .ok (S.size p)) ∧
  (∀ (s : String) (cs : List PathComponent), AcceptedPath cfg.usizeMod (str s) cs →
    (∀ x, S.offset p cs = some x → ∃ u o, (∀ r, OffsetOf cfg ti t (str s) r ↔ r = .ok (u, o)) ∧
      bitPos o = x.bits ∧ (bitWidth o).map UInt32.toNat = x.width ∧ (∀ r, SizeOf cfg ti u r ↔ r = .ok (x.type.size p)) ∧
      (∀ r, PointeeOf ti u r ↔ r = x.type.target.elim (.err .InvalidTypeID) .ok) ∧
      x.bits + memberBits x.width (x.type.size p) ≤ 8 * S.size p ∧
      (x.width = none → ∃ c, o = .byteOffset c ∧ 8 * c.toNat = x.bits ∧ x.type.align p ∣ c.toNat)) ∧
    (S.offset p cs = none → ∀ r, OffsetOf cfg ti t (str s) r ↔ r = .err .InvalidTypePath)) ∧
  (∀ s : String, (∀ cs, ¬ AcceptedPath cfg.usizeMod (str s) cs) → ∀ r, OffsetOf cfg ti t (str s) r ↔ r = .err .InvalidTypePath) ∧
  ∀ r, PointeeOf ti t r ↔ r = S.target.elim (.err .InvalidTypeID) .ok

theorem answers_laidOut {cfg : Cfg} {ti : TypeInformation} {p : Nat} {t : UInt32} {S : CSource} (hS : S.Legal p)
    (h : AnswersFor cfg ti p t (S.compile p)) : LaidOut cfg ti p t S := by
  obtain ⟨h1, h2, h3, h4⟩ := h
  refine ⟨fun r => by rw [h1, compile_size S hS], fun s cs hs => ⟨fun x hx => ?_, fun hx => ?_⟩, h3,
    fun r => by rw [h4, compile_target]⟩
  · obtain ⟨g1, g2, g3⟩ := offset_facts S cs x hS hx
    obtain ⟨u, o, k1, k2, k3, k4, k5⟩ := (h2 s cs hs).1 (compiledAt p x) (by rw [compile_reach S cs hS, hx]; rfl)
    refine ⟨u, o, k1, k2, k3, fun r => by rw [k4, compiledAt, compile_size _ g1],
      fun r => by rw [k5, compiledAt, compile_target], g2, fun hw => ?_⟩
    obtain ⟨c, rfl, hc⟩ := byte_offset k2 (k3.trans hw)
    exact ⟨c, rfl, hc, Nat.dvd_of_mul_dvd_mul_left (by decide : 0 < 8) (hc ▸ (g3 hw).1)⟩
  · exact (h2 s cs hs).2 (by rw [compile_reach S cs hS, hx]; rfl)

/-- C121: a header file of C types as they are in the source, without positions, among any other declarations, compiled with the usual
rules of layout: the file is accepted, and every type of the header is laid out, for the crate, by these rules. -/
theorem c_layout {cfg : Cfg} {R : Readable} {e : Endianness} (p : Nat) (hp : p < 2 ^ 29) (before after : List Decl)
    (Ss : List CSource) (hL : ∀ S ∈ Ss, S.Legal p) (hone : OneSource Ss)
    (hn : ∀ d ∈ before ++ after, Good d ∧ declName d ≠ str "list_head")
    (he : e = .little ∨ ∀ d ∈ before ++ after, d.isEnum64 = false)
    (hsize : 24 + 4 * (typeWords (sourceProgram p before Ss after)).length +
      (stringTable (sourceProgram p before Ss after)).length < 2 ^ 32)
    (hS : Serves cfg R (encode e (sourceProgram p before Ss after)))
    (ht : FitsTarget cfg (encode e (sourceProgram p before Ss after))) :
    ∃ ti, TypeInformation.new cfg R = .ok ti ∧
      (∀ i (h : i < (sourceParts Ss).length), LaidOut cfg ti p (UInt32.ofNat (before.length + i + 2)) (sourceParts Ss)[i]) ∧
      ∀ name : String, Ident name → str name ≠ str "void" → str name ∉ after.map declName →
        ∀ S ∈ sourceParts Ss, S.label = str name → ∃ t, ti.idOf (str name) = some t ∧ LaidOut cfg ti p t S := by
  have hl := legal_sourceParts hL
  obtain ⟨ti, h1, -, h2, -, h3⟩ := c_among (cfg := cfg) (R := R) (e := e) p hp before after (Ss.map (CSource.compile p)) (by
    intro T hT
    rw [List.mem_map] at hT
    obtain ⟨S, hS, rfl⟩ := hT
    exact ⟨compile_proper S (hL S hS), compile_recordable S (hL S hS)⟩) (compile_one hone) hn he hsize hS ht
  refine ⟨ti, h1, fun i hi => ?_, fun name hid hv hna S hSm hlab => ?_⟩
  · have h4 := h2 i (by rw [compile_sourceParts, List.length_map]; exact hi)
    simp only [compile_sourceParts, List.getElem_map] at h4
    exact answers_laidOut (hl _ (List.getElem_mem hi)) h4
  · obtain ⟨t, g1, g2, -⟩ := (h3 name hid hv).2.1 hna (S.compile p)
      (by rw [compile_sourceParts]; exact List.mem_map_of_mem hSm) (by rw [compile_label]; exact hlab)
    exact ⟨t, g1, answers_laidOut (hl S hSm) g2⟩

/-- C121: the rules: the start of a member is the first bit that is not before `place` and is a multiple of its alignment. -/
theorem member_start {place align size start : Nat} (h : 0 < align) : memberStart false place none align size = start ↔
    (place ≤ start ∧ 8 * align ∣ start ∧ ∀ m, place ≤ m → 8 * align ∣ m → start ≤ m) := by
  have ha : 0 < 8 * align := by omega
  constructor
  · rintro rfl
    exact ⟨le_roundUp place ha, dvd_roundUp _ _, fun m h1 h2 => roundUp_least h2 h1⟩
  · rintro ⟨h1, h2, h3⟩
    exact Nat.le_antisymm (roundUp_least h2 h1) (h3 _ (le_roundUp place ha) (dvd_roundUp _ _))

/-- C121: a bitfield is in one unit of its type, if the type is aligned to its size. -/
theorem bitfield_start {place size w : Nat} (h : 0 < w) (hw : w ≤ 8 * size) :
    let start := memberStart false place (some w) size size
    place ≤ start ∧ start / (8 * size) = (start + w - 1) / (8 * size) := by
  intro start
  have hs : 0 < 8 * size := by omega
  show place ≤ (if place / (8 * size) = (place + w - 1) / (8 * size) then place else roundUp place (8 * size)) ∧
    (if place / (8 * size) = (place + w - 1) / (8 * size) then place else roundUp place (8 * size)) / (8 * size) =
      ((if place / (8 * size) = (place + w - 1) / (8 * size) then place else roundUp place (8 * size)) + w - 1) / (8 * size)
  split
  · rename_i g
    exact ⟨Nat.le_refl _, g⟩
  · refine ⟨le_roundUp place hs, ?_⟩
    obtain ⟨k, hk⟩ := dvd_roundUp place (8 * size)
    rw [hk, Nat.mul_div_cancel_left k hs, Nat.add_sub_assoc h, Nat.mul_add_div hs, Nat.div_eq_of_lt (by omega), Nat.add_zero]

/-! ### Example -/

/-- `struct s { char a; int b; struct { short c; char d[3]; }; void *e; int f : 3; int g : 30; };` -/
def paddedType : CSource := .record false [115] (.cons [97] none (.scalar 1 1) (.cons [98] none (.scalar 4 4)
  (.cons [] none (.record false [] (.cons [99] none (.scalar 2 2) (.cons [100] none (.array 3 (.scalar 1 1)) .nil)))
  (.cons [101] none (.pointer 0) (.cons [102] (some 3) (.scalar 4 4) (.cons [103] (some 30) (.scalar 4 4) .nil))))))

theorem padded_size : paddedType.size 8 = 32 := by decide +kernel

theorem padded_legal : paddedType.Legal 8 := by
  have h := header_spelled.2.2.2.2.2.2.2.2.2
  have h1 : ∃ k, 1 = 2 ^ k := ⟨0, rfl⟩
  have h2 : ∃ k, 2 = 2 ^ k := ⟨1, rfl⟩
  have h4 : ∃ k, 4 = 2 ^ k := ⟨2, rfl⟩
  have h8 : ∃ k, 8 = 2 ^ k := ⟨3, rfl⟩
  simp [paddedType, CSource.Legal, CFields.Legal, CSource.names, CFields.names, CSource.size, CFields.finish, CSource.align,
    CFields.align, CFields.number, CFields.hasWidth, CSource.isScalar, roundUp, memberStart, memberBits, h, h1, h2, h4, h8]

theorem padded_one : OneSource [paddedType] := by
  have key : ∀ S ∈ sourceParts [paddedType], S.label = [] ∨ S = paddedType := by
    simp [sourceParts, paddedType, CSource.parts, CFields.parts, CSource.label]
  intro S hS S' hS' hl hne
  rcases key S hS with h | rfl
  · exact absurd h hne
  · rcases key S' hS' with h | rfl
    · exact absurd (hl.trans h) hne
    · rfl

theorem s_ident : Ident "s" := by
  refine ⟨?_, by decide +kernel⟩
  rw [show str "s" = [115] by decide +kernel]
  exact .mk _ _ (by simp [NameStart, Letter]) fun c hc => by simp at hc

/-- The struct has 32 bytes; `e` is at byte 16 and `d[2]` at byte 12; there is no `d[3]`; `g` would not fit behind `f`. -/
example : ∃ ti t u u' u'', TypeInformation.new Samples.dbg (Samples.buffer (encode .big (sourceProgram 8 [] [paddedType] []))) = .ok ti ∧
    ti.idOf [115] = some t ∧ (∀ r, SizeOf Samples.dbg ti t r ↔ r = .ok 32) ∧
    (∀ r, OffsetOf Samples.dbg ti t (str "e") r ↔ r = .ok (u, .byteOffset 16)) ∧
    (∀ r, OffsetOf Samples.dbg ti t (str "d[2]") r ↔ r = .ok (u', .byteOffset 12)) ∧
    (∀ r, OffsetOf Samples.dbg ti t (str "g") r ↔ r = .ok (u'', .bitOffsetAndSize 224 30)) ∧
    ∀ r, OffsetOf Samples.dbg ti t (str "d[3]") r ↔ r = .err .InvalidTypePath := by
  have hone : (str "s") = [115] ∧ str "e" = [101] ∧ str "d" = [100] ∧ str "g" = [103] := by decide +kernel
  obtain ⟨ti, h1, -, h2⟩ := c_layout (cfg := Samples.dbg) (e := .big) 8 (by decide) [] [] [paddedType]
    (by simpa using padded_legal) padded_one (by simp) (.inr (by simp)) (by decide +kernel)
    (Examples.serves _ (by decide +kernel)) (Examples.fits _)
  obtain ⟨t, g1, g2, g3, -⟩ := h2 "s" s_ident (by decide +kernel) (by simp) paddedType
    (by simp [sourceParts, paddedType, CSource.parts]) hone.1.symm
  have e1 : paddedType.offset 8 [.name (str "e")] = some ⟨.pointer 0, 128, none⟩ := by rw [hone.2.1]; rfl
  have e2 : paddedType.offset 8 [.name (str "d"), .index 2] = some ⟨.scalar 1 1, 96, none⟩ := by rw [hone.2.2.1]; rfl
  have e3 : paddedType.offset 8 [.name (str "d"), .index 3] = none := by rw [hone.2.2.1]; rfl
  have e4 : paddedType.offset 8 [.name (str "g")] = some ⟨.scalar 4 4, 224, some 30⟩ := by rw [hone.2.2.2]; rfl
  obtain ⟨u, o, k1, k2, k3, -⟩ := (g3 "e" _ ((yields_iff Samples.dbg (utf8Like_str _) _).1 (.tok (by rfl) (.stop rfl)))).1 _ e1
  obtain ⟨u', o', k1', k2', k3', -⟩ := (g3 "d[2]" [.name (str "d"), .index 2]
    ((yields_iff Samples.dbg (utf8Like_str _) _).1 (.tok (by rfl) (.tok (by rfl) (.stop rfl))))).1 _ e2
  obtain ⟨u'', o'', k1'', k2'', k3'', -⟩ := (g3 "g" _ ((yields_iff Samples.dbg (utf8Like_str _) _).1 (.tok (by rfl) (.stop rfl)))).1 _ e4
  have k5 := (g3 "d[3]" [.name (str "d"), .index 3]
    ((yields_iff Samples.dbg (utf8Like_str _) _).1 (.tok (by rfl) (.tok (by rfl) (.stop rfl))))).2 e3
  have ho : o = .byteOffset 16 := offset_eq k2 k3
  have ho' : o' = .byteOffset 12 := offset_eq k2' k3'
  have ho'' : o'' = .bitOffsetAndSize 224 30 := offset_eq k2'' k3''
  subst ho ho' ho''
  exact ⟨ti, t, u, u', u'', h1, hone.1 ▸ g1, padded_size ▸ g2, k1, k1', k1'', k5⟩

end Btf.Props

import Verif.Props.CPrefix

/-!
# Property C125: members are in the order of the source
-/

namespace Btf.Props

open Btf Spec CTypes TypeInformation

theorem core_legal {p : Nat} : ∀ S : CSource, S.Legal p → S.core.Legal p
  | .scalar _ _, h => h
  | .pointer _, h => h
  | .array _ _, h => h
  | .record _ _ _, h => h
  | .renamed _ t, h => by
    rw [CSource.Legal] at h
    exact core_legal t h.1

theorem append_legal {p : Nat} (more : CFields) : ∀ ms : CFields, (ms.append more).Legal p → ms.Legal p
  | .nil, _ => trivial
  | .cons _ _ t rest, h => by
    rw [CFields.append, CFields.Legal] at h
    rw [CFields.Legal]
    exact ⟨h.1, append_legal more rest h.2.1, h.2.2⟩

theorem append_legal_more {p : Nat} (more : CFields) : ∀ ms : CFields, (ms.append more).Legal p → more.Legal p
  | .nil, h => h
  | .cons _ _ t rest, h => by
    rw [CFields.append, CFields.Legal] at h
    exact append_legal_more more rest h.2.1

mutual
theorem offset_names (p : Nat) : ∀ (S : CSource) (x : Str) (cs : List PathComponent), x ∉ S.names → S.offset p (.name x :: cs) = none
  | .scalar _ _, _, _, _ => by simp [CSource.offset]
  | .pointer _, _, _, _ => by simp [CSource.offset]
  | .array _ _, _, _, _ => by simp [CSource.offset]
  | .record u _ ms, x, cs, h => by
    rw [CSource.names] at h
    rw [CSource.offset]
    exact offset_names_fields p u 0 ms x cs h
  | .renamed _ t, x, cs, h => by
    rw [CSource.names] at h
    rw [CSource.offset]
    exact offset_names p t x cs h

theorem offset_names_fields (p : Nat) (u : Bool) : ∀ (place : Nat) (ms : CFields) (x : Str) (cs : List PathComponent),
    x ∉ ms.names → ms.offset p u place x cs = none
  | _, .nil, _, _, _ => by simp [CFields.offset]
  | place, .cons name width t rest, x, cs, h => by
    rw [CFields.names, List.mem_append, not_or] at h
    rw [offset_cons]
    split
    · rename_i hn
      rw [if_pos hn] at h
      rw [offset_names p t x cs h.1]
      exact offset_names_fields p u _ rest x cs h.2
    · rename_i hn
      rw [if_neg hn, List.mem_singleton] at h
      rw [if_neg (fun e => h.1 e.symm)]
      exact offset_names_fields p u _ rest x cs h.2
end

/-- What is found behind the members `ms` is found in the others. -/
theorem append_later {p : Nat} (more : CFields) : ∀ (place : Nat) (ms : CFields) (x : Str) (cs : List PathComponent),
    x ∉ ms.names → (ms.append more).offset p false place x cs = more.offset p false (ms.finish p place) x cs
  | _, .nil, _, _, _ => rfl
  | place, .cons name width t rest, x, cs, h => by
    rw [CFields.names, List.mem_append, not_or] at h
    rw [CFields.append, offset_cons, CFields.finish]
    split
    · rename_i hn
      rw [if_pos hn] at h
      rw [offset_names p t x cs h.1]
      exact append_later more _ rest x cs h.2
    · rename_i hn
      rw [if_neg hn, List.mem_singleton] at h
      rw [if_neg (fun e => h.1 e.symm)]
      exact append_later more _ rest x cs h.2

/-- What is found under a name that is not one of the others is found in the members `ms`. -/
theorem append_earlier {p : Nat} (u : Bool) (more : CFields) : ∀ (place : Nat) (ms : CFields) (x : Str) (cs : List PathComponent),
    x ∉ more.names → (ms.append more).offset p u place x cs = ms.offset p u place x cs
  | place, .nil, x, cs, h => by
    rw [CFields.append, offset_names_fields p u place more x cs h]
    simp [CFields.offset]
  | place, .cons name width t rest, x, cs, h => by
    rw [CFields.append, offset_cons, offset_cons, append_earlier u more _ rest x cs h]

/-- Members begin behind the place where they are put. -/
theorem place_le {p : Nat} : ∀ (place : Nat) (ms : CFields) (x : Str) (cs : List PathComponent) (y : Placed), ms.Legal p →
    ms.offset p false place x cs = some y → place ≤ y.bits
  | _, .nil, _, _, _, _, hy => by simp [CFields.offset] at hy
  | place, .cons name width t rest, x, cs, y, h, hy => by
    rw [CFields.Legal] at h
    have hs : ∀ w, place ≤ memberStart false place w (t.align p) (t.size p) := fun w => le_memberStart (align_pos h.1)
    have hrest : rest.offset p false (memberStart false place width (t.align p) (t.size p) + memberBits width (t.size p)) x cs = some y →
        place ≤ y.bits := fun hy => by
      have := place_le _ rest x cs y h.2.1 hy
      have := hs width
      omega
    rw [offset_cons] at hy
    split at hy
    · split at hy
      · rw [Option.some.injEq] at hy
        subst hy
        exact Nat.le_trans (hs width) (Nat.le_add_right _ _)
      · exact hrest hy
    · split at hy
      · split at hy
        · obtain ⟨z, -, rfl⟩ := Option.map_eq_some_iff.1 hy
          exact Nat.le_trans (hs none) (Nat.le_add_right _ _)
        · split at hy
          · rw [Option.some.injEq] at hy
            subst hy
            exact hs (some _)
          · simp at hy
      · exact hrest hy

/-- C125: in a struct, whatever is found by a path that begins with one of the first members ends before whatever is found by a path that
begins with a later one. -/
theorem c_ordered {cfg : Cfg} {ti : TypeInformation} {p : Nat} {t : UInt32} {S : CSource} (hL : S.Legal p)
    {tag : Name} {ms more : CFields} (hS : S.core = .record false tag (ms.append more))
    (h : LaidOut cfg ti p t S) (s s' : String) (x x' : Str) (cs cs' : List PathComponent)
    (hs : AcceptedPath cfg.usizeMod (str s) (.name x :: cs)) (hs' : AcceptedPath cfg.usizeMod (str s') (.name x' :: cs'))
    (hx : x ∉ more.names) (hx' : x' ∉ ms.names) (v v' : UInt32) (o o' : Offset)
    (ho : OffsetOf cfg ti t (str s) (.ok (v, o))) (ho' : OffsetOf cfg ti t (str s') (.ok (v', o'))) :
    ∃ n, SizeOf cfg ti v (.ok n) ∧ bitPos o + ((bitWidth o).map UInt32.toNat).getD (8 * n) ≤ bitPos o' := by
  have hl := core_legal S hL
  rw [hS, CSource.Legal] at hl
  have hms := append_legal more ms hl.2.1
  have hmore := append_legal_more more ms hl.2.1
  obtain ⟨ds, y, hd, hy⟩ := ok_of_answer h ho
  cases accepted_unique (utf8Like_str s) hs hd
  obtain ⟨ds', y', hd', hy'⟩ := ok_of_answer h ho'
  cases accepted_unique (utf8Like_str s') hs' hd'
  obtain ⟨w, q, k1, k2, k3, k4, -⟩ := (h.2.1 s _ hs).1 y hy
  obtain ⟨w', q', k1', k2', -⟩ := (h.2.1 s' _ hs').1 y' hy'
  have e := (k1 _).1 ho
  have e' := (k1' _).1 ho'
  rw [Res.ok.injEq, Prod.mk.injEq] at e e'
  obtain ⟨rfl, rfl⟩ := e
  obtain ⟨rfl, rfl⟩ := e'
  rw [← core_offset, hS, CSource.offset] at hy hy'
  rw [append_later more 0 ms x' cs' hx'] at hy'
  rw [append_earlier false more 0 ms x cs hx] at hy
  have h1 := (fields_offset_facts false 0 ms x cs y hms hy).2.1
  have h2 := place_le _ more x' cs' y' hmore hy'
  refine ⟨_, (k4 _).2 rfl, ?_⟩
  rw [k2, k2', k3]
  exact Nat.le_trans h1 h2

theorem source_core_size (p : Nat) : ∀ S : CSource, S.core.size p = S.size p
  | .scalar _ _ => rfl
  | .pointer _ => rfl
  | .array _ _ => rfl
  | .record _ _ _ => rfl
  | .renamed _ t => by rw [CSource.core, CSource.size, source_core_size p t]

theorem append_finish {p : Nat} (more : CFields) : ∀ (place : Nat) (ms : CFields), more.Legal p →
    ms.finish p place ≤ (ms.append more).finish p place
  | place, .nil, h => le_finish place more h
  | place, .cons _ width t rest, h => by
    rw [CFields.append, CFields.finish, CFields.finish]
    exact append_finish more _ rest h

theorem append_widest {p : Nat} (more : CFields) : ∀ ms : CFields, ms.widest p ≤ (ms.append more).widest p
  | .nil => Nat.zero_le _
  | .cons _ width t rest => by
    rw [CFields.append, CFields.widest, CFields.widest]
    have := append_widest (p := p) more rest
    omega

theorem append_align {p : Nat} (more : CFields) : ∀ ms : CFields, more.Legal p → ms.align p ≤ (ms.append more).align p
  | .nil, h => fields_align_pos h
  | .cons _ width t rest, h => by
    rw [CFields.append, CFields.align, CFields.align]
    have := append_align more rest h
    omega

/-- C122: a struct or union to which members have been added is not smaller. -/
theorem c_grow_size {cfg cfg' : Cfg} {ti ti' : TypeInformation} {p : Nat} {t t' : UInt32} {S S' : CSource} (hL : S'.Legal p)
    {u : Bool} {tag tag' : Name} {ms more : CFields} (hS : S.core = .record u tag ms) (hS' : S'.core = .record u tag' (ms.append more))
    (h : LaidOut cfg ti p t S) (h' : LaidOut cfg' ti' p t' S') (n n' : Nat) (hn : SizeOf cfg ti t (.ok n))
    (hn' : SizeOf cfg' ti' t' (.ok n')) : n ≤ n' := by
  have hl := core_legal S' hL
  rw [hS', CSource.Legal] at hl
  have hms := append_legal more ms hl.2.1
  have hmore := append_legal_more more ms hl.2.1
  have e := (h.1 _).1 hn
  have e' := (h'.1 _).1 hn'
  rw [Res.ok.injEq] at e e'
  rw [e, e', ← source_core_size p S, ← source_core_size p S', hS, hS', CSource.size, CSource.size]
  refine Nat.div_le_div_right (roundUp_least ?_ ?_)
  · exact Nat.dvd_trans (Nat.mul_dvd_mul_left 8 (pow_dvd_of_le (fields_align_pow _ hms) (fields_align_pow _ hl.2.1) (append_align more ms hmore)))
      (dvd_roundUp _ _)
  · refine Nat.le_trans ?_ (le_roundUp _ (by have := fields_align_pos hl.2.1; omega))
    split
    · exact append_widest more ms
    · exact append_finish more 0 ms hmore

/-! ### Example -/

/-- The first members of `struct s` of C121, and the others. -/
def firstFields : CFields := .cons [97] none (.scalar 1 1) (.cons [98] none (.scalar 4 4)
  (.cons [] none (.record false [] (.cons [99] none (.scalar 2 2) (.cons [100] none (.array 3 (.scalar 1 1)) .nil))) .nil))

def laterFields : CFields := .cons [101] none (.pointer 0) (.cons [102] (some 3) (.scalar 4 4) (.cons [103] (some 30) (.scalar 4 4) .nil))

/-- Both texts lead somewhere, and `d[2]`, in the unnamed member, ends before `g`, a bitfield. -/
example : ∃ ti t v v' o o' n, TypeInformation.new Samples.dbg (Samples.buffer (encode .big (sourceProgram 8 [] [paddedType] []))) = .ok ti ∧
    ti.idOf (str "s") = some t ∧
    OffsetOf Samples.dbg ti t (str "d[2]") (.ok (v, o)) ∧ OffsetOf Samples.dbg ti t (str "g") (.ok (v', o')) ∧
    SizeOf Samples.dbg ti v (.ok n) ∧ bitPos o + ((bitWidth o).map UInt32.toNat).getD (8 * n) ≤ bitPos o' := by
  have hone : str "s" = [115] ∧ str "d" = [100] ∧ str "g" = [103] := by decide +kernel
  obtain ⟨ti, h1, -, h2⟩ := c_layout (cfg := Samples.dbg) (e := .big) 8 (by decide) [] [] [paddedType]
    (by simpa using padded_legal) padded_one (by simp) (.inr (by simp)) (by decide +kernel)
    (Examples.serves _ (by decide +kernel)) (Examples.fits _)
  obtain ⟨t, g1, g2⟩ := h2 "s" s_ident (by decide +kernel) (by simp) paddedType
    (by simp [sourceParts, paddedType, CSource.parts]) hone.1.symm
  have p1 : AcceptedPath Samples.dbg.usizeMod (str "d[2]") [.name (str "d"), .index 2] :=
    (yields_iff Samples.dbg (utf8Like_str _) _).1 (.tok (by rfl) (.tok (by rfl) (.stop rfl)))
  have p2 : AcceptedPath Samples.dbg.usizeMod (str "g") [.name (str "g")] :=
    (yields_iff Samples.dbg (utf8Like_str _) _).1 (.tok (by rfl) (.stop rfl))
  have e1 : paddedType.offset 8 [.name (str "d"), .index 2] = some ⟨.scalar 1 1, 96, none⟩ := by rw [hone.2.1]; rfl
  have e2 : paddedType.offset 8 [.name (str "g")] = some ⟨.scalar 4 4, 224, some 30⟩ := by rw [hone.2.2]; rfl
  obtain ⟨v, o, k1, -⟩ := (g2.2.1 _ _ p1).1 _ e1
  obtain ⟨v', o', k1', -⟩ := (g2.2.1 _ _ p2).1 _ e2
  obtain ⟨n, hn, hle⟩ := c_ordered (S := paddedType) (ms := firstFields) (more := laterFields) padded_legal rfl g2 "d[2]" "g" _ _ _ _ p1 p2
    (by rw [hone.2.1]; simp [laterFields, CFields.names]) (by rw [hone.2.2]; simp [firstFields, CFields.names, CSource.names])
    v v' o o' ((k1 _).2 rfl) ((k1' _).2 rfl)
  exact ⟨ti, t, v, v', o, o', n, h1, g1, (k1 _).2 rfl, (k1' _).2 rfl, hn, hle⟩

end Btf.Props

import Verif.Proofs.CTypes
import Verif.Props.Obstacle

/-!
# Property C109: from C types to answers
-/

namespace Btf.Props

open Btf Spec CTypes TypeInformation

/-- C109: if an id of a type graph stands for a C type, `size_of` answers what `sizeof` gives. -/
theorem c_size_of (cfg : Cfg) (ti : TypeInformation) (p : Nat) (hp : PointerSize ti p) (T : CType) (hT : T.Proper p) (t : UInt32)
    (hr : Represents ti t T) (r : Outcome Nat) : SizeOf cfg ti t r ↔ r = .ok (T.size p) :=
  size_of_exact cfg ti t _ (has_size hp T t hT hr) r

/-- C109: and `offset_of` answers what `offsetof` gives: the type, the position and the width of what the path leads to; if it
leads nowhere, the answer is `InvalidTypePath`. -/
theorem c_offset_of (cfg : Cfg) (ti : TypeInformation) (p : Nat) (hp : PointerSize ti p) (T : CType) (hT : T.Proper p) (t : UInt32)
    (hr : Represents ti t T) (s : String) (cs : List PathComponent) (hs : AcceptedPath cfg.usizeMod (str s) cs) :
    (∀ x, T.reach p cs = some x → ∃ u o, (∀ r, OffsetOf cfg ti t (str s) r ↔ r = .ok (u, o)) ∧
      Represents ti u x.type ∧ bitPos o = x.bits ∧ (bitWidth o).map UInt32.toNat = x.width) ∧
    (T.reach p cs = none → ∀ r, OffsetOf cfg ti t (str s) r ↔ r = .err .InvalidTypePath) := by
  have hsz := size_lt T hT
  obtain ⟨g1, g2⟩ := search_type (cfg := cfg) hp T t hT hr cs 0 (by simp only [UInt32.toNat_zero]; omega)
  refine ⟨fun x hx => ?_, fun hx r => ?_⟩
  · obtain ⟨⟨u, o⟩, ⟨h1, h2, h3⟩, hsearch⟩ := g1 x hx
    refine ⟨u, o, fun r => ⟨fun h => ?_, ?_⟩, h1, by simpa using h2, h3⟩
    · exact search_determined cfg ti true t _ cs _ _ ((offset_of_search cfg ti t s cs hs _).1 h) hsearch
    · rintro rfl
      exact (offset_of_search cfg ti t s cs hs _).2 hsearch
  · constructor
    · intro h
      exact search_determined cfg ti true t _ cs _ _ ((offset_of_search cfg ti t s cs hs _).1 h) (g2 hx)
    · rintro rfl
      exact (offset_of_search cfg ti t s cs hs _).2 (g2 hx)

/-- C109: and with a text that is not a path the answer is always `InvalidTypePath`. -/
theorem c_offset_of_text (cfg : Cfg) (ti : TypeInformation) (p : Nat) (hp : PointerSize ti p) (T : CType) (hT : T.Proper p)
    (t : UInt32) (hr : Represents ti t T) (s : String) (hs : ∀ cs, ¬ AcceptedPath cfg.usizeMod (str s) cs)
    (r : Outcome (UInt32 × Offset)) : OffsetOf cfg ti t (str s) r ↔ r = .err .InvalidTypePath := by
  have hsz := size_lt T hT
  obtain ⟨cs, x, hx⟩ := (flaw_unique cfg s).2 hs
  have hb := (flaw_breaks cfg s cs).1 ⟨x, (hx cs x).2 ⟨rfl, rfl⟩⟩
  have hsearch := search_broken (cfg := cfg) hp T t hT hr cs 0 (by simp only [UInt32.toNat_zero]; omega)
  constructor
  · intro h
    exact search_determined cfg ti false t _ cs _ _ ((offset_of_search_breaks cfg ti t s cs hb _).1 h) hsearch
  · rintro rfl
    exact (offset_of_search_breaks cfg ti t s cs hb _).2 hsearch

/-- `pointee_tid(t)` ends with `o`. -/
abbrev PointeeOf (ti : TypeInformation) (t : UInt32) (o : Outcome UInt32) : Prop :=
  Returns (fun k => TypeInformation.pointeeTid ti k t) o

theorem target_chain {ti : TypeInformation} : ∀ (T : CType) (t : UInt32), Represents ti t T →
    ∃ u v, Chain ti aliasOf t u ∧ ti.fromId u = some v ∧ aliasOf v = none ∧
      match T.target with
      | some w => ∃ h d, v = .ptr h d ∧ d.tid = w
      | none => ¬ IsPtr v
  | .scalar s, t, hr => by
    rw [Represents] at hr
    obtain ⟨v, h1, h2, -⟩ := hr
    refine ⟨t, v, .refl, h1, ?_, ?_⟩ <;> cases v <;> simp_all [ownSize, aliasOf, IsPtr, CType.target]
  | .pointer w, t, hr => by
    rw [Represents] at hr
    obtain ⟨h, d, h1, h2⟩ := hr
    exact ⟨t, _, .refl, h1, rfl, h, d, rfl, h2⟩
  | .array n T, t, hr => by
    rw [Represents] at hr
    obtain ⟨h, d, h1, -⟩ := hr
    exact ⟨t, _, .refl, h1, rfl, by simp [CType.target, IsPtr]⟩
  | .record u tag s ms, t, hr => by
    rw [Represents] at hr
    obtain ⟨h, d, h1, -⟩ := hr
    rcases h1 with h1 | h1 <;> exact ⟨t, _, .refl, h1, rfl, by simp [CType.target, IsPtr]⟩
  | .renamed how T, t, hr => by
    rw [Represents] at hr
    obtain ⟨v, w, h1, h2, h3⟩ := hr
    obtain ⟨u, v', k1, k2⟩ := target_chain T w h3
    exact ⟨u, v', .step h1 h2 k1, k2⟩

/-- C116: `pointee_tid` answers the target of a pointer, also if it has qualifiers or another name; for everything else it fails
with `InvalidTypeID`. -/
theorem c_pointee (ti : TypeInformation) (T : CType) (t : UInt32) (hr : Represents ti t T) (r : Outcome UInt32) :
    PointeeOf ti t r ↔ r = T.target.elim (.err .InvalidTypeID) .ok := by
  obtain ⟨u, v, h1, h2, h3, h4⟩ := target_chain T t hr
  have hret : PointeeOf ti t (T.target.elim (.err .InvalidTypeID) .ok) := by
    cases hT : T.target with
    | some w =>
      rw [hT] at h4
      obtain ⟨h, d, rfl, hd⟩ := h4
      exact (pointee_tid_ok_iff ti t w).2 ⟨u, h, d, h1, h2, hd⟩
    | none =>
      rw [hT] at h4
      refine (pointee_tid_err_iff ti t .InvalidTypeID).2 ⟨rfl, u, h1, fun v' hv => ?_⟩
      rw [h2] at hv
      cases hv
      exact ⟨h3, h4⟩
  exact ⟨fun h => (pointeeTid_mono ti t).returns_unique h hret, fun h => h ▸ hret⟩

/-! ### The file of a type -/

mutual
theorem declare_length : ∀ (T : CType) (k : Nat), (T.declare k).length = T.count
  | .scalar _, k => rfl
  | .pointer _, k => rfl
  | .array n T, k => by rw [CType.declare, List.length_append, declare_length T k, CType.count]; rfl
  | .record u tag s ms, k => by rw [CType.declare, List.length_append, declareMembers_length ms k, CType.count]; rfl
  | .renamed how T, k => by rw [CType.declare, List.length_append, declare_length T k, CType.count]; rfl

theorem declareMembers_length : ∀ (ms : CMembers) (k : Nat), (ms.declare k).length = ms.count
  | .nil, k => rfl
  | .cons _ _ _ T rest, k => by
    rw [CMembers.declare, List.length_append, declare_length T k, declareMembers_length rest, CMembers.count]
end

/-- The ids after `k` stand for the declarations. -/
def Declared (ti : TypeInformation) (k : Nat) (ds : List Decl) : Prop :=
  ∀ i (h : i < ds.length), ∃ v, ti.fromId (UInt32.ofNat (k + i + 1)) = some v ∧ Says ds[i] v

theorem declared_left {ti : TypeInformation} {k : Nat} {ds es : List Decl} (h : Declared ti k (ds ++ es)) : Declared ti k ds := by
  intro i hi
  obtain ⟨v, h1, h2⟩ := h i (by rw [List.length_append]; omega)
  rw [List.getElem_append_left hi] at h2
  exact ⟨v, h1, h2⟩

theorem declared_right {ti : TypeInformation} {k : Nat} {ds es : List Decl} (h : Declared ti k (ds ++ es)) :
    Declared ti (k + ds.length) es := by
  intro i hi
  obtain ⟨v, h1, h2⟩ := h (ds.length + i) (by rw [List.length_append]; omega)
  rw [List.getElem_append_right (by omega)] at h2
  simp only [Nat.add_sub_cancel_left] at h2
  exact ⟨v, by rw [Nat.add_assoc k]; exact h1, h2⟩

theorem declared_one {ti : TypeInformation} {k : Nat} {d : Decl} (h : Declared ti k [d]) :
    ∃ v, ti.fromId (UInt32.ofNat (k + 1)) = some v ∧ Says d v := h 0 (by simp)

mutual
theorem declared_represents {ti : TypeInformation} : ∀ (T : CType) (k : Nat), Declared ti k (T.declare k) →
    Represents ti (UInt32.ofNat (k + T.count)) T
  | .scalar s, k, h => by
    rw [CType.declare] at h
    obtain ⟨v, h1, h2⟩ := declared_one h
    rw [Represents]
    refine ⟨v, h1, ?_⟩
    cases v <;> first | exact h2.elim | skip
    simp only [Says] at h2
    subst h2
    exact ⟨rfl, by simp⟩
  | .pointer _, k, h => by
    rw [CType.declare] at h
    obtain ⟨v, h1, h2⟩ := declared_one h
    rw [Represents]
    cases v <;> first | exact h2.elim | skip
    simp only [Says] at h2
    subst h2
    exact ⟨_, _, h1, rfl⟩
  | .array n T, k, h => by
    rw [CType.declare] at h
    have ih := declared_represents T k (declared_left h)
    have hl := declared_right h
    rw [declare_length] at hl
    obtain ⟨v, h1, h2⟩ := declared_one hl
    rw [Represents, CType.count, ← Nat.add_assoc]
    cases v <;> first | exact h2.elim | skip
    simp only [Says] at h2
    subst h2
    exact ⟨_, _, h1, rfl, ih⟩
  | .record u tag s ms, k, h => by
    rw [CType.declare] at h
    have ih := declared_members ms k (declared_left h)
    have hl := declared_right h
    rw [declareMembers_length] at hl
    obtain ⟨v, h1, h2⟩ := declared_one hl
    rw [Represents, CType.count, ← Nat.add_assoc]
    cases u
    · rw [if_neg (by simp)] at h2
      cases v <;> first | exact h2.elim | skip
      exact ⟨_, _, .inl h1, h2.2.1, ih _ h2.2.2⟩
    · rw [if_pos rfl] at h2
      cases v <;> first | exact h2.elim | skip
      exact ⟨_, _, .inr h1, h2.2.1, ih _ h2.2.2⟩
  | .renamed how T, k, h => by
    rw [CType.declare] at h
    have ih := declared_represents T k (declared_left h)
    have hl := declared_right h
    rw [declare_length] at hl
    obtain ⟨v, h1, h2⟩ := declared_one hl
    rw [Represents, CType.count, ← Nat.add_assoc]
    refine ⟨v, _, h1, ?_, ih⟩
    cases how <;> cases v <;> first | exact h2.elim | skip
    all_goals
      simp only [Renaming.decl, Says] at h2
      subst h2
      rfl

theorem declared_members {ti : TypeInformation} : ∀ (ms : CMembers) (k : Nat), Declared ti k (ms.declare k) →
    ∀ l, List.Forall₂ SaysMember (ms.fields k) l → RepresentsMembers ti l ms
  | .nil, k, _, l, h => by
    rw [CMembers.fields, List.forall₂_nil_left_iff] at h
    subst h
    rw [RepresentsMembers]
    trivial
  | .cons name pos width T rest, k, hd, l, h => by
    rw [CMembers.declare] at hd
    rw [CMembers.fields] at h
    have ih := declared_represents T k (declared_left hd)
    have hl := declared_right hd
    rw [declare_length] at hl
    obtain ⟨m, l', hm, hl', rfl⟩ := List.forall₂_cons_left_iff.1 h
    obtain ⟨m1, m2, m3, m4⟩ := hm
    rw [RepresentsMembers]
    exact ⟨m1, m3, m4, by rw [m2]; exact ih, declared_members rest _ hl l' hl'⟩
end

theorem fields_length : ∀ (ms : CMembers) (k : Nat), (ms.fields k).length = (ms.fields 0).length
  | .nil, _ => rfl
  | .cons _ _ _ T rest, k => by
    rw [CMembers.fields, CMembers.fields, List.length_cons, List.length_cons, fields_length rest, fields_length rest (0 + _)]

/-- Names, positions and widths do not depend on the ids. -/
theorem fields_same : ∀ (ms : CMembers) (k : Nat),
    (ms.fields k).map (fun m => (m.name, m.position, m.width)) = (ms.fields 0).map (fun m => (m.name, m.position, m.width))
  | .nil, _ => rfl
  | .cons _ _ _ T rest, k => by
    rw [CMembers.fields, CMembers.fields, List.map_cons, List.map_cons, fields_same rest, fields_same rest (0 + _)]

theorem hasBitfield_same (ms : CMembers) (k : Nat) : hasBitfield (ms.fields k) = hasBitfield (ms.fields 0) := by
  have h := congrArg (fun l => l.any (fun x : Name × Nat × Option Nat => x.2.2.isSome)) (fields_same ms k)
  simpa [hasBitfield, List.any_map, Function.comp_def] using h

theorem fields_mem {ms : CMembers} {k : Nat} {m : MemberDecl} (h : m ∈ ms.fields k) :
    ∃ m' ∈ ms.fields 0, m'.name = m.name ∧ m'.position = m.position ∧ m'.width = m.width := by
  have := List.mem_map_of_mem (f := fun m : MemberDecl => (m.name, m.position, m.width)) h
  rw [fields_same] at this
  obtain ⟨m', h1, h2⟩ := List.mem_map.1 this
  simp only [Prod.mk.injEq] at h2
  exact ⟨m', h1, h2.1, h2.2.1, h2.2.2⟩

theorem fields_proper {p size : Nat} : ∀ (ms : CMembers) (k : Nat), ms.Proper p size → ∀ m ∈ ms.fields k,
    (0 : UInt8) ∉ m.name ∧
    match m.width with
    | none => 8 ∣ m.position ∧ m.position ≤ 8 * size
    | some w => 0 < w ∧ w < 256
  | .nil, _, _, m, hm => by simp [CMembers.fields] at hm
  | .cons name pos width T rest, k, h, m, hm => by
    rw [proper_cons] at h
    rw [CMembers.fields] at hm
    rcases List.mem_cons.1 hm with rfl | hm
    · refine ⟨fun h0 => absurd (h.2.2.1 0 h0).1 (by simp), ?_⟩
      have := h.2.2.2
      cases width with
      | none => exact ⟨this.1, by simp only at this ⊢; omega⟩
      | some w => exact ⟨this.2.2.1, this.2.2.2.1⟩
    · exact fields_proper rest _ h.2.1 m hm

mutual
theorem declare_good {p : Nat} : ∀ (T : CType) (k : Nat), T.Proper p → T.Recordable →
    ∀ d ∈ T.declare k, Good d ∧ d.isEnum64 = false ∧ declName d ≠ str "list_head"
  | .scalar s, k, _, _, d, hd => by
    simp only [CType.declare, List.mem_singleton] at hd
    subst hd
    exact ⟨by simp [Good], rfl, by simp [declName, str]⟩
  | .pointer _, k, _, _, d, hd => by
    simp only [CType.declare, List.mem_singleton] at hd
    subst hd
    exact ⟨trivial, rfl, by simp [declName, str]⟩
  | .array n T, k, hp, hr, d, hd => by
    rw [CType.Proper] at hp
    rw [CType.Recordable] at hr
    rw [CType.declare, List.mem_append, List.mem_singleton] at hd
    rcases hd with hd | rfl
    · exact declare_good T k hp.1 hr d hd
    · exact ⟨trivial, rfl, by simp [declName, str]⟩
  | .record u tag s ms, k, hp, hr, d, hd => by
    rw [CType.Proper] at hp
    rw [CType.Recordable] at hr
    rw [CType.declare, List.mem_append, List.mem_singleton] at hd
    rcases hd with hd | rfl
    · exact declareMembers_good ms k hp.2.1 hr.1 d hd
    · have hgood : (0 : UInt8) ∉ tag ∧ (ms.fields k).length < 2 ^ 16 ∧
          ∀ m ∈ ms.fields k, GoodMember (hasBitfield (ms.fields k)) m := by
        refine ⟨hr.2.1, by rw [fields_length]; exact hr.2.2.2.1, fun m hm => ?_⟩
        obtain ⟨h1, h2⟩ := fields_proper ms k hp.2.1 m hm
        obtain ⟨m', hm', -, e2, e3⟩ := fields_mem hm
        refine ⟨h1, ?_⟩
        cases hw : m.width with
        | none =>
          rw [hw] at h2
          refine ⟨h2.1, ?_⟩
          split
          · rename_i hb
            rw [hasBitfield_same] at hb
            rw [← e2]
            exact hr.2.2.2.2 hb m' hm'
          · have := hp.2.2
            have := h2.2
            omega
        | some w =>
          rw [hw] at h2
          refine ⟨?_, h2⟩
          rw [← e2]
          refine hr.2.2.2.2 ?_ m' hm'
          rw [hasBitfield, List.any_eq_true]
          exact ⟨m', hm', by rw [e3, hw]; rfl⟩
      cases u
      · exact ⟨hgood, rfl, hr.2.2.1⟩
      · exact ⟨hgood, rfl, hr.2.2.1⟩
  | .renamed how T, k, hp, hr, d, hd => by
    rw [CType.Proper] at hp
    rw [CType.Recordable] at hr
    rw [CType.declare, List.mem_append, List.mem_singleton] at hd
    rcases hd with hd | rfl
    · exact declare_good T k hp hr.1 d hd
    · cases how with
      | typedef name => exact ⟨(hr.2 name rfl).1, rfl, (hr.2 name rfl).2⟩
      | _ => exact ⟨trivial, rfl, by simp [declName, Renaming.decl, str]⟩

theorem declareMembers_good {p size : Nat} : ∀ (ms : CMembers) (k : Nat), ms.Proper p size → ms.Recordable →
    ∀ d ∈ ms.declare k, Good d ∧ d.isEnum64 = false ∧ declName d ≠ str "list_head"
  | .nil, k, _, _, d, hd => by simp [CMembers.declare] at hd
  | .cons name pos width T rest, k, hp, hr, d, hd => by
    rw [proper_cons] at hp
    rw [CMembers.Recordable] at hr
    rw [CMembers.declare, List.mem_append] at hd
    rcases hd with hd | hd
    · exact declare_good T k hp.1 hr.1 d hd
    · exact declareMembers_good rest _ hp.2.1 hr.2 d hd
end

theorem program_good (T : CType) (hT : T.Proper 8) (hR : T.Recordable) : ∀ d ∈ T.program, Good d ∧ d.isEnum64 = false := by
  intro d hd
  rw [CType.program] at hd
  rcases List.mem_cons.1 hd with rfl | hd
  · exact ⟨⟨by decide, by decide, by simp⟩, rfl⟩
  · exact ⟨(declare_good T 1 hT hR d hd).1, (declare_good T 1 hT hR d hd).2.1⟩

theorem list_head_name : Ident "list_head" := by
  have h : str "list_head" = [108, 105, 115, 116, 95, 104, 101, 97, 100] := by decide +kernel
  refine ⟨?_, by decide +kernel⟩
  rw [h]
  exact .mk _ _ (by simp [NameStart, Letter]) fun c hc => (nameByte_iff c).1
    ((by decide +kernel : ∀ c ∈ ([105, 115, 116, 95, 104, 101, 97, 100] : List UInt8), nameByte c = true) c hc)

/-- C109: the file for a C type, in either byte order, is accepted, and the last id of it stands for the type; pointers have
8 bytes. So `c_size_of` and `c_offset_of` apply. -/
theorem c_program {cfg : Cfg} {R : Readable} {e : Endianness} (T : CType) (hT : T.Proper 8) (hR : T.Recordable)
    (hsize : 24 + 4 * (typeWords T.program).length + (stringTable T.program).length < 2 ^ 32)
    (hS : Serves cfg R (encode e T.program)) (ht : FitsTarget cfg (encode e T.program)) :
    ∃ ti, TypeInformation.new cfg R = .ok ti ∧ PointerSize ti 8 ∧ Represents ti (UInt32.ofNat (1 + T.count)) T := by
  have hg := fun d hd => (program_good T hT hR d hd).1
  have he : e = .little ∨ ∀ d ∈ T.program, d.isEnum64 = false := .inr fun d hd => (program_good T hT hR d hd).2
  obtain ⟨ti, h1, -, h3⟩ := round_trip_lookup hg hsize he hS ht
  obtain ⟨ti', h1', h4, -⟩ := declared_id hg hsize he hS ht
  obtain rfl : ti = ti' := by rw [h1] at h1'; cases h1'; rfl
  refine ⟨ti, h1, ?_, declared_represents T 1 fun i hi => ?_⟩
  · obtain ⟨v, hv, hsays, -⟩ := h3 0 (by simp [CType.program])
    have hid := h4 0 (by simp [CType.program]) "list_head" ⟨?_, ?_⟩ (by decide) rfl ?_
    · cases v <;> first | exact hsays.elim | skip
      rename_i hd d
      exact ⟨_, hd, d, hid, hv, by rw [show d.size = (16 : UInt32).toNat from hsays.2.1]; rfl⟩
    · exact list_head_name.1
    · exact list_head_name.2
    · intro j hj hlt
      rcases j with _ | j
      · omega
      · exact (declare_good T 1 hT hR _ (List.getElem_mem (by simpa [CType.program] using hj))).2.2
  · obtain ⟨v, hv, hsays, -⟩ := h3 (i + 1) (by simpa [CType.program] using hi)
    exact ⟨v, by rw [Nat.add_comm 1 i]; exact hv, hsays⟩

mutual
/-- Whatever a path leads to is a proper type. -/
theorem reach_proper {p : Nat} : ∀ (T : CType) (cs : List PathComponent) (x : Found), T.Proper p → T.reach p cs = some x →
    x.type.Proper p
  | T, [], x, hT, h => by
    have : x = ⟨T, 0, none⟩ := by
      cases T <;> simp only [CType.reach, Option.some.injEq] at h <;> exact h.symm
    subst this
    exact hT
  | .scalar s, c :: cs, x, hT, h => by simp [CType.reach] at h
  | .pointer _, c :: cs, x, hT, h => by simp [CType.reach] at h
  | .array n T, .name y :: cs, x, hT, h => by simp [CType.reach] at h
  | .record u tag s ms, .index i :: cs, x, hT, h => by simp [CType.reach] at h
  | .array n T, .index i :: cs, x, hT, h => by
    rw [CType.Proper] at hT
    rw [CType.reach] at h
    split at h
    · obtain ⟨y, hy, rfl⟩ := Option.map_eq_some_iff.1 h
      exact reach_proper T cs y hT.1 hy
    · cases h
  | .record u tag s ms, .name y :: cs, x, hT, h => by
    rw [CType.Proper] at hT
    rw [CType.reach] at h
    exact reachMembers_proper ms y cs x hT.2.1 h
  | .renamed how T, c :: cs, x, hT, h => by
    rw [CType.Proper] at hT
    rw [CType.reach] at h
    exact reach_proper T (c :: cs) x hT h

theorem reachMembers_proper {p size : Nat} : ∀ (ms : CMembers) (y : Str) (cs : List PathComponent) (x : Found), ms.Proper p size →
    ms.reach p y cs = some x → x.type.Proper p
  | .nil, y, cs, x, hT, h => by simp [CMembers.reach] at h
  | .cons name pos width T rest, y, cs, x, hT, h => by
    rw [proper_cons] at hT
    rw [reach_cons] at h
    split at h
    · split at h
      · rename_i z hz
        cases h
        exact reach_proper T (.name y :: cs) z hT.1 hz
      · exact reachMembers_proper rest y cs x hT.2.1 h
    · split at h
      · cases width with
        | none =>
          obtain ⟨z, hz, rfl⟩ := Option.map_eq_some_iff.1 h
          exact reach_proper T cs z hT.1 hz
        | some w =>
          simp only at h
          split at h
          · cases h
            exact hT.1
          · cases h
      · exact reachMembers_proper rest y cs x hT.2.1 h
end

/-- C109: all of it together, for `typedef T name`. The file is accepted, the name is found, `size_of` gives what `sizeof(name)`
gives, and for every path `offset_of` gives what `offsetof(name, path)` gives, with an id whose `size_of` is again what C says;
or `InvalidTypePath` if C does not compile that or the text is not a path. -/
theorem c_answers {cfg : Cfg} {R : Readable} {e : Endianness} (name : String) (hn : Ident name) (hv : str name ≠ str "void")
    (T₀ T : CType) (hT₀ : T = .renamed (.typedef (str name)) T₀) (hT : T.Proper 8) (hR : T.Recordable)
    (hsize : 24 + 4 * (typeWords T.program).length + (stringTable T.program).length < 2 ^ 32)
    (hS : Serves cfg R (encode e T.program)) (ht : FitsTarget cfg (encode e T.program)) :
    ∃ ti t, TypeInformation.new cfg R = .ok ti ∧ ti.idOf (str name) = some t ∧
      (∀ r, SizeOf cfg ti t r ↔ r = .ok (T.size 8)) ∧
      (∀ (s : String) (cs : List PathComponent), AcceptedPath cfg.usizeMod (str s) cs →
        (∀ x, T.reach 8 cs = some x → ∃ u o, (∀ r, OffsetOf cfg ti t (str s) r ↔ r = .ok (u, o)) ∧
          bitPos o = x.bits ∧ (bitWidth o).map UInt32.toNat = x.width ∧ ∀ r, SizeOf cfg ti u r ↔ r = .ok (x.type.size 8)) ∧
        (T.reach 8 cs = none → ∀ r, OffsetOf cfg ti t (str s) r ↔ r = .err .InvalidTypePath)) ∧
      ∀ s : String, (∀ cs, ¬ AcceptedPath cfg.usizeMod (str s) cs) →
        ∀ r, OffsetOf cfg ti t (str s) r ↔ r = .err .InvalidTypePath := by
  obtain ⟨ti, h1, h2, h3⟩ := c_program T hT hR hsize hS ht
  have hg := fun d hd => (program_good T hT hR d hd).1
  have he : e = .little ∨ ∀ d ∈ T.program, d.isEnum64 = false := .inr fun d hd => (program_good T hT hR d hd).2
  obtain ⟨ti', h1', h4, -⟩ := declared_id hg hsize he hS ht
  obtain rfl : ti = ti' := by rw [h1] at h1'; cases h1'; rfl
  have hlen : T.program.length = T.count + 1 := by rw [CType.program, List.length_cons, declare_length]
  refine ⟨ti, UInt32.ofNat (1 + T.count), h1, ?_, c_size_of cfg ti 8 h2 T hT _ h3, fun s cs hs => ?_,
    c_offset_of_text cfg ti 8 h2 T hT _ h3⟩
  · rw [Nat.add_comm 1]
    refine h4 T.count (by omega) name hn hv ?_ (fun j hj hlt => by omega)
    subst hT₀
    have hlast : (CType.renamed (.typedef (str name)) T₀).program =
        (.struct (str "list_head") 16 [] :: T₀.declare 1) ++ [.typedef (str name) (UInt32.ofNat (1 + T₀.count))] := rfl
    have hc : (CType.renamed (.typedef (str name)) T₀).count = (Decl.struct (str "list_head") 16 [] :: T₀.declare 1).length := by
      rw [List.length_cons, declare_length, CType.count]
    simp only [hlast, hc, List.getElem_concat_length, declName]
  · obtain ⟨g1, g2⟩ := c_offset_of cfg ti 8 h2 T hT _ h3 s cs hs
    refine ⟨fun x hx => ?_, g2⟩
    obtain ⟨u, o, k1, k2, k3, k4⟩ := g1 x hx
    exact ⟨u, o, k1, k3, k4, c_size_of cfg ti 8 h2 x.type (reach_proper T cs x hT hx) u k2⟩

/-! ### A type -/

/-- `struct { char d[4][2]; void *e; }` -/
def innerType : CType :=
  .record false [] 16 (.cons [100] 0 none (.array 4 (.array 2 (.scalar 1))) (.cons [101] 64 none (.pointer 0) .nil))

/-- `typedef struct { int a:3; const int b:5; union { long c; struct { char d[4][2]; void *e; } f; }; } s;` -/
def someType : CType :=
  .renamed (.typedef (str "s")) (.record false [] 24
    (.cons [97] 0 (some 3) (.scalar 4) (.cons [98] 3 (some 5) (.renamed .const (.scalar 4))
      (.cons [] 64 none (.record true [] 16 (.cons [99] 0 none (.scalar 8) (.cons [102] 0 none innerType .nil))) .nil))))

theorem someType_proper : someType.Proper 8 := by
  simp [someType, innerType, CType.Proper, CMembers.Proper, CMembers.names, CType.names, CType.size, CType.isScalar, Nat.dvd_iff_mod_eq_zero]

theorem someType_recordable : someType.Recordable := by
  have h : str "s" = [115] := by decide +kernel
  have h' : str "list_head" = [108, 105, 115, 116, 95, 104, 101, 97, 100] := by decide +kernel
  simp [someType, innerType, CType.Recordable, CMembers.Recordable, CMembers.fields, hasBitfield, h, h']

/-- `offsetof(s, f.d[3][1])` is byte 15: through the union without a name, to the last of 8 characters. -/
example : (someType.reach 8 [.name [102], .name [100], .index 3, .index 1]).map (fun x => (x.bits, x.width, x.type.size 8)) =
    some (8 * 15, none, 1) := by
  simp [someType, innerType, CType.reach, CMembers.reach, Found.shift, CType.size]

/-- And the crate says so, for the big endian file of the type. -/
example : ∃ ti t u o, TypeInformation.new Samples.dbg (Samples.buffer (encode .big someType.program)) = .ok ti ∧
    ti.idOf (str "s") = some t ∧ (∀ r, SizeOf Samples.dbg ti t r ↔ r = .ok 24) ∧
    (∀ r, OffsetOf Samples.dbg ti t (str "f.d[3][1]") r ↔ r = .ok (u, o)) ∧ bitPos o = 8 * 15 ∧
    (∀ r, OffsetOf Samples.dbg ti t (str "f.d[4]") r ↔ r = .err .InvalidTypePath) ∧
    ∀ r, OffsetOf Samples.dbg ti t (str "arr[10]]") r ↔ r = .err .InvalidTypePath := by
  obtain ⟨ti, t, h1, h2, h3, h4, h5⟩ := c_answers (cfg := Samples.dbg) (e := .big) "s" (by
    have h : str "s" = [115] := by decide +kernel
    exact ⟨by rw [h]; exact .mk _ _ (by simp [NameStart, Letter]) (by simp), by decide +kernel⟩) (by decide +kernel) _ someType rfl
    someType_proper someType_recordable (by decide +kernel) (Examples.serves _ (by decide +kernel)) (Examples.fits _)
  obtain ⟨u, o, k1, k2, -⟩ := (h4 "f.d[3][1]" [.name [102], .name [100], .index 3, .index 1]
    ((yields_iff Samples.dbg (utf8Like_str _) _).1 (.tok rfl (.tok rfl (.tok rfl (.tok rfl (.stop rfl))))))).1 ⟨.scalar 1, 120, none⟩ (by
      simp [someType, innerType, CType.reach, CMembers.reach, Found.shift, CType.size])
  refine ⟨ti, t, u, o, h1, h2, h3, k1, k2, (h4 "f.d[4]" [.name [102], .name [100], .index 4]
    ((yields_iff Samples.dbg (utf8Like_str _) _).1 (.tok rfl (.tok rfl (.tok rfl (.stop rfl)))))).2 ?_,
    h5 _ fun cs hcs => (flaw_unique Samples.dbg _).1 ⟨cs, hcs⟩ _ _ sample_flaw⟩
  simp [someType, innerType, CType.reach, CMembers.reach]

end Btf.Props

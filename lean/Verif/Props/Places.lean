import Verif.Props.CTypes
import Verif.Props.Spelling
import Verif.Spec.Places

/-!
# Property C110: everything that can be looked up in a C type
-/

namespace Btf.Props

open Btf Spec CTypes TypeInformation

variable {p : Nat}

theorem reach_nil (T : CType) : T.reach p [] = some ⟨T, 0, none⟩ := by unfold CType.reach; rfl

theorem mem_shifted {l : List TableRow} {n : Nat} {cs : List PathComponent} {x : Found} :
    ⟨cs, x⟩ ∈ l.map (·.shift n) ↔ ∃ y, ⟨cs, y⟩ ∈ l ∧ x = y.shift n := by
  rw [List.mem_map]
  constructor
  · rintro ⟨⟨cs', y⟩, h, he⟩
    simp only [TableRow.shift, TableRow.mk.injEq] at he
    exact ⟨y, he.1 ▸ h, he.2.symm⟩
  · rintro ⟨y, h, rfl⟩
    exact ⟨_, h, rfl⟩

theorem mem_behind {l : List TableRow} {n : Nat} {c : PathComponent} {cs : List PathComponent} {x : Found} :
    ⟨cs, x⟩ ∈ l.map (fun y => (y.shift n).behind c) ↔ ∃ ds y, cs = c :: ds ∧ ⟨ds, y⟩ ∈ l ∧ x = y.shift n := by
  rw [List.mem_map]
  constructor
  · rintro ⟨⟨cs', y⟩, h, he⟩
    simp only [TableRow.shift, TableRow.behind, TableRow.mk.injEq] at he
    exact ⟨cs', y, he.1.symm, h, he.2.symm⟩
  · rintro ⟨ds, y, rfl, h, rfl⟩
    exact ⟨_, h, rfl⟩

theorem places_cons (name : Name) (pos : Nat) (width : Option Nat) (T : CType) (rest : CMembers) :
    (CMembers.cons name pos width T rest).places p =
      (if name = [] then (T.named p).map (·.shift pos)
       else match width with
        | none => (⟨[], ⟨T, 0, none⟩⟩ :: T.inner p).map fun x => (x.shift pos).behind (.name name)
        | some w => [⟨[.name name], ⟨T, pos, some w⟩⟩]) ++ rest.places p := by
  rw [CMembers.places.eq_def]; rfl

theorem places_of_inner {T : CType} (ih : ∀ (cs : List PathComponent) (x : Found),
    ⟨cs, x⟩ ∈ T.inner p ↔ cs ≠ [] ∧ T.reach p cs = some x) (ds : List PathComponent) (y : Found) :
    ⟨ds, y⟩ ∈ (⟨[], ⟨T, 0, none⟩⟩ :: T.inner p : List TableRow) ↔ T.reach p ds = some y := by
  rw [List.mem_cons, ih, TableRow.mk.injEq]
  constructor
  · rintro (⟨rfl, rfl⟩ | h)
    · exact reach_nil T
    · exact h.2
  · intro h
    by_cases hd : ds = []
    · subst hd
      rw [reach_nil] at h
      cases h
      exact .inl ⟨rfl, rfl⟩
    · exact .inr ⟨hd, h⟩

mutual
theorem named_iff : ∀ (T : CType), T.Proper p → ∀ (cs : List PathComponent) (x : Found),
    ⟨cs, x⟩ ∈ T.named p ↔ ∃ n ds, cs = .name n :: ds ∧ T.reach p cs = some x
  | .scalar s, _, cs, x => by
    rw [CType.named]
    · simp only [List.not_mem_nil, false_iff, not_exists]
      rintro n ds ⟨rfl, h⟩
      simp [CType.reach] at h
    all_goals simp
  | .pointer _, _, cs, x => by
    rw [CType.named]
    · simp only [List.not_mem_nil, false_iff, not_exists]
      rintro n ds ⟨rfl, h⟩
      simp [CType.reach] at h
    all_goals simp
  | .array n T, hT, cs, x => by
    rw [CType.named]
    · simp only [List.not_mem_nil, false_iff, not_exists]
      rintro n ds ⟨rfl, h⟩
      simp [CType.reach] at h
    all_goals simp
  | .record u tag s ms, hT, cs, x => by
    rw [CType.Proper] at hT
    rw [CType.named, placesMembers_iff ms _ hT.2.1 hT.1]
    refine exists_congr fun n => exists_congr fun ds => and_congr_right ?_
    rintro rfl
    rw [CType.reach]
  | .renamed how T, hT, cs, x => by
    rw [CType.Proper] at hT
    rw [CType.named, named_iff T hT]
    refine exists_congr fun n => exists_congr fun ds => and_congr_right ?_
    rintro rfl
    rw [CType.reach]

theorem inner_iff : ∀ (T : CType), T.Proper p → ∀ (cs : List PathComponent) (x : Found),
    ⟨cs, x⟩ ∈ T.inner p ↔ cs ≠ [] ∧ T.reach p cs = some x
  | .scalar s, _, cs, x => by
    rw [CType.inner]
    cases cs with
    | nil => simp
    | cons c cs => simp [CType.reach]
  | .pointer _, _, cs, x => by
    rw [CType.inner]
    cases cs with
    | nil => simp
    | cons c cs => simp [CType.reach]
  | .array n T, hT, cs, x => by
    rw [CType.Proper] at hT
    have ih := places_of_inner (inner_iff T hT.1)
    rw [CType.inner, List.mem_flatMap]
    constructor
    · rintro ⟨i, hi, h⟩
      obtain ⟨ds, y, rfl, h', rfl⟩ := mem_behind.1 h
      refine ⟨by simp, ?_⟩
      rw [CType.reach, if_pos (List.mem_range.1 hi), (ih ds y).1 h']
      rfl
    · rintro ⟨h0, h⟩
      cases cs with
      | nil => exact absurd rfl h0
      | cons c cs =>
      cases c with
      | name m => simp [CType.reach] at h
      | index i =>
        rw [CType.reach] at h
        split at h
        · rename_i hi
          obtain ⟨y, hy, rfl⟩ := Option.map_eq_some_iff.1 h
          exact ⟨i, List.mem_range.2 hi, mem_behind.2 ⟨cs, y, rfl, (ih cs y).2 hy, rfl⟩⟩
        · cases h
  | .record u tag s ms, hT, cs, x => by
    rw [CType.Proper] at hT
    rw [CType.inner, placesMembers_iff ms _ hT.2.1 hT.1]
    constructor
    · rintro ⟨n, ds, rfl, h⟩
      exact ⟨by simp, by rw [CType.reach]; exact h⟩
    · rintro ⟨h0, h⟩
      cases cs with
      | nil => exact absurd rfl h0
      | cons c cs =>
      cases c with
      | index i => simp [CType.reach] at h
      | name m => exact ⟨m, cs, rfl, by rwa [CType.reach] at h⟩
  | .renamed how T, hT, cs, x => by
    rw [CType.Proper] at hT
    rw [CType.inner, inner_iff T hT]
    cases cs with
    | nil => simp
    | cons c cs => rw [CType.reach]

theorem placesMembers_iff : ∀ (ms : CMembers) (size : Nat), ms.Proper p size → ms.names.Nodup →
    ∀ (cs : List PathComponent) (x : Found), ⟨cs, x⟩ ∈ ms.places p ↔ ∃ n ds, cs = .name n :: ds ∧ ms.reach p n ds = some x
  | .nil, size, _, _, cs, x => by simp [CMembers.places, CMembers.reach]
  | .cons name pos width T rest, size, hP, hN, cs, x => by
    rw [proper_cons] at hP
    rw [CMembers.names] at hN
    obtain ⟨hT, hrest, hascii, hw⟩ := hP
    have hNr := (List.nodup_append.1 hN).2.1
    have hdis := (List.nodup_append.1 hN).2.2
    have ih := placesMembers_iff rest size hrest hNr
    have inRest : ∀ {n ds y}, rest.reach p n ds = some y → n ∈ rest.names := by
      intro n ds y h
      by_contra hn
      rw [reachMembers_none rest n ds hn] at h
      cases h
    rw [places_cons, List.mem_append, ih]
    by_cases hn : name = []
    · rw [if_pos hn] at hN hdis ⊢
      rw [mem_shifted]
      constructor
      · rintro (⟨y, h, rfl⟩ | ⟨n, ds, rfl, h⟩)
        · obtain ⟨m, ds, rfl, h⟩ := (named_iff T hT _ _).1 h
          exact ⟨m, ds, rfl, by rw [reach_cons, if_pos hn, h]⟩
        · refine ⟨n, ds, rfl, ?_⟩
          rw [reach_cons, if_pos hn, reach_none T n ds (fun h' => hdis n h' n (inRest h) rfl)]
          exact h
      · rintro ⟨n, ds, rfl, h⟩
        rw [reach_cons, if_pos hn] at h
        split at h
        · rename_i y hy
          cases h
          exact .inl ⟨y, (named_iff T hT _ _).2 ⟨n, ds, rfl, hy⟩, rfl⟩
        · exact .inr ⟨n, ds, rfl, h⟩
    · rw [if_neg hn] at hN hdis ⊢
      have hother : ∀ {n ds y}, rest.reach p n ds = some y → name ≠ n := fun h he =>
        hdis name (by simp) name (he ▸ inRest h) rfl
      cases width with
      | none =>
        have ihT := places_of_inner (inner_iff T hT)
        simp only [mem_behind]
        constructor
        · rintro (⟨ds, y, rfl, h, rfl⟩ | ⟨n, ds, rfl, h⟩)
          · exact ⟨name, ds, rfl, by rw [reach_cons, if_neg hn, if_pos rfl, (ihT ds y).1 h]; rfl⟩
          · exact ⟨n, ds, rfl, by rw [reach_cons, if_neg hn, if_neg (hother h)]; exact h⟩
        · rintro ⟨n, ds, rfl, h⟩
          rw [reach_cons, if_neg hn] at h
          split at h
          · rename_i he
            obtain ⟨y, hy, rfl⟩ := Option.map_eq_some_iff.1 h
            exact .inl ⟨ds, y, by rw [he], (ihT ds y).2 hy, rfl⟩
          · exact .inr ⟨n, ds, rfl, h⟩
      | some w =>
        simp only [List.mem_singleton, TableRow.mk.injEq]
        constructor
        · rintro (⟨rfl, rfl⟩ | ⟨n, ds, rfl, h⟩)
          · exact ⟨name, [], rfl, by rw [reach_cons, if_neg hn, if_pos rfl]; rfl⟩
          · exact ⟨n, ds, rfl, by rw [reach_cons, if_neg hn, if_neg (hother h)]; exact h⟩
        · rintro ⟨n, ds, rfl, h⟩
          rw [reach_cons, if_neg hn] at h
          split at h
          · rename_i he
            simp only at h
            split at h
            · rename_i hd
              cases h
              exact .inl ⟨by rw [he, hd], rfl⟩
            · cases h
          · exact .inr ⟨n, ds, rfl, h⟩
end

/-- C110: the list of places contains exactly the paths that lead somewhere, with what `offsetof` gives for them. -/
theorem places_iff (T : CType) (hT : T.Proper p) (cs : List PathComponent) (x : Found) :
    ⟨cs, x⟩ ∈ T.places p ↔ T.reach p cs = some x := places_of_inner (inner_iff T hT) cs x

mutual
/-- C110: what is found lies inside. -/
theorem reach_within : ∀ (T : CType) (cs : List PathComponent) (x : Found), T.Proper p → T.reach p cs = some x →
    x.bits + x.extent p ≤ 8 * T.size p
  | T, [], x, hT, h => by
    rw [reach_nil] at h
    cases h
    simp [Found.extent]
  | .scalar s, c :: cs, x, hT, h => by simp [CType.reach] at h
  | .pointer _, c :: cs, x, hT, h => by simp [CType.reach] at h
  | .array n T, .name y :: cs, x, hT, h => by simp [CType.reach] at h
  | .record u tag s ms, .index i :: cs, x, hT, h => by simp [CType.reach] at h
  | .array n T, .index i :: cs, x, hT, h => by
    rw [CType.Proper] at hT
    rw [CType.reach] at h
    split at h
    · rename_i hi
      obtain ⟨y, hy, rfl⟩ := Option.map_eq_some_iff.1 h
      have := reach_within T cs y hT.1 hy
      have hmul : i * T.size p + T.size p ≤ T.size p * n.toNat := by
        rw [Nat.mul_comm i, ← Nat.mul_succ]
        exact Nat.mul_le_mul_left _ hi
      rw [CType.size]
      simp only [Found.shift, Found.extent] at this ⊢
      omega
    · cases h
  | .record u tag s ms, .name y :: cs, x, hT, h => by
    rw [CType.Proper] at hT
    rw [CType.reach] at h
    exact reachMembers_within ms y cs x hT.2.1 h
  | .renamed how T, c :: cs, x, hT, h => by
    rw [CType.Proper] at hT
    rw [CType.reach] at h
    exact reach_within T (c :: cs) x hT h

theorem reachMembers_within {size : Nat} : ∀ (ms : CMembers) (y : Str) (cs : List PathComponent) (x : Found), ms.Proper p size →
    ms.reach p y cs = some x → x.bits + x.extent p ≤ 8 * size
  | .nil, y, cs, x, hT, h => by simp [CMembers.reach] at h
  | .cons name pos width T rest, y, cs, x, hT, h => by
    rw [proper_cons] at hT
    obtain ⟨hT, hrest, -, hw⟩ := hT
    rw [reach_cons] at h
    split at h
    · rename_i hn
      split at h
      · rename_i z hz
        cases h
        have := reach_within T (.name y :: cs) z hT hz
        cases width with
        | none =>
          simp only [Found.shift, Found.extent] at this hw ⊢
          omega
        | some w => exact absurd hn hw.1
      · exact reachMembers_within rest y cs x hrest h
    · split at h
      · cases width with
        | none =>
          obtain ⟨z, hz, rfl⟩ := Option.map_eq_some_iff.1 h
          have := reach_within T cs z hT hz
          simp only [Found.shift, Found.extent] at this hw ⊢
          omega
        | some w =>
          simp only at h
          split at h
          · cases h
            simp only [Found.extent, Option.getD_some]
            exact hw.2.2.2.2
          · cases h
      · exact reachMembers_within rest y cs x hrest h
end

/-! ### No path twice -/

theorem path_shift (l : List TableRow) (n : Nat) : (l.map (·.shift n)).map TableRow.path = l.map TableRow.path := by
  simp [Function.comp_def, TableRow.shift]

theorem path_behind (l : List TableRow) (n : Nat) (c : PathComponent) :
    (l.map fun x => (x.shift n).behind c).map TableRow.path = (l.map TableRow.path).map (c :: ·) := by
  simp [Function.comp_def, TableRow.shift, TableRow.behind]

theorem nodup_behind {l : List TableRow} (h : (l.map TableRow.path).Nodup) (n : Nat) (c : PathComponent) :
    ((l.map fun x => (x.shift n).behind c).map TableRow.path).Nodup := by
  rw [path_behind]
  exact h.map (fun _ _ h => by cases h; rfl)

theorem nodup_places {T : CType} (hT : T.Proper p) (h : ((T.inner p).map TableRow.path).Nodup) :
    (((⟨[], ⟨T, 0, none⟩⟩ :: T.inner p : List TableRow)).map TableRow.path).Nodup := by
  rw [List.map_cons, List.nodup_cons]
  refine ⟨fun hm => ?_, h⟩
  obtain ⟨⟨cs, x⟩, hx, he⟩ := List.mem_map.1 hm
  exact ((inner_iff T hT cs x).1 hx).1 he

mutual
theorem named_nodup : ∀ (T : CType), T.Proper p → ((T.named p).map TableRow.path).Nodup
  | .scalar s, _ => by simp [CType.named]
  | .pointer _, _ => by simp [CType.named]
  | .array n T, _ => by simp [CType.named]
  | .record u tag s ms, hT => by
    rw [CType.Proper] at hT
    rw [CType.named]
    exact placesMembers_nodup ms _ hT.2.1 hT.1
  | .renamed how T, hT => by
    rw [CType.Proper] at hT
    rw [CType.named]
    exact named_nodup T hT

theorem inner_nodup : ∀ (T : CType), T.Proper p → ((T.inner p).map TableRow.path).Nodup
  | .scalar s, _ => by simp [CType.inner]
  | .pointer _, _ => by simp [CType.inner]
  | .array n T, hT => by
    rw [CType.Proper] at hT
    have ih := nodup_places hT.1 (inner_nodup T hT.1)
    rw [CType.inner, List.map_flatMap, List.nodup_flatMap]
    refine ⟨fun i _ => nodup_behind ih _ _, List.nodup_range.imp fun {i j} hij => ?_⟩
    simp only [Function.onFun]
    rw [path_behind, path_behind]
    intro cs h1 h2
    obtain ⟨ds, -, rfl⟩ := List.mem_map.1 h1
    obtain ⟨es, -, he⟩ := List.mem_map.1 h2
    cases he
    exact hij rfl
  | .record u tag s ms, hT => by
    rw [CType.Proper] at hT
    rw [CType.inner]
    exact placesMembers_nodup ms _ hT.2.1 hT.1
  | .renamed how T, hT => by
    rw [CType.Proper] at hT
    rw [CType.inner]
    exact inner_nodup T hT

theorem placesMembers_nodup : ∀ (ms : CMembers) (size : Nat), ms.Proper p size → ms.names.Nodup →
    ((ms.places p).map TableRow.path).Nodup
  | .nil, size, _, _ => by simp [CMembers.places]
  | .cons name pos width T rest, size, hP, hN => by
    have hiff := placesMembers_iff (.cons name pos width T rest) size hP hN
    rw [proper_cons] at hP
    rw [CMembers.names] at hN
    obtain ⟨hT, hrest, hascii, hw⟩ := hP
    have hNr := (List.nodup_append.1 hN).2.1
    have hdis := (List.nodup_append.1 hN).2.2
    have inRest : ∀ cs ∈ (rest.places p).map TableRow.path, ∃ n ds, cs = .name n :: ds ∧ n ∈ rest.names := by
      intro cs h
      obtain ⟨⟨cs', x⟩, hx, rfl⟩ := List.mem_map.1 h
      obtain ⟨n, ds, he, hr⟩ := (placesMembers_iff rest size hrest hNr _ _).1 hx
      refine ⟨n, ds, he, ?_⟩
      by_contra hn
      rw [reachMembers_none rest n ds hn] at hr
      cases hr
    rw [places_cons, List.map_append, List.nodup_append]
    refine ⟨?_, placesMembers_nodup rest size hrest hNr, ?_⟩
    · split
      · rw [path_shift]
        exact named_nodup T hT
      · cases width with
        | none => exact nodup_behind (nodup_places hT (inner_nodup T hT)) _ _
        | some w => simp
    · intro a ha b hb hab
      subst hab
      obtain ⟨n, ds, rfl, hn⟩ := inRest a hb
      split at ha
      · rename_i hname
        rw [if_pos hname] at hdis
        rw [path_shift] at ha
        obtain ⟨⟨cs', x⟩, hx, he⟩ := List.mem_map.1 ha
        simp only at he
        subst he
        obtain ⟨m, es, he, hr⟩ := (named_iff T hT _ _).1 hx
        cases he
        by_cases hmem : n ∈ T.names
        · exact hdis n hmem n hn rfl
        · rw [reach_none T n ds hmem] at hr
          cases hr
      · rename_i hname
        rw [if_neg hname] at hdis
        have : n = name := by
          cases width with
          | none =>
            simp only [path_behind] at ha
            obtain ⟨es, -, he⟩ := List.mem_map.1 ha
            cases he
            rfl
          | some w =>
            simp only [List.map_cons, List.map_nil, List.mem_singleton, List.cons.injEq, PathComponent.name.injEq] at ha
            exact ha.1
        subst this
        exact hdis n (by simp) n hn rfl
end

/-- C110: no path is twice in the list. -/
theorem places_nodup (T : CType) (hT : T.Proper p) : ((T.places p).map TableRow.path).Nodup :=
  nodup_places hT (inner_nodup T hT)

/-! ### Texts for all of them -/

mutual
theorem reach_texts : ∀ (T : CType) (cs : List PathComponent) (x : Found), T.Proper p → T.reach p cs = some x →
    (∀ n, .name n ∈ cs → ∀ b ∈ n, b.toNat < 128) ∧ ∀ i, .index i ∈ cs → i < 2 ^ 32
  | T, [], x, hT, h => by simp
  | .scalar s, c :: cs, x, hT, h => by simp [CType.reach] at h
  | .pointer _, c :: cs, x, hT, h => by simp [CType.reach] at h
  | .array n T, .name y :: cs, x, hT, h => by simp [CType.reach] at h
  | .record u tag s ms, .index i :: cs, x, hT, h => by simp [CType.reach] at h
  | .array n T, .index i :: cs, x, hT, h => by
    rw [CType.Proper] at hT
    rw [CType.reach] at h
    split at h
    · rename_i hi
      obtain ⟨y, hy, rfl⟩ := Option.map_eq_some_iff.1 h
      have ih := reach_texts T cs y hT.1 hy
      refine ⟨fun n hn => ih.1 n (by simpa using hn), fun j hj => ?_⟩
      rcases List.mem_cons.1 hj with hj | hj
      · cases hj
        exact Nat.lt_trans hi n.toNat_lt
      · exact ih.2 j hj
    · cases h
  | .record u tag s ms, .name y :: cs, x, hT, h => by
    rw [CType.Proper] at hT
    rw [CType.reach] at h
    exact reachMembers_texts ms y cs x hT.2.1 h
  | .renamed how T, c :: cs, x, hT, h => by
    rw [CType.Proper] at hT
    rw [CType.reach] at h
    exact reach_texts T (c :: cs) x hT h

theorem reachMembers_texts {size : Nat} : ∀ (ms : CMembers) (y : Str) (cs : List PathComponent) (x : Found), ms.Proper p size →
    ms.reach p y cs = some x →
    (∀ n, .name n ∈ .name y :: cs → ∀ b ∈ n, b.toNat < 128) ∧ ∀ i, .index i ∈ .name y :: cs → i < 2 ^ 32
  | .nil, y, cs, x, hT, h => by simp [CMembers.reach] at h
  | .cons name pos width T rest, y, cs, x, hT, h => by
    rw [proper_cons] at hT
    obtain ⟨hT, hrest, hascii, hw⟩ := hT
    rw [reach_cons] at h
    split at h
    · split at h
      · rename_i z hz
        exact reach_texts T (.name y :: cs) z hT hz
      · exact reachMembers_texts rest y cs x hrest h
    · split at h
      · rename_i he
        subst he
        cases width with
        | none =>
          obtain ⟨z, hz, rfl⟩ := Option.map_eq_some_iff.1 h
          have ih := reach_texts T cs z hT hz
          refine ⟨fun n hn => ?_, fun j hj => ih.2 j (by simpa using hj)⟩
          rcases List.mem_cons.1 hn with hn | hn
          · cases hn
            exact fun b hb => (hascii b hb).2
          · exact ih.1 n hn
        | some w =>
          simp only at h
          split at h
          · rename_i hc
            subst hc
            refine ⟨fun n hn => ?_, by simp⟩
            simp only [List.mem_singleton, PathComponent.name.injEq] at hn
            subst hn
            exact fun b hb => (hascii b hb).2
          · cases h
      · exact reachMembers_texts rest y cs x hrest h
end

theorem numeral_ascii (i : Nat) : ∀ b ∈ numeral i, b.toNat < 128 := by
  intro b hb
  have := (numeral_digits i).2.1 b hb
  unfold Digit at this
  omega

theorem spellRest_ascii : ∀ (cs : List PathComponent), (∀ n, .name n ∈ cs → ∀ b ∈ n, b.toNat < 128) →
    ∀ b ∈ spellRest cs, b.toNat < 128
  | [], _, b, hb => by simp [spellRest] at hb
  | .name n :: cs, h, b, hb => by
    simp only [spellRest, List.mem_append, List.mem_singleton] at hb
    rcases hb with (rfl | hb) | hb
    · decide
    · exact h n (by simp) b hb
    · exact spellRest_ascii cs (fun m hm => h m (by simp [hm])) b hb
  | .index i :: cs, h, b, hb => by
    simp only [spellRest, List.mem_append, List.mem_singleton] at hb
    rcases hb with ((rfl | hb) | rfl) | hb
    · decide
    · exact numeral_ascii i b hb
    · decide
    · exact spellRest_ascii cs (fun m hm => h m (by simp [hm])) b hb

theorem spell_ascii (cs : List PathComponent) (h : ∀ n, .name n ∈ cs → ∀ b ∈ n, b.toNat < 128) :
    ∀ b ∈ spell cs, b.toNat < 128 := by
  intro b hb
  cases cs with
  | nil => simp [spell, spellRest] at hb
  | cons c cs =>
    cases c with
    | index i => exact spellRest_ascii _ h b hb
    | name n =>
      rw [spell, List.mem_append] at hb
      rcases hb with hb | hb
      · exact h n (by simp) b hb
      · exact spellRest_ascii cs (fun m hm => h m (by simp [hm])) b hb

/-- C110: the list is everything that `offset_of` can find. Whenever it succeeds, the components of the text are a path of the
list, and the answer is what the list says; and for every path of the list whose names can be written, the plain spelling of
it is a text that succeeds. -/
theorem c_places (cfg : Cfg) (ti : TypeInformation) (hp : PointerSize ti p) (T : CType) (hT : T.Proper p) (t : UInt32)
    (hr : Represents ti t T) :
    (∀ (s : String) u o, OffsetOf cfg ti t (str s) (.ok (u, o)) → ∃ row ∈ T.places p, AcceptedPath cfg.usizeMod (str s) row.path ∧
      Represents ti u row.found.type ∧ bitPos o = row.found.bits ∧ (bitWidth o).map UInt32.toNat = row.found.width) ∧
    (∀ row ∈ T.places p, (∀ n, .name n ∈ row.path → IsName n) → ∃ (s : String) (u : UInt32) (o : Offset),
      str s = spell row.path ∧ (∀ r, OffsetOf cfg ti t (str s) r ↔ r = .ok (u, o)) ∧
      Represents ti u row.found.type ∧ bitPos o = row.found.bits ∧ (bitWidth o).map UInt32.toNat = row.found.width) := by
  refine ⟨fun s u o h => ?_, fun ⟨cs, x⟩ hrow hnames => ?_⟩
  · obtain ⟨cs, hcs⟩ := offset_of_consumes cfg ti t s _ h
    obtain ⟨g1, g2⟩ := c_offset_of cfg ti p hp T hT t hr s cs hcs
    cases hx : T.reach p cs with
    | none => exact absurd ((g2 hx _).1 h) (by simp)
    | some x =>
      obtain ⟨u', o', k1, k2⟩ := g1 x hx
      have := (k1 _).1 h
      cases this
      exact ⟨⟨cs, x⟩, (places_iff T hT cs x).2 hx, hcs, k2⟩
  · have hx := (places_iff T hT cs x).1 hrow
    obtain ⟨t1, t2⟩ := reach_texts T cs x hT hx
    obtain ⟨s, hs⟩ := text_all (spell_ascii cs t1)
    have hpath := spell_path (limit := cfg.usizeMod) hnames fun i hi => Nat.lt_of_lt_of_le (t2 i hi) (usizeMod_ge cfg)
    obtain ⟨u, o, k1, k2⟩ := (c_offset_of cfg ti p hp T hT t hr s cs (hs ▸ .strict hpath)).1 x hx
    exact ⟨s, u, o, hs, k1, k2⟩

/-- The table of the type of C109: 19 rows. The last element of `d` is at bit 120. -/
example : (someType.places 8).length = 19 ∧
    ((someType.places 8).map (fun r => (spell r.path, r.found.bits))).contains (str "f.d[3][1]", 120) = true := by
  constructor <;> decide +kernel

example : (someType.places 8).all fun r => r.path.all fun c => match c with
    | .name n => n.all nameByte
    | .index _ => true := by decide +kernel

end Btf.Props

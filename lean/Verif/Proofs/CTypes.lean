import Verif.Spec.CTypes
import Verif.Props.Spelling

/-!
# Lookups in C types
-/

namespace Btf.CTypes

open Btf Spec Props TypeInformation

variable {cfg : Cfg} {ti : TypeInformation} {p : Nat}

theorem reach_cons (name : Name) (pos : Nat) (width : Option Nat) (T : CType) (rest : CMembers) (x : Str) (cs : List PathComponent) :
    (CMembers.cons name pos width T rest).reach p x cs =
      if name = [] then
        match T.reach p (.name x :: cs) with
        | some found => some (found.shift pos)
        | none => rest.reach p x cs
      else if name = x then
        match width with
        | none => (T.reach p cs).map (·.shift pos)
        | some w => if cs = [] then some ⟨T, pos, some w⟩ else none
      else rest.reach p x cs := by
  rw [CMembers.reach.eq_def]; rfl

theorem proper_cons (size : Nat) (name : Name) (pos : Nat) (width : Option Nat) (T : CType) (rest : CMembers) :
    (CMembers.cons name pos width T rest).Proper p size ↔ T.Proper p ∧ rest.Proper p size ∧
      (∀ b ∈ name, 0 < b.toNat ∧ b.toNat < 128) ∧
      match width with
      | none => 8 ∣ pos ∧ pos + 8 * T.size p ≤ 8 * size
      | some w => name ≠ [] ∧ T.isScalar = true ∧ 0 < w ∧ w < 256 ∧ pos + w ≤ 8 * size := by
  rw [CMembers.Proper.eq_def]; rfl

/-! ### Sizes -/

theorem size_lt : ∀ (T : CType), T.Proper p → T.size p < 2 ^ 29
  | .scalar s, h => by simpa [CType.Proper, CType.size] using h
  | .pointer _, h => by simpa [CType.Proper, CType.size] using h
  | .array n t, h => by
    rw [CType.Proper] at h
    exact h.2
  | .record _ _ s ms, h => by
    rw [CType.Proper] at h
    exact h.2.2
  | .renamed _ t, h => by
    rw [CType.Proper] at h
    exact size_lt t h

theorem usizeMod_ge (cfg : Cfg) : 2 ^ 32 ≤ cfg.usizeMod := by
  rcases cfg with ⟨w, o⟩
  cases w <;> simp [Cfg.usizeMod]

theorem sizeAlias_of {v : TypeVariant} {w : UInt32} (h : aliasOf v = some w) : sizeAlias v = some w := by
  cases v <;> first | exact h | cases h

theorem accessAlias_of {v : TypeVariant} {w : UInt32} (h : aliasOf v = some w) : accessAlias v = some w := by
  cases v <;> first | exact h | cases h

theorem has_size (hp : PointerSize ti p) : ∀ (T : CType) (t : UInt32), T.Proper p → Represents ti t T →
    HasSize (some cfg.usizeMod) ti t (T.size p)
  | .scalar s, t, _, hr => by
    rw [Represents] at hr
    obtain ⟨v, h1, h2, -⟩ := hr
    exact .own h1 h2
  | .pointer _, t, _, hr => by
    rw [Represents] at hr
    obtain ⟨h, d, h1, -⟩ := hr
    exact .ptr h1 trivial hp
  | .array n T, t, hT, hr => by
    rw [Represents] at hr
    rw [CType.Proper] at hT
    obtain ⟨h, d, h1, rfl, h2⟩ := hr
    refine .array h1 (has_size hp T _ hT.1 h2) fun l hl => ?_
    cases hl
    have := usizeMod_ge cfg
    omega
  | .record _ _ s ms, t, _, hr => by
    rw [Represents] at hr
    obtain ⟨h, d, h1 | h1, h2, -⟩ := hr
    · exact .own h1 (by simp [ownSize, h2, CType.size])
    · exact .own h1 (by simp [ownSize, h2, CType.size])
  | .renamed _ T, t, hT, hr => by
    rw [Represents] at hr
    rw [CType.Proper] at hT
    obtain ⟨v, w, h1, h2, h3⟩ := hr
    exact .alias h1 (sizeAlias_of h2) (has_size hp T w hT h3)

/-! ### Lookups -/

theorem resolves_step {t w : UInt32} {v v' : TypeVariant} (h : ti.fromId t = some v) (ha : accessAlias v = some w)
    (hr : Resolves ti w v') : Resolves ti t v' := by
  obtain ⟨a, h1, h2, h3⟩ := hr
  exact ⟨a, .step h ha h1, h2, h3⟩

theorem search_alias {t w : UInt32} {v : TypeVariant} (h : ti.fromId t = some v) (ha : accessAlias v = some w) {o : Offset}
    {c : PathComponent} {cs : List PathComponent} {b : Bool} {r : Outcome (UInt32 × Offset)}
    (hs : Search cfg ti b w o (c :: cs) r) : Search cfg ti b t o (c :: cs) r := by
  have R : ∀ {v'}, Resolves ti w v' → Resolves ti t v' := resolves_step h ha
  cases hs with
  | missing h1 h2 => exact .missing (.step h ha h1) h2
  | closed h1 h2 => exact .closed (R h1) h2
  | outOfBounds h1 h2 => exact .outOfBounds (R h1) h2
  | elementError h1 h2 h3 => exact .elementError (R h1) h2 h3
  | elementPanic h1 h2 h3 => exact .elementPanic (R h1) h2 h3
  | elementFar h1 h2 h3 h4 => exact .elementFar (R h1) h2 h3 h4
  | elementNowhere h1 h2 h3 h4 h5 => exact .elementNowhere (R h1) h2 h3 h4 h5
  | element h1 h2 h3 h4 h5 h6 => exact .element (R h1) h2 h3 h4 h5 h6
  | unnamed q e h1 h2 h3 h4 h5 h6 h7 h8 => exact .unnamed q e (R h1) h2 h3 h4 h5 h6 h7 h8
  | unnamedNowhere q e h1 h2 h3 h4 h5 h6 => exact .unnamedNowhere q e (R h1) h2 h3 h4 h5 h6
  | named q e h1 h2 h3 h4 h5 h6 h7 h8 => exact .named q e (R h1) h2 h3 h4 h5 h6 h7 h8
  | namedNowhere q e h1 h2 h3 h4 h5 h6 h7 => exact .namedNowhere q e (R h1) h2 h3 h4 h5 h6 h7
  | notFound q e h1 h2 h3 h4 h5 => exact .notFound q e (R h1) h2 h3 h4 h5

/-- The place of a member in an object at byte `b`. -/
def placeOf (b : UInt32) (a : Member) : Offset :=
  match a.offset with
  | .byteOffset c => .byteOffset (c + b)
  | o => o

/-- The member is named, or the lookup fails in it. -/
def Fails (cfg : Cfg) (ti : TypeInformation) (b : UInt32) (x : Str) (cs : List PathComponent) (a : Member) : Prop :=
  a.name = none → After a.offset (.byteOffset b) (placeOf b a) ∧
    Search cfg ti true a.tid (placeOf b a) (.name x :: cs) (.err .InvalidTypePath)

/-- A lookup by name in a list of members. -/
inductive Lookup (cfg : Cfg) (ti : TypeInformation) (b : UInt32) (x : Str) (cs : List PathComponent) (l : List Member) :
    Outcome (UInt32 × Offset) → Prop where
  | unnamed {pre m post r} : l = pre ++ m :: post → (∀ a ∈ pre, Fails cfg ti b x cs a) → m.name = none →
      After m.offset (.byteOffset b) (placeOf b m) → Search cfg ti true m.tid (placeOf b m) (.name x :: cs) (.ok r) →
      Lookup cfg ti b x cs l (.ok r)
  | named {pre m post o' r} : l = pre ++ m :: post → (∀ a ∈ l, Fails cfg ti b x cs a) → m.name = some x →
      (∀ a ∈ pre, a.name ≠ some x) → After (.byteOffset b) m.offset o' → Search cfg ti true m.tid o' cs r →
      Lookup cfg ti b x cs l r
  | notFound : (∀ a ∈ l, Fails cfg ti b x cs a) → (∀ a ∈ l, a.name ≠ some x) →
      Lookup cfg ti b x cs l (.err .InvalidTypePath)

theorem Lookup.cons {b : UInt32} {x : Str} {cs : List PathComponent} {l : List Member} {r : Outcome (UInt32 × Offset)} {a : Member}
    (h : Lookup cfg ti b x cs l r) (hf : Fails cfg ti b x cs a) (hn : a.name ≠ some x) : Lookup cfg ti b x cs (a :: l) r := by
  cases h with
  | unnamed h1 h2 h3 h4 h5 =>
    refine .unnamed (pre := a :: _) (by rw [h1]; rfl) (fun y hy => ?_) h3 h4 h5
    rcases List.mem_cons.1 hy with rfl | hy
    · exact hf
    · exact h2 y hy
  | named h1 h2 h3 h4 h5 h6 =>
    refine .named (pre := a :: _) (by rw [h1]; rfl) (fun y hy => ?_) h3 (fun y hy => ?_) h5 h6
    · rcases List.mem_cons.1 hy with rfl | hy
      · exact hf
      · exact h2 y hy
    · rcases List.mem_cons.1 hy with rfl | hy
      · exact hn
      · exact h4 y hy
  | notFound h1 h2 =>
    refine .notFound (fun y hy => ?_) (fun y hy => ?_)
    · rcases List.mem_cons.1 hy with rfl | hy
      · exact hf
      · exact h1 y hy
    · rcases List.mem_cons.1 hy with rfl | hy
      · exact hn
      · exact h2 y hy

theorem Lookup.search {b : UInt32} {x : Str} {cs : List PathComponent} {l : List Member} {r : Outcome (UInt32 × Offset)}
    {t : UInt32} {v : TypeVariant} (h : Lookup cfg ti b x cs l r) (hr : Resolves ti t v) (hm : membersOf v = some l) :
    Search cfg ti true t (.byteOffset b) (.name x :: cs) r := by
  cases h with
  | unnamed h1 h2 h3 h4 h5 =>
    subst h1
    exact .unnamed (placeOf b) (fun _ => .InvalidTypePath) hr hm (fun a ha hn => (h2 a ha hn).1)
      (fun a ha hn => (h2 a ha hn).2) h3 h4 h5 (by simp)
  | named h1 h2 h3 h4 h5 h6 =>
    subst h1
    exact .named (placeOf b) (fun _ => .InvalidTypePath) hr hm (fun a ha hn => (h2 a ha hn).1)
      (fun a ha hn => (h2 a ha hn).2) h3 h4 h5 h6
  | notFound h1 h2 =>
    exact .notFound (placeOf b) (fun _ => .InvalidTypePath) hr hm (fun a ha hn => (h1 a ha hn).1)
      (fun a ha hn => (h1 a ha hn).2) h2

/-! ### Names that are not there -/

mutual
theorem reach_none : ∀ (T : CType) (x : Str) (cs : List PathComponent), x ∉ T.names → T.reach p (.name x :: cs) = none
  | .scalar _, x, cs, _ => by rw [CType.reach] <;> simp
  | .pointer _, x, cs, _ => by rw [CType.reach] <;> simp
  | .array _ _, x, cs, _ => by rw [CType.reach] <;> simp
  | .record _ _ _ ms, x, cs, h => by
    rw [CType.reach]
    exact reachMembers_none ms x cs (by rwa [CType.names] at h)
  | .renamed _ T, x, cs, h => by
    rw [CType.reach]
    exact reach_none T x cs (by rwa [CType.names] at h)

theorem reachMembers_none : ∀ (ms : CMembers) (x : Str) (cs : List PathComponent), x ∉ ms.names → ms.reach p x cs = none
  | .nil, x, cs, _ => by rw [CMembers.reach]
  | .cons name pos width T rest, x, cs, h => by
    rw [CMembers.names, List.mem_append, not_or] at h
    rw [reach_cons]
    by_cases hn : name = []
    · rw [if_pos hn] at h ⊢
      rw [reach_none T x cs h.1, reachMembers_none rest x cs h.2]
    · rw [if_neg hn] at h ⊢
      rw [if_neg (fun he => h.1 (by simp [he])), reachMembers_none rest x cs h.2]
end

/-- The id and the offset are what was found, in an object at byte `b`. -/
def Answers (ti : TypeInformation) (b : UInt32) (x : Found) (r : UInt32 × Offset) : Prop :=
  Represents ti r.1 x.type ∧ bitPos r.2 = 8 * b.toNat + x.bits ∧ (bitWidth r.2).map UInt32.toNat = x.width

theorem answers_shift {b b' : UInt32} {x : Found} {r : UInt32 × Offset} {n : Nat} (h : Answers ti b' x r)
    (hb : 8 * b'.toNat = 8 * b.toNat + n) : Answers ti b (x.shift n) r := by
  refine ⟨h.1, ?_, h.2.2⟩
  rw [h.2.1, Found.shift]
  simp only
  omega

theorem scalar_closed : ∀ (T : CType) (t : UInt32), T.isScalar = true → Represents ti t T →
    ∃ v, Resolves ti t v ∧ ∀ c, Closed v c
  | .scalar s, t, _, hr => by
    rw [Represents] at hr
    obtain ⟨v, h1, h2, h3⟩ := hr
    refine ⟨v, resolves_self h1 ?_, fun c => ?_⟩
    · cases v <;> first | rfl | cases h2
    · cases c with
      | index i => intro hd d he; subst he; cases h2
      | name n =>
        cases v with
        | struct h d => exact absurd rfl (h3 h d).1
        | union h d => exact absurd rfl (h3 h d).2
        | _ => rfl
  | .renamed _ T, t, h, hr => by
    rw [Represents] at hr
    obtain ⟨v, w, h1, h2, h3⟩ := hr
    obtain ⟨v', hv, hc⟩ := scalar_closed T w (by rwa [CType.isScalar] at h) h3
    exact ⟨v', resolves_step h1 (accessAlias_of h2) hv, hc⟩

theorem name_some {name : Name} (h : ∀ b ∈ name, 0 < b.toNat ∧ b.toNat < 128) (hn : name ≠ []) : nameStr name = some name := by
  rw [nameStr, if_neg hn, latin1_ascii fun b hb => (h b hb).2]

theorem byte_offset {o : Offset} {n : Nat} (h : bitPos o = n) (hw : (bitWidth o).map UInt32.toNat = none) :
    ∃ c : UInt32, o = .byteOffset c ∧ 8 * c.toNat = n := by
  cases o with
  | byteOffset c => exact ⟨c, rfl, h⟩
  | bitOffsetAndSize a w => simp [bitWidth] at hw

theorem bit_offset {o : Offset} {n w : Nat} (h : bitPos o = n) (hw : (bitWidth o).map UInt32.toNat = some w) :
    ∃ c u : UInt32, o = .bitOffsetAndSize c u ∧ c.toNat = n ∧ u.toNat = w := by
  cases o with
  | byteOffset c => simp [bitWidth] at hw
  | bitOffsetAndSize a u => exact ⟨a, u, rfl, h, by simpa [bitWidth] using hw⟩

theorem after_bytes {b c : UInt32} (h : b.toNat + c.toNat < 2 ^ 32) :
    After (.byteOffset b) (.byteOffset c) (.byteOffset (b + c)) := by
  refine ⟨by simp [IsBitfield, bitWidth], rfl, ?_⟩
  simp only [bitPos]
  rw [UInt32.toNat_add, Nat.mod_eq_of_lt h]
  omega

mutual
theorem search_type (hp : PointerSize ti p) : ∀ (T : CType) (t : UInt32), T.Proper p → Represents ti t T →
    ∀ (cs : List PathComponent) (b : UInt32), 8 * b.toNat + 8 * T.size p < 2 ^ 32 →
    (∀ x, T.reach p cs = some x → ∃ r, Answers ti b x r ∧ Search cfg ti true t (.byteOffset b) cs (.ok r)) ∧
    (T.reach p cs = none → Search cfg ti true t (.byteOffset b) cs (.err .InvalidTypePath))
  | T, t, _, hr, [], b, _ => by
    rw [show T.reach p [] = some ⟨T, 0, none⟩ by unfold CType.reach; rfl]
    refine ⟨?_, by simp⟩
    rintro x ⟨⟩
    exact ⟨(t, .byteOffset b), ⟨hr, rfl, rfl⟩, .done rfl⟩
  | .scalar s, t, _, hr, c :: cs, b, _ => by
    obtain ⟨v, h1, h2⟩ := scalar_closed (.scalar s) t rfl hr
    rw [show (CType.scalar s).reach p (c :: cs) = none by rw [CType.reach] <;> simp]
    exact ⟨by simp, fun _ => .closed h1 (h2 c)⟩
  | .pointer w, t, _, hr, c :: cs, b, _ => by
    rw [Represents] at hr
    obtain ⟨h, d, h1, -⟩ := hr
    rw [show (CType.pointer w).reach p (c :: cs) = none by rw [CType.reach] <;> simp]
    exact ⟨by simp, fun _ => .closed (resolves_self h1 rfl) (by cases c <;> simp [Closed, membersOf])⟩
  | .array n T, t, hT, hr, .name x :: cs, b, _ => by
    rw [Represents] at hr
    obtain ⟨h, d, h1, -⟩ := hr
    rw [show (CType.array n T).reach p (.name x :: cs) = none by rw [CType.reach] <;> simp]
    exact ⟨by simp, fun _ => .closed (resolves_self h1 rfl) rfl⟩
  | .array n T, t, hT, hr, .index i :: cs, b, hb => by
    rw [Represents] at hr
    rw [CType.Proper] at hT
    obtain ⟨h, d, h1, rfl, h2⟩ := hr
    rw [CType.reach]
    split
    · rename_i hi
      have hs := (size_of_exact cfg ti _ _ (has_size (cfg := cfg) hp T _ hT.1 h2) _).2 rfl
      rw [CType.size] at hb
      have hmul : i * T.size p + T.size p ≤ T.size p * d.elementCount.toNat := by
        rw [Nat.mul_comm i, ← Nat.mul_succ]
        exact Nat.mul_le_mul_left _ hi
      have hin : (UInt32.ofNat (i * T.size p)).toNat = i * T.size p :=
        UInt32.toNat_ofNat_of_lt' (by rw [UInt32.size]; omega)
      have hadd : (b + UInt32.ofNat (i * T.size p)).toNat = b.toNat + i * T.size p := by
        rw [UInt32.toNat_add, hin, Nat.mod_eq_of_lt (by omega)]
      have hA := after_bytes (b := b) (c := UInt32.ofNat (i * T.size p)) (by rw [hin]; omega)
      obtain ⟨g1, g2⟩ := search_type hp T _ hT.1 h2 cs (b + UInt32.ofNat (i * T.size p)) (by rw [hadd]; omega)
      refine ⟨fun x hx => ?_, fun hx => ?_⟩
      · obtain ⟨y, hy, rfl⟩ := Option.map_eq_some_iff.1 hx
        obtain ⟨r, hr, hsearch⟩ := g1 y hy
        refine ⟨r, answers_shift hr (by rw [hadd]; omega), .element (resolves_self h1 rfl) hi hs (by omega) hA hsearch⟩
      · exact .element (resolves_self h1 rfl) hi hs (by omega) hA (g2 (Option.map_eq_none_iff.1 hx))
    · rename_i hi
      exact ⟨by simp, fun _ => .outOfBounds (resolves_self h1 rfl) (by omega)⟩
  | .record u tag s ms, t, hT, hr, .index i :: cs, b, hb => by
    rw [Represents] at hr
    obtain ⟨h, d, h1, -⟩ := hr
    rw [show (CType.record u tag s ms).reach p (.index i :: cs) = none by rw [CType.reach] <;> simp]
    refine ⟨by simp, fun _ => ?_⟩
    rcases h1 with h1 | h1 <;> exact .closed (resolves_self h1 rfl) (by simp [Closed])
  | .record u tag s ms, t, hT, hr, .name x :: cs, b, hb => by
    rw [Represents] at hr
    rw [CType.Proper] at hT
    obtain ⟨h, d, h1, h2, h3⟩ := hr
    rw [CType.reach]
    rw [CType.size] at hb
    have key : ∀ {r}, Lookup cfg ti b x cs d.memberList r → Search cfg ti true t (.byteOffset b) (.name x :: cs) r := by
      intro r hl
      rcases h1 with h1 | h1 <;> exact hl.search (resolves_self h1 rfl) rfl
    obtain ⟨g1, g2, -⟩ := search_members hp ms d.memberList s.toNat hT.2.1 hT.1 h3 x cs b hb
    exact ⟨fun y hy => (g1 y hy).imp fun r hr => ⟨hr.1, key hr.2⟩, fun hy => key (g2 hy)⟩
  | .renamed how T, t, hT, hr, c :: cs, b, hb => by
    rw [Represents] at hr
    rw [CType.Proper] at hT
    rw [CType.size] at hb
    obtain ⟨v, w, h1, h2, h3⟩ := hr
    rw [CType.reach]
    obtain ⟨g1, g2⟩ := search_type hp T w hT h3 (c :: cs) b hb
    exact ⟨fun y hy => (g1 y hy).imp fun r hr => ⟨hr.1, search_alias h1 (accessAlias_of h2) hr.2⟩,
      fun hy => search_alias h1 (accessAlias_of h2) (g2 hy)⟩

theorem search_members (hp : PointerSize ti p) : ∀ (ms : CMembers) (l : List Member) (size : Nat), ms.Proper p size →
    ms.names.Nodup → RepresentsMembers ti l ms → ∀ (x : Str) (cs : List PathComponent) (b : UInt32),
    8 * b.toNat + 8 * size < 2 ^ 32 →
    (∀ y, ms.reach p x cs = some y → ∃ r, Answers ti b y r ∧ Lookup cfg ti b x cs l (.ok r)) ∧
    (ms.reach p x cs = none → Lookup cfg ti b x cs l (.err .InvalidTypePath)) ∧
    (x ∉ ms.names → (∀ a ∈ l, Fails cfg ti b x cs a) ∧ ∀ a ∈ l, a.name ≠ some x)
  | .nil, l, size, _, _, hr, x, cs, b, _ => by
    have hl : l = [] := by
      cases l with
      | nil => rfl
      | cons _ _ => rw [RepresentsMembers] at hr <;> simp_all
    subst hl
    rw [CMembers.reach]
    exact ⟨by simp, fun _ => .notFound (by simp) (by simp), by simp⟩
  | .cons name pos width T rest, l, size, hP, hN, hr, x, cs, b, hb => by
    cases l with
    | nil => rw [RepresentsMembers] at hr <;> simp_all
    | cons m l =>
    rw [RepresentsMembers] at hr
    rw [proper_cons] at hP
    rw [CMembers.names] at hN ⊢
    obtain ⟨r1, r2, r3, r4, r5⟩ := hr
    obtain ⟨hT, hrest, hascii, hw⟩ := hP
    have hNr := (List.nodup_append.1 hN).2.1
    have hdis := (List.nodup_append.1 hN).2.2
    obtain ⟨g1, g2, g3⟩ := search_members hp rest l size hrest hNr r5 x cs b hb
    rw [reach_cons]
    by_cases hn : name = []
    · -- an unnamed member
      subst hn
      rw [if_pos rfl] at hN hdis ⊢
      rw [if_pos rfl]
      have hname : m.name = none := r1
      have hwn : width = none := by
        cases width with
        | none => rfl
        | some w => exact absurd rfl hw.1
      subst hwn
      obtain ⟨hdvd, hin⟩ := hw
      obtain ⟨c, hc, hcp⟩ := byte_offset r2 r3
      have hplace : placeOf b m = .byteOffset (c + b) := by rw [placeOf, hc]
      have hadd : (c + b).toNat = c.toNat + b.toNat := by
        rw [UInt32.toNat_add, Nat.mod_eq_of_lt (by omega)]
      have hA : After m.offset (.byteOffset b) (placeOf b m) := by
        rw [hplace, hc]; exact after_bytes (by omega)
      obtain ⟨k1, k2⟩ := search_type hp T m.tid hT r4 (.name x :: cs) (c + b) (by rw [hadd]; omega)
      have hnx : m.name ≠ some x := by rw [hname]; simp
      refine ⟨fun y hy => ?_, fun hy => ?_, fun hx => ?_⟩
      · cases hreach : T.reach p (.name x :: cs) with
        | some z =>
          rw [hreach] at hy
          simp only [Option.some.injEq] at hy
          subst hy
          obtain ⟨r, hr, hs⟩ := k1 z hreach
          exact ⟨r, answers_shift hr (by rw [hadd]; omega),
            .unnamed (pre := []) (post := l) rfl (by simp) hname hA (hplace ▸ hs)⟩
        | none =>
          rw [hreach] at hy
          obtain ⟨r, hr, hl⟩ := g1 y hy
          exact ⟨r, hr, hl.cons (fun _ => ⟨hA, hplace ▸ k2 hreach⟩) hnx⟩
      · cases hreach : T.reach p (.name x :: cs) with
        | some z => rw [hreach] at hy; cases hy
        | none =>
          rw [hreach] at hy
          exact (g2 hy).cons (fun _ => ⟨hA, hplace ▸ k2 hreach⟩) hnx
      · rw [List.mem_append, not_or] at hx
        obtain ⟨f1, f2⟩ := g3 hx.2
        refine ⟨fun a ha => ?_, fun a ha => ?_⟩
        · rcases List.mem_cons.1 ha with rfl | ha
          · exact fun _ => ⟨hA, hplace ▸ k2 (reach_none T x cs hx.1)⟩
          · exact f1 a ha
        · rcases List.mem_cons.1 ha with rfl | ha
          · exact hnx
          · exact f2 a ha
    · rw [if_neg hn] at hN hdis ⊢
      rw [if_neg hn]
      have hname : m.name = some name := by rw [r1]; exact name_some hascii hn
      have hfail : Fails cfg ti b x cs m := fun h => by rw [hname] at h; cases h
      by_cases hx : name = x
      · -- the member with the name
        subst hx
        rw [if_pos rfl]
        have hxr : name ∉ rest.names := fun h => hdis name (by simp) name h rfl
        obtain ⟨f1, f2⟩ := g3 hxr
        have hall : ∀ a ∈ m :: l, Fails cfg ti b name cs a := by
          intro a ha
          rcases List.mem_cons.1 ha with rfl | ha
          · exact hfail
          · exact f1 a ha
        refine ⟨?_, ?_, fun h => absurd (by simp) h⟩
        · intro y hy
          cases width with
          | none =>
            obtain ⟨hdvd, hin⟩ := hw
            obtain ⟨c, hc, hcp⟩ := byte_offset r2 r3
            have hadd : (b + c).toNat = b.toNat + c.toNat := by
              rw [UInt32.toNat_add, Nat.mod_eq_of_lt (by omega)]
            obtain ⟨k1, -⟩ := search_type hp T m.tid hT r4 cs (b + c) (by rw [hadd]; omega)
            obtain ⟨z, hz, rfl⟩ := Option.map_eq_some_iff.1 hy
            obtain ⟨r, hr, hs⟩ := k1 z hz
            exact ⟨r, answers_shift hr (by rw [hadd]; omega), .named (pre := []) (post := l) (m := m) rfl hall hname (by simp)
              (hc ▸ after_bytes (by omega)) hs⟩
          | some w =>
            obtain ⟨-, hsc, hw0, hw1, hin⟩ := hw
            obtain ⟨c, u, hc, hcp, hu⟩ := bit_offset r2 r3
            simp only at hy
            split at hy
            · rename_i hcs
              subst hcs
              simp only [Option.some.injEq] at hy
              subst hy
              have hmul : (8 * b.toNat + c.toNat) < 2 ^ 32 := by omega
              refine ⟨(m.tid, .bitOffsetAndSize (UInt32.ofNat (8 * b.toNat + c.toNat)) u), ⟨r4, ?_, ?_⟩,
                .named (pre := []) (post := l) (m := m) rfl hall hname (by simp) (o' := .bitOffsetAndSize (UInt32.ofNat (8 * b.toNat + c.toNat)) u)
                  ⟨by simp [IsBitfield, bitWidth], by rw [hc]; rfl, ?_⟩ (.done rfl)⟩
              · simp only [bitPos]
                rw [UInt32.toNat_ofNat_of_lt' hmul, hcp]
              · simp [bitWidth, hu]
              · rw [hc]; simp only [bitPos]
                rw [UInt32.toNat_ofNat_of_lt' hmul]
            · cases hy
        · intro hy
          cases width with
          | none =>
            obtain ⟨hdvd, hin⟩ := hw
            obtain ⟨c, hc, hcp⟩ := byte_offset r2 r3
            have hadd : (b + c).toNat = b.toNat + c.toNat := by
              rw [UInt32.toNat_add, Nat.mod_eq_of_lt (by omega)]
            obtain ⟨-, k2⟩ := search_type hp T m.tid hT r4 cs (b + c) (by rw [hadd]; omega)
            exact .named (pre := []) (post := l) (m := m) rfl hall hname (by simp)
              (hc ▸ after_bytes (by omega)) (k2 (Option.map_eq_none_iff.1 hy))
          | some w =>
            obtain ⟨-, hsc, hw0, hw1, hin⟩ := hw
            obtain ⟨c, u, hc, hcp, hu⟩ := bit_offset r2 r3
            simp only at hy
            split at hy
            · cases hy
            · rename_i hcs
              obtain ⟨d, ds, rfl⟩ := List.exists_cons_of_ne_nil hcs
              obtain ⟨v, hv, hcl⟩ := scalar_closed T m.tid hsc r4
              have hmul : (8 * b.toNat + c.toNat) < 2 ^ 32 := by omega
              refine .named (pre := []) (post := l) (m := m) rfl hall hname (by simp)
                (o' := .bitOffsetAndSize (UInt32.ofNat (8 * b.toNat + c.toNat)) u)
                ⟨by simp [IsBitfield, bitWidth], by rw [hc]; rfl, ?_⟩ (.closed hv (hcl d))
              rw [hc]; simp only [bitPos]
              rw [UInt32.toNat_ofNat_of_lt' hmul]
      · rw [if_neg hx]
        have hnx : m.name ≠ some x := by rw [hname]; simpa using hx
        refine ⟨fun y hy => (g1 y hy).imp fun r hr => ⟨hr.1, hr.2.cons hfail hnx⟩, fun hy => (g2 hy).cons hfail hnx, fun h => ?_⟩
        rw [List.mem_append, not_or] at h
        obtain ⟨f1, f2⟩ := g3 h.2
        refine ⟨fun a ha => ?_, fun a ha => ?_⟩
        · rcases List.mem_cons.1 ha with rfl | ha
          · exact hfail
          · exact f1 a ha
        · rcases List.mem_cons.1 ha with rfl | ha
          · exact hnx
          · exact f2 a ha
end

/-! ### Texts that are not a path -/

theorem first_named {l : List Member} {x : Str} (h : ∃ a ∈ l, a.name = some x) :
    ∃ pre m post, l = pre ++ m :: post ∧ m.name = some x ∧ ∀ a ∈ pre, a.name ≠ some x := by
  induction l with
  | nil => simp at h
  | cons a l ih =>
    by_cases ha : a.name = some x
    · exact ⟨[], a, l, rfl, ha, by simp⟩
    · obtain ⟨y, hy, hyx⟩ := h
      rcases List.mem_cons.1 hy with rfl | hy
      · exact absurd hyx ha
      · obtain ⟨pre, m, post, rfl, h1, h2⟩ := ih ⟨y, hy, hyx⟩
        refine ⟨a :: pre, m, post, rfl, h1, fun z hz => ?_⟩
        rcases List.mem_cons.1 hz with rfl | hz
        · exact ha
        · exact h2 z hz

mutual
theorem search_broken (hp : PointerSize ti p) : ∀ (T : CType) (t : UInt32), T.Proper p → Represents ti t T →
    ∀ (cs : List PathComponent) (b : UInt32), 8 * b.toNat + 8 * T.size p < 2 ^ 32 →
    Search cfg ti false t (.byteOffset b) cs (.err .InvalidTypePath)
  | T, t, _, hr, [], b, _ => .broken rfl
  | .scalar s, t, _, hr, c :: cs, b, _ => by
    obtain ⟨v, h1, h2⟩ := scalar_closed (.scalar s) t rfl hr
    exact .closed h1 (h2 c)
  | .pointer _, t, _, hr, c :: cs, b, _ => by
    rw [Represents] at hr
    obtain ⟨h, d, h1, -⟩ := hr
    exact .closed (resolves_self h1 rfl) (by cases c <;> simp [Closed, membersOf])
  | .array n T, t, hT, hr, .name x :: cs, b, _ => by
    rw [Represents] at hr
    obtain ⟨h, d, h1, -⟩ := hr
    exact .closed (resolves_self h1 rfl) rfl
  | .array n T, t, hT, hr, .index i :: cs, b, hb => by
    rw [Represents] at hr
    rw [CType.Proper] at hT
    obtain ⟨h, d, h1, rfl, h2⟩ := hr
    by_cases hi : i < d.elementCount.toNat
    · have hs := (size_of_exact cfg ti _ _ (has_size (cfg := cfg) hp T _ hT.1 h2) _).2 rfl
      rw [CType.size] at hb
      have hmul : i * T.size p + T.size p ≤ T.size p * d.elementCount.toNat := by
        rw [Nat.mul_comm i, ← Nat.mul_succ]
        exact Nat.mul_le_mul_left _ hi
      have hin : (UInt32.ofNat (i * T.size p)).toNat = i * T.size p :=
        UInt32.toNat_ofNat_of_lt' (by rw [UInt32.size]; omega)
      have hadd : (b + UInt32.ofNat (i * T.size p)).toNat = b.toNat + i * T.size p := by
        rw [UInt32.toNat_add, hin, Nat.mod_eq_of_lt (by omega)]
      have hA := after_bytes (b := b) (c := UInt32.ofNat (i * T.size p)) (by rw [hin]; omega)
      exact .element (resolves_self h1 rfl) hi hs (by omega) hA
        (search_broken hp T _ hT.1 h2 cs (b + UInt32.ofNat (i * T.size p)) (by rw [hadd]; omega))
    · exact .outOfBounds (resolves_self h1 rfl) (by omega)
  | .record u tag s ms, t, hT, hr, .index i :: cs, b, hb => by
    rw [Represents] at hr
    obtain ⟨h, d, h1, -⟩ := hr
    rcases h1 with h1 | h1 <;> exact .closed (resolves_self h1 rfl) (by simp [Closed])
  | .record u tag s ms, t, hT, hr, .name x :: cs, b, hb => by
    rw [Represents] at hr
    rw [CType.Proper] at hT
    obtain ⟨h, d, h1, h2, h3⟩ := hr
    rw [CType.size] at hb
    obtain ⟨g1, g2⟩ := members_broken hp ms d.memberList s.toNat hT.2.1 h3 x cs b hb
    have key : ∀ v, Resolves ti t v → membersOf v = some d.memberList →
        Search cfg ti false t (.byteOffset b) (.name x :: cs) (.err .InvalidTypePath) := by
      intro v hv hm
      by_cases hex : ∃ a ∈ d.memberList, a.name = some x
      · obtain ⟨pre, m, post, hl, hmx, hpre⟩ := first_named hex
        obtain ⟨o', ho, hs⟩ := g2 m (by rw [hl]; simp) (by rw [hmx]; simp)
        rw [hl] at hm g1
        exact .named (placeOf b) (fun _ => .InvalidTypePath) hv hm (fun a ha hn => (g1 a ha hn).1)
          (fun a ha hn => (g1 a ha hn).2) hmx hpre ho hs
      · exact .notFound (placeOf b) (fun _ => .InvalidTypePath) hv hm (fun a ha hn => (g1 a ha hn).1)
          (fun a ha hn => (g1 a ha hn).2) (fun a ha hn => hex ⟨a, ha, hn⟩)
    rcases h1 with h1 | h1 <;> exact key _ (resolves_self h1 rfl) rfl
  | .renamed how T, t, hT, hr, c :: cs, b, hb => by
    rw [Represents] at hr
    rw [CType.Proper] at hT
    rw [CType.size] at hb
    obtain ⟨v, w, h1, h2, h3⟩ := hr
    exact search_alias h1 (accessAlias_of h2) (search_broken hp T w hT h3 (c :: cs) b hb)

theorem members_broken (hp : PointerSize ti p) : ∀ (ms : CMembers) (l : List Member) (size : Nat), ms.Proper p size →
    RepresentsMembers ti l ms → ∀ (x : Str) (cs : List PathComponent) (b : UInt32), 8 * b.toNat + 8 * size < 2 ^ 32 →
    (∀ a ∈ l, a.name = none → After a.offset (.byteOffset b) (placeOf b a) ∧
      Search cfg ti false a.tid (placeOf b a) (.name x :: cs) (.err .InvalidTypePath)) ∧
    (∀ a ∈ l, a.name ≠ none → ∃ o', After (.byteOffset b) a.offset o' ∧
      Search cfg ti false a.tid o' cs (.err .InvalidTypePath))
  | .nil, l, size, _, hr, x, cs, b, _ => by
    have hl : l = [] := by
      cases l with
      | nil => rfl
      | cons _ _ => rw [RepresentsMembers] at hr <;> simp_all
    subst hl
    exact ⟨by simp, by simp⟩
  | .cons name pos width T rest, l, size, hP, hr, x, cs, b, hb => by
    cases l with
    | nil => rw [RepresentsMembers] at hr <;> simp_all
    | cons m l =>
    rw [RepresentsMembers] at hr
    rw [proper_cons] at hP
    obtain ⟨r1, r2, r3, r4, r5⟩ := hr
    obtain ⟨hT, hrest, hascii, hw⟩ := hP
    obtain ⟨g1, g2⟩ := members_broken hp rest l size hrest r5 x cs b hb
    refine ⟨fun a ha hn => ?_, fun a ha hn => ?_⟩
    · rcases List.mem_cons.1 ha with rfl | ha
      · have hname : name = [] := by
          by_contra hne
          rw [r1, name_some hascii hne] at hn
          cases hn
        have hwn : width = none := by
          cases width with
          | none => rfl
          | some w => exact absurd hname hw.1
        subst hwn
        obtain ⟨hdvd, hin⟩ := hw
        obtain ⟨c, hc, hcp⟩ := byte_offset r2 r3
        have hadd : (c + b).toNat = c.toNat + b.toNat := by
          rw [UInt32.toNat_add, Nat.mod_eq_of_lt (by omega)]
        have hplace : placeOf b a = .byteOffset (c + b) := by rw [placeOf, hc]
        rw [hplace, hc]
        exact ⟨after_bytes (by omega), search_broken hp T a.tid hT r4 (.name x :: cs) (c + b) (by rw [hadd]; omega)⟩
      · exact g1 a ha hn
    · rcases List.mem_cons.1 ha with rfl | ha
      · cases width with
        | none =>
          obtain ⟨hdvd, hin⟩ := hw
          obtain ⟨c, hc, hcp⟩ := byte_offset r2 r3
          have hadd : (b + c).toNat = b.toNat + c.toNat := by
            rw [UInt32.toNat_add, Nat.mod_eq_of_lt (by omega)]
          exact ⟨_, hc ▸ after_bytes (by omega), search_broken hp T a.tid hT r4 cs (b + c) (by rw [hadd]; omega)⟩
        | some w =>
          obtain ⟨-, hsc, hw0, hw1, hin⟩ := hw
          obtain ⟨c, u, hc, hcp, hu⟩ := bit_offset r2 r3
          have hmul : (8 * b.toNat + c.toNat) < 2 ^ 32 := by omega
          refine ⟨.bitOffsetAndSize (UInt32.ofNat (8 * b.toNat + c.toNat)) u,
            ⟨by simp [IsBitfield, bitWidth], by rw [hc]; rfl, ?_⟩, ?_⟩
          · rw [hc]; simp only [bitPos]
            rw [UInt32.toNat_ofNat_of_lt' hmul]
          · cases cs with
            | nil => exact .broken rfl
            | cons d ds =>
              obtain ⟨v, hv, hcl⟩ := scalar_closed T a.tid hsc r4
              exact .closed hv (hcl d)
      · exact g2 a ha hn
end

end Btf.CTypes

import Verif.Proofs.Cost
import Verif.Props.Declared
import Verif.Props.Same
import Verif.SamplesWF

/-!
# Property C81: how long a lookup takes
-/

namespace Btf.Props

open Btf Spec TypeInformation

/-- `offset_of(t, p)` returns `o` after asking `k` times for a path component (recursive calls included). -/
def OffsetOfTakes (cfg : Cfg) (ti : TypeInformation) (t : UInt32) (p : Str) (o : Outcome (UInt32 × Offset)) (k : Nat) : Prop :=
  o ≠ .nofuel ∧ ∃ fuel, offsetOfSteps cfg ti fuel t p = (o, k)

/-- Every lookup that returns takes a number of steps. -/
theorem offset_of_takes (cfg : Cfg) (ti : TypeInformation) (t : UInt32) (p : Str) (o : Outcome (UInt32 × Offset)) :
    OffsetOf cfg ti t p o ↔ ∃ k, OffsetOfTakes cfg ti t p o k := by
  constructor
  · rintro ⟨hne, n, rfl⟩
    refine ⟨(offsetOfSteps cfg ti n t p).2, hne, n, Prod.ext (implSteps_fst cfg ti n _ t _) rfl⟩
  · rintro ⟨k, hne, n, h⟩
    exact ⟨hne, n, (implSteps_fst cfg ti n _ t _).symm.trans (congrArg Prod.fst h)⟩

theorem implSteps_le_mono (cfg : Cfg) (ti : TypeInformation) {n : Nat} {offset : Offset} {t : UInt32} {path : PathIter}
    (hne : (implSteps cfg ti n offset t path).1 ≠ .nofuel) (d : Nat) :
    implSteps cfg ti (n + d) offset t path = implSteps cfg ti n offset t path := by
  induction d with
  | zero => rfl
  | succ d ih => rw [← Nat.add_assoc, implSteps_mono cfg ti _ _ _ _ (by rw [ih]; exact hne), ih]

/-- The answer and the number of steps are determined. -/
theorem offset_of_takes_unique (cfg : Cfg) (ti : TypeInformation) (t : UInt32) (p : Str) (o o' : Outcome (UInt32 × Offset))
    (k k' : Nat) (h : OffsetOfTakes cfg ti t p o k) (h' : OffsetOfTakes cfg ti t p o' k') : o = o' ∧ k = k' := by
  obtain ⟨hne, n, h⟩ := h
  obtain ⟨hne', n', h'⟩ := h'
  unfold offsetOfSteps at h h'
  have h1 := implSteps_le_mono cfg ti (n := n) (by rw [h]; exact hne) n'
  have h2 := implSteps_le_mono cfg ti (n := n') (by rw [h']; exact hne') n
  rw [Nat.add_comm n' n, h1, h, h'] at h2
  exact ⟨congrArg Prod.fst h2, congrArg Prod.snd h2⟩

/-- C81: if the names inside unnamed members are different from the others, as in C, and no type consists of more than
`W` structs and unions, counting itself and its unnamed members, then a lookup takes at most `W` steps for every
component, and one more. -/
theorem offset_of_steps (cfg : Cfg) (ti : TypeInformation) (w : UInt32 → Nat) (W : Nat) (hc : ClearNames ti)
    (hw : Weighs ti w) (hW : ∀ t, w t ≤ W) (t : UInt32) (s : String) (cs : List PathComponent)
    (hp : AcceptedPath cfg.usizeMod (str s) cs) (o : Outcome (UInt32 × Offset)) (k : Nat)
    (h : OffsetOfTakes cfg ti t (str s) o k) : k ≤ W * cs.length + 1 := by
  obtain ⟨hne, n, h⟩ := h
  have := (implSteps_le (cfg := cfg) hc hw hW n (.byteOffset 0) t (PathIter.new (str s)) cs true
    ((yields_iff cfg (utf8Like_str s) cs).2 hp)).1
  unfold offsetOfSteps at h
  rwa [h] at this

/-- C81: the same for all strings, also those that are not paths, with the number of bytes. -/
theorem offset_of_steps_bytes (cfg : Cfg) (ti : TypeInformation) (w : UInt32 → Nat) (W : Nat) (hc : ClearNames ti)
    (hw : Weighs ti w) (hW : ∀ t, w t ≤ W) (t : UInt32) (s : String) (o : Outcome (UInt32 × Offset)) (k : Nat)
    (h : OffsetOfTakes cfg ti t (str s) o k) : k ≤ W * (str s).length + 1 := by
  obtain ⟨hne, n, h⟩ := h
  obtain ⟨cs, b, -, hy, -⟩ := offsetOf_cases cfg ti t (utf8Like_str s)
  have hlen := yields_length (utf8Like_str s) hy
  have := (implSteps_le (cfg := cfg) hc hw hW n (.byteOffset 0) t (PathIter.new (str s)) cs b hy).1
  unfold offsetOfSteps at h
  rw [h] at this
  have h2 := Nat.mul_le_mul_left W hlen
  simp only [] at this
  omega

/-- C81: where all members have names, a lookup takes one step for every component, and one more, at most. -/
theorem offset_of_steps_plain (cfg : Cfg) (ti : TypeInformation)
    (hn : ∀ t v ms, ti.fromId t = some v → membersOf v = some ms → ∀ m ∈ ms, m.name ≠ none) (t : UInt32) (s : String)
    (cs : List PathComponent) (hp : AcceptedPath cfg.usizeMod (str s) cs) (o : Outcome (UInt32 × Offset)) (k : Nat)
    (h : OffsetOfTakes cfg ti t (str s) o k) : k ≤ cs.length + 1 := by
  have hc : ClearNames ti := by
    intro t v ms hv hm
    refine List.Pairwise.imp_of_mem (R := fun _ _ => True) (fun {a b} ha hb _ h => ?_) (List.pairwise_of_forall (by simp))
    rcases h with h | h
    · exact absurd h (hn t v ms hv hm a ha)
    · exact absurd h (hn t v ms hv hm b hb)
  have hw : Weighs ti (fun _ => 1) := by
    refine ⟨fun _ => Nat.le_refl _, fun t v ms hr hm => ?_⟩
    obtain ⟨a, -, ha, -⟩ := hr
    have : ms.filter (fun m => m.name.isNone) = [] := by
      rw [List.filter_eq_nil_iff]
      intro m hmm
      have := hn a v ms ha hm m hmm
      cases h : m.name with
      | none => exact absurd h this
      | some x => simp
    rw [this]
    exact Nat.le_refl _
  have := offset_of_steps cfg ti (fun _ => 1) 1 hc hw (fun _ => Nat.le_refl _) t s cs hp o k h
  omega

theorem implSteps_plain {cfg : Cfg} {ti : TypeInformation}
    (hn : ∀ t v ms, ti.fromId t = some v → membersOf v = some ms → ∀ m ∈ ms, m.name ≠ none) :
    ∀ {n : Nat} {offset : Offset} {t : UInt32} {path : PathIter} {cs : List PathComponent} {b : Bool} {x : UInt32 × Offset} {k : Nat},
      Yields cfg path cs b → implSteps cfg ti n offset t path = (.ok x, k) → k = cs.length + 1
  | 0, _, _, _, _, _, _, _, _, h => by cases h
  | n + 1, offset, t, path, cs, b, x, k, hy, h => by
    rw [implSteps] at h
    cases hy with
    | stop hs =>
      rcases hp : path.next cfg with ⟨y, path'⟩
      rw [hp] at hs h
      cases hs
      cases h
      rfl
    | fail hs =>
      rcases hp : path.next cfg with ⟨y, path'⟩
      rw [hp] at hs h
      cases hs
      cases h
    | @tok _ path' c cs _ hp hy =>
      rw [hp] at h
      simp only [] at h
      cases hr : resolve ti n t with
      | ok v =>
        rw [hr] at h
        simp only [] at h
        by_cases hv : v = .void
        · rw [if_pos hv] at h; cases h
        rw [if_neg hv] at h
        cases c with
        | index i =>
          simp only [] at h
          cases hs : stepIndex cfg ti n offset v i with
          | ok r =>
            rw [hs] at h
            simp only [] at h
            injection h with h1 h2
            have := implSteps_plain hn hy (k := (implSteps cfg ti n r.2 r.1 path').2) (x := x) (Prod.ext h1 rfl)
            rw [List.length_cons, ← h2, this]
            omega
          | _ => rw [hs] at h; cases h
        | name name =>
          simp only [] at h
          cases hm : memberListOf v with
          | none => rw [hm] at h; cases h
          | some ms =>
            rw [hm] at h
            simp only [] at h
            have hf : ms.filter (fun m => m.name.isNone) = [] := by
              rw [List.filter_eq_nil_iff]
              intro m hmm
              obtain ⟨a, -, ha, -⟩ : Resolves ti t v := resolve_ok_iff.1 ⟨n, hr⟩
              have := hn a v ms ha (by rw [← memberListOf_eq]; exact hm) m hmm
              cases h : m.name with
              | none => exact absurd h this
              | some x => simp
            rw [hf] at h
            simp only [probeSteps] at h
            cases hfi : ms.find? (fun m => m.name = some name) with
            | none => rw [hfi] at h; cases h
            | some m =>
              rw [hfi] at h
              simp only [] at h
              cases ha : offset.add m.offset with
              | ok o =>
                rw [ha] at h
                simp only [] at h
                injection h with h1 h2
                have := implSteps_plain hn hy (k := (implSteps cfg ti n o m.tid path').2) (x := x) (Prod.ext h1 rfl)
                rw [List.length_cons, ← h2, this]
                omega
              | _ => rw [ha] at h; cases h
      | _ => rw [hr] at h; cases h

/-- C81: exactly so many, if the lookup succeeds. -/
theorem offset_of_steps_plain_ok (cfg : Cfg) (ti : TypeInformation)
    (hn : ∀ t v ms, ti.fromId t = some v → membersOf v = some ms → ∀ m ∈ ms, m.name ≠ none) (t : UInt32) (s : String)
    (cs : List PathComponent) (hp : AcceptedPath cfg.usizeMod (str s) cs) (x : UInt32 × Offset) (k : Nat)
    (h : OffsetOfTakes cfg ti t (str s) (.ok x) k) : k = cs.length + 1 := by
  obtain ⟨-, n, h⟩ := h
  exact implSteps_plain hn ((yields_iff cfg (utf8Like_str s) cs).2 hp) h

/-! ### Without the condition on names -/

/-- A struct with two unnamed members of the same type. -/
def double (i : Nat) : Decl :=
  .struct [] 0 [⟨[], UInt32.ofNat (i + 1), 0, none⟩, ⟨[], UInt32.ofNat (i + 1), 0, none⟩]

/-- An empty struct, and `n` structs, each with two unnamed members of the type of the previous one. -/
def doubles (n : Nat) : List Decl := .struct [] 0 [] :: (List.range n).map double

theorem doubles_good (n : Nat) : ∀ d ∈ doubles n, Good d := by
  intro d hd
  simp only [doubles, List.mem_cons, List.mem_map] at hd
  rcases hd with rfl | ⟨i, -, rfl⟩
  · exact ⟨by simp, by decide, by simp⟩
  · refine ⟨by simp, by simp, fun m hm => ?_⟩
    simp only [List.mem_cons, List.not_mem_nil, or_false, or_self] at hm
    subst hm
    exact ⟨by simp, by simp, by split <;> simp⟩

theorem doubles_enum64 (n : Nat) : ∀ d ∈ doubles n, d.isEnum64 = false := by
  intro d hd
  simp only [doubles, List.mem_cons, List.mem_map] at hd
  rcases hd with rfl | ⟨i, -, rfl⟩ <;> rfl

theorem double_words (off : Name → UInt32) (n : Nat) : (((List.range n).map double).flatMap (words off)).length = 9 * n := by
  induction n with
  | zero => rfl
  | succ n ih =>
    rw [List.range_succ, List.map_append, List.flatMap_append, List.length_append, ih]
    rfl

theorem double_names (n : Nat) : (((List.range n).map double).flatMap namesOf).flatMap (· ++ [(0 : UInt8)]) = List.replicate (3 * n) 0 := by
  induction n with
  | zero => rfl
  | succ n ih =>
    rw [List.range_succ, List.map_append, List.flatMap_append, List.flatMap_append, ih, Nat.mul_add, List.replicate_add]
    rfl

theorem doubles_sizes (n : Nat) : (typeWords (doubles n)).length = 3 + 9 * n ∧ (stringTable (doubles n)).length = 2 + 3 * n := by
  constructor
  · unfold typeWords doubles
    rw [List.flatMap_cons, List.length_append, double_words]
    rfl
  · unfold stringTable doubles
    rw [List.flatMap_cons, List.flatMap_append, double_names]
    show (0 :: ([0] ++ List.replicate (3 * n) (0 : UInt8))).length = _
    simp only [List.length_cons, List.length_append, List.length_replicate, List.length_nil]
    omega

theorem next_x (cfg : Cfg) : ((PathIter.new (str "x")).next cfg).1 = .ok (some (.name (str "x"))) := rfl

theorem add_zero_zero : (Offset.byteOffset 0).add (.byteOffset 0) = .ok (.byteOffset 0) := rfl

/-- What the types of such a file are. -/
def IsDoubles (ti : TypeInformation) (n : Nat) : Prop :=
  (∃ hd d, ti.fromId 1 = some (.struct hd d) ∧ d.memberList = []) ∧
  ∀ i < n, ∃ hd d m m', ti.fromId (UInt32.ofNat (i + 2)) = some (.struct hd d) ∧ d.memberList = [m, m'] ∧
    (m.name = none ∧ m.tid = UInt32.ofNat (i + 1) ∧ m.offset = .byteOffset 0) ∧
    (m'.name = none ∧ m'.tid = UInt32.ofNat (i + 1) ∧ m'.offset = .byteOffset 0)

theorem resolve_struct {ti : TypeInformation} {t : UInt32} {hd : Header} {d : StructData} (h : ti.fromId t = some (.struct hd d))
    (n : Nat) : resolve ti (n + 1) t = .ok (.struct hd d) := by
  rw [resolve, h]

theorem doubles_steps {cfg : Cfg} {ti : TypeInformation} {n : Nat} (h : IsDoubles ti n) : ∀ i ≤ n,
    implSteps cfg ti (i + 2) (.byteOffset 0) (UInt32.ofNat (i + 1)) (PathIter.new (str "x")) =
      (.err .InvalidTypePath, 2 ^ (i + 1) - 1)
  | 0, _ => by
    obtain ⟨⟨hd, d, h1, h2⟩, -⟩ := h
    rw [implSteps]
    rcases hn : (PathIter.new (str "x")).next cfg with ⟨x, path'⟩
    have hx := next_x cfg
    rw [hn] at hx
    simp only [] at hx
    subst hx
    simp only []
    rw [show UInt32.ofNat (0 + 1) = 1 from rfl, resolve_struct h1 0]
    simp only [memberListOf, h2]
    rfl
  | i + 1, hi => by
    have ih := doubles_steps (cfg := cfg) h i (by omega)
    obtain ⟨hd, d, m, m', h1, h2, ⟨a1, a2, a3⟩, b1, b2, b3⟩ := h.2 i (by omega)
    rw [implSteps]
    rcases hn : (PathIter.new (str "x")).next cfg with ⟨x, path'⟩
    have hx := next_x cfg
    rw [hn] at hx
    simp only [] at hx
    subst hx
    simp only []
    rw [show i + 1 + 1 = i + 2 from rfl, resolve_struct h1 (i + 1)]
    have hf : ([m, m'].filter fun m => m.name.isNone) = [m, m'] := by simp [a1, b1]
    have hp : probeSteps (fun o u => implSteps cfg ti (i + 2) o u (PathIter.new (str "x"))) (.byteOffset 0) [m, m'] =
        (.ok none, 2 ^ (i + 1) - 1 + (2 ^ (i + 1) - 1)) := by
      rw [probeSteps, a3, add_zero_zero]
      simp only []
      rw [a2, ih]
      simp only []
      rw [probeSteps, b3, add_zero_zero]
      simp only []
      rw [b2, ih]
      rfl
    have hfind : ([m, m'].find? fun m => m.name = some (str "x")) = none := by simp [a1, b1]
    simp only [memberListOf, h2, hf, hp, hfind]
    rw [if_neg (by simp)]
    have : 2 ^ (i + 2) = 2 ^ (i + 1) + 2 ^ (i + 1) := by rw [Nat.pow_succ]; omega
    have h0 : 0 < 2 ^ (i + 1) := Nat.pow_pos (by omega)
    rw [Prod.mk.injEq]
    exact ⟨rfl, by omega⟩

theorem member_zero {name : Name} {t : UInt32} {m : Member} (h : SaysMember ⟨name, t, 0, none⟩ m) :
    m.name = nameStr name ∧ m.tid = t ∧ m.offset = .byteOffset 0 := by
  obtain ⟨c1, c2, c3, c4⟩ := h
  refine ⟨c1, c2, ?_⟩
  cases ho : m.offset with
  | byteOffset b =>
    rw [ho] at c3; simp only [bitPos] at c3
    have : b = 0 := by
      apply UInt32.toNat_inj.1
      simpa using c3
    rw [this]
  | bitOffsetAndSize b w => rw [ho] at c4; simp [bitWidth] at c4

theorem two_members {a b : MemberDecl} {l : List Member} (h : List.Forall₂ SaysMember [a, b] l) :
    ∃ m m', l = [m, m'] ∧ SaysMember a m ∧ SaysMember b m' := by
  rcases l with _ | ⟨m, _ | ⟨m', _ | _⟩⟩
  · cases h
  · cases h; rename_i h; cases h
  · rcases h with _ | ⟨h1, _ | ⟨h2, -⟩⟩
    exact ⟨m, m', rfl, h1, h2⟩
  · rcases h with _ | ⟨_, _ | ⟨_, c⟩⟩
    cases c

theorem isDoubles_of {ti : TypeInformation} {n : Nat} {ds : List Decl} (hp : ∃ more, ds = doubles n ++ more)
    (h : ∀ i (h : i < ds.length), ∃ v, ti.fromId (UInt32.ofNat (i + 1)) = some v ∧ Says ds[i] v ∧
        ti.nameOf (UInt32.ofNat (i + 1)) = nameStr (declName ds[i])) : IsDoubles ti n := by
  obtain ⟨more, rfl⟩ := hp
  refine ⟨?_, fun i hi => ?_⟩
  · obtain ⟨v, hv, hsays, -⟩ := h 0 (by simp [doubles])
    cases v with
    | struct hd d =>
      refine ⟨hd, d, hv, ?_⟩
      obtain ⟨-, -, h⟩ := hsays
      exact List.forall₂_nil_left_iff.1 h
    | _ => exact hsays.elim
  · obtain ⟨v, hv, hsays, -⟩ := h (i + 1) (by simp [doubles]; omega)
    have hd : (doubles n ++ more)[i + 1]'(by simp [doubles]; omega) = double i := by
      rw [List.getElem_append_left (by simp [doubles]; omega)]
      simp [doubles]
    rw [hd] at hsays
    cases v with
    | struct hd d =>
      obtain ⟨-, -, h⟩ := hsays
      obtain ⟨m, m', hl, h1, h2⟩ := two_members h
      exact ⟨hd, d, m, m', hv, hl, member_zero h1, member_zero h2⟩
    | _ => exact hsays.elim

/-- C81: without this condition a lookup may take a number of steps that is exponential in the size of the file: for every
`n` (up to what fits in 4 GiB) there is a file of `38 + 39·n` bytes on which the search for a one-letter name takes
`2^(n+1) - 1` steps, in vain. -/
theorem offset_of_exponential (cfg : Cfg) (n : Nat) (hn : n ≤ 10 ^ 8) : ∃ f : List UInt8, f.length = 38 + 39 * n ∧
    ∀ R, Serves cfg R f → ∃ ti, TypeInformation.new cfg R = .ok ti ∧
      ∀ cfg', OffsetOfTakes cfg' ti (UInt32.ofNat (n + 1)) (str "x") (.err .InvalidTypePath) (2 ^ (n + 1) - 1) := by
  obtain ⟨hs1, hs2⟩ := doubles_sizes n
  refine ⟨encode .little (doubles n), ?_, fun R hS => ?_⟩
  · unfold encode
    rw [fileOf_length, hs1, hs2]
    omega
  obtain ⟨ti, h1, -, h2⟩ := round_trip_lookup (e := .little) (doubles_good n) (by rw [hs1, hs2]; omega) (.inl rfl) hS
    (encode_fits (by rw [hs1, hs2]; omega))
  exact ⟨ti, h1, fun cfg' => ⟨by simp, n + 2, doubles_steps (isDoubles_of ⟨[], by simp⟩ h2) n (Nat.le_refl _)⟩⟩

/-- A struct with an unnamed member of the last of these types, and a member `x`. -/
def withX (n : Nat) : Decl := .struct [] 0 [⟨[], UInt32.ofNat (n + 1), 0, none⟩, ⟨str "x", 1, 0, none⟩]

theorem withX_good (n : Nat) : ∀ d ∈ doubles n ++ [withX n], Good d := by
  intro d hd
  rcases List.mem_append.1 hd with hd | hd
  · exact doubles_good n d hd
  · rw [List.mem_singleton] at hd
    subst hd
    refine ⟨by simp, by simp, fun m hm => ?_⟩
    simp only [List.mem_cons, List.not_mem_nil, or_false] at hm
    rcases hm with rfl | rfl
    · exact ⟨by simp, by simp, by split <;> simp⟩
    · exact ⟨by decide, by simp, by split <;> simp⟩

theorem withX_sizes (n : Nat) : (typeWords (doubles n ++ [withX n])).length = 12 + 9 * n ∧
    (stringTable (doubles n ++ [withX n])).length = 6 + 3 * n := by
  constructor
  · unfold typeWords doubles
    rw [List.flatMap_append, List.length_append, List.flatMap_cons, List.length_append, double_words]
    show 3 + 9 * n + 9 = _
    omega
  · unfold stringTable doubles
    rw [List.flatMap_append, List.flatMap_append, List.flatMap_cons, List.flatMap_append, double_names]
    show (0 :: (([0] ++ List.replicate (3 * n) (0 : UInt8)) ++ [0, 0, 120, 0])).length = _
    simp only [List.length_cons, List.length_append, List.length_replicate, List.length_nil]
    omega

/-- C81: also if the name is found in the end: there is a file of `78 + 39·n` bytes where it takes `2^(n+1) + 1` steps to
find `x`. -/
theorem offset_of_exponential_found (cfg : Cfg) (n : Nat) (hn : n ≤ 10 ^ 8) : ∃ f : List UInt8, f.length = 78 + 39 * n ∧
    ∀ R, Serves cfg R f → ∃ ti, TypeInformation.new cfg R = .ok ti ∧
      ∀ cfg', OffsetOfTakes cfg' ti (UInt32.ofNat (n + 2)) (str "x") (.ok (1, .byteOffset 0)) (2 ^ (n + 1) + 1) := by
  obtain ⟨hs1, hs2⟩ := withX_sizes n
  refine ⟨encode .little (doubles n ++ [withX n]), ?_, fun R hS => ?_⟩
  · unfold encode
    rw [fileOf_length, hs1, hs2]
    omega
  obtain ⟨ti, h1, -, h2⟩ := round_trip_lookup (e := .little) (withX_good n) (by rw [hs1, hs2]; omega) (.inl rfl) hS
    (encode_fits (by rw [hs1, hs2]; omega))
  have hdb := isDoubles_of ⟨_, rfl⟩ h2
  obtain ⟨v, hv, hsays, -⟩ := h2 (n + 1) (by simp [doubles])
  have hd : (doubles n ++ [withX n])[n + 1]'(by simp [doubles]) = withX n := by
    rw [List.getElem_append_right (by simp [doubles])]
    simp [doubles]
  rw [hd] at hsays
  cases v with
  | struct hd d =>
    obtain ⟨-, -, h⟩ := hsays
    obtain ⟨m, m', hl, b1, b2⟩ := two_members h
    obtain ⟨a1, a2, a3⟩ := member_zero b1
    obtain ⟨c1, c2, c3⟩ := member_zero b2
    refine ⟨ti, h1, fun cfg' => ⟨by simp, n + 3, ?_⟩⟩
    have ih := doubles_steps (cfg := cfg') hdb n (Nat.le_refl _)
    unfold offsetOfSteps
    rw [implSteps]
    rcases hn : (PathIter.new (str "x")).next cfg' with ⟨x, path'⟩
    have hx := next_x cfg'
    have hend : (path'.next cfg').1 = .ok none := by
      have : path' = ((PathIter.new (str "x")).next cfg').2 := by rw [hn]
      rw [this]; rfl
    rw [hn] at hx
    simp only [] at hx
    subst hx
    simp only []
    rw [resolve_struct hv (n + 1)]
    have hf : ([m, m'].filter fun m => m.name.isNone) = [m] := by
      have e1 : m.name.isNone = true := by rw [a1]; rfl
      have e2 : m'.name.isNone = false := by rw [c1]; rfl
      simp [e1, e2]
    have hp : probeSteps (fun o u => implSteps cfg' ti (n + 2) o u (PathIter.new (str "x"))) (.byteOffset 0) [m] =
        (.ok none, 2 ^ (n + 1) - 1) := by
      rw [probeSteps, a3, add_zero_zero]
      simp only []
      rw [a2, ih]
      rfl
    have hfind : ([m, m'].find? fun m => m.name = some (str "x")) = some m' := by
      have e1 : m.name ≠ some (str "x") := by rw [a1]; simp [nameStr]
      have e2 : m'.name = some (str "x") := by rw [c1]; decide +kernel
      simp [e1, e2]
    have hlast : implSteps cfg' ti (n + 2) (.byteOffset 0) 1 path' = (.ok (1, .byteOffset 0), 1) := by
      rw [implSteps]
      rcases hn' : path'.next cfg' with ⟨y, path''⟩
      rw [hn'] at hend
      simp only [] at hend
      subst hend
      rfl
    simp only [memberListOf, hl, hf, hp, hfind, c3, add_zero_zero, c2, hlast]
    rw [if_neg (by simp)]
    have h0 : 0 < 2 ^ (n + 1) := Nat.pow_pos (by omega)
    rw [Prod.mk.injEq]
    exact ⟨rfl, by omega⟩
  | _ => exact hsays.elim

namespace Examples

open Samples

/-- `offset_of_steps`, `offset_of_steps_bytes`: `b.next` of type 14 of `zoo`, where `b` is found inside two unnamed
members: five steps, at most `3 * 2 + 1`. -/
example : OffsetOfTakes dbg zoo 14 (str "b.next") (.ok (4, .byteOffset 8)) 5 ∧ ClearNames zoo ∧ Weighs zoo zooWeight ∧
    (∀ t, zooWeight t ≤ 3) ∧ AcceptedPath dbg.usizeMod (str "b.next") [.name (str "b"), .name (str "next")] :=
  ⟨⟨by simp, 10, by decide +kernel⟩, zoo_clear, zoo_weighs, zooWeight_le,
    (yields_iff dbg (utf8Like_str _) _).1 (.tok rfl (.tok rfl (.stop rfl)))⟩

/-- `struct { struct { int a[2]; } s; }`. -/
def plain : TypeInformation where
  idToType := ⟨[(1, .int ⟨.Int, 1, 0, false, 4⟩ ⟨some (str "int"), 4, true, false, false, 0, 32⟩),
    (2, .array ⟨.Array, 0, 0, false, 0⟩ ⟨1, 1, 2⟩),
    (3, .struct ⟨.Struct, 0, 1, false, 8⟩ ⟨none, 8, [⟨5, some (str "a"), 2, .byteOffset 0⟩]⟩),
    (4, .struct ⟨.Struct, 0, 1, false, 8⟩ ⟨none, 8, [⟨7, some (str "s"), 3, .byteOffset 0⟩]⟩)]⟩
  nameToId := ⟨[(str "int", 1)]⟩
  idToName := ⟨[(1, str "int")]⟩

/-- `offset_of_steps_plain`, `offset_of_steps_plain_ok`: all members have names, and `s.a[1]` takes four steps. -/
example : (∀ t v ms, plain.fromId t = some v → membersOf v = some ms → ∀ m ∈ ms, m.name ≠ none) ∧
    OffsetOfTakes dbg plain 4 (str "s.a[1]") (.ok (1, .byteOffset 4)) 4 := by
  refine ⟨fun t v ms hv hm m hmem hn => ?_, ⟨by simp, 10, by decide +kernel⟩⟩
  have h : ((entries plain).all fun e => match membersOf e.2 with
    | some ms => ms.all fun m => m.name.isSome
    | none => true) = true := by decide +kernel
  have h := List.all_eq_true.1 h _ (mem_entries hv)
  simp only [hm] at h
  have h := List.all_eq_true.1 h _ hmem
  rw [hn] at h
  cases h

/-- `offset_of_exponential`: the file with `n = 2`, and the seven steps. -/
example : OffsetOfTakes dbg ((match TypeInformation.new dbg (buffer (encode .little (doubles 2))) with
    | .ok ti => ti
    | _ => TypeInformation.empty)) 3 (str "x") (.err .InvalidTypePath) 7 :=
  ⟨by simp, 5, by decide +kernel⟩

/-- `offset_of_exponential_found`: the file with `n = 2`, and the nine steps. -/
example : OffsetOfTakes dbg ((match TypeInformation.new dbg (buffer (encode .little (doubles 2 ++ [withX 2]))) with
    | .ok ti => ti
    | _ => TypeInformation.empty)) 4 (str "x") (.ok (1, .byteOffset 0)) 9 :=
  ⟨by simp, 6, by decide +kernel⟩

end Examples

end Btf.Props

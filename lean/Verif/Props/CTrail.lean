import Verif.Spec.CTrail
import Verif.Props.CAmong
import Verif.Props.CWalk

/-!
# Property C119: following pointers in any program
-/

namespace Btf.Props

open Btf Spec CTypes TypeInformation

variable {cfg : Cfg} {ti : TypeInformation} {p : Nat}

/-- No pointer can be reached from an object of this type. -/
def DeadEnd (cfg : Cfg) (ti : TypeInformation) (w : UInt32) : Prop :=
  ∀ s u o w₁, OffsetOf cfg ti w (str s) (.ok (u, o)) → ¬ PointeeOf ti u (.ok w₁)

/-- C119: in every file, by whatever compiler: if ids stand for C types (in the sense that the answers for each are those of C), and
the pointers in these types lead to such ids again, or to dead ends, then following pointers leads exactly where it leads in C,
through any number of pointers. -/
theorem trail_any (number : UInt32 → Option CType) (hN : ∀ w S, number w = some S → AnswersFor cfg ti p w S)
    (hclosed : ∀ w S cs x w₁, number w = some S → S.reach p cs = some x → x.type.target = some w₁ →
      number w₁ ≠ none ∨ DeadEnd cfg ti w₁) (ss : List String) : ∀ w w' : UInt32, number w ≠ none ∨ DeadEnd cfg ti w →
    (Walk cfg ti w ss w' ↔
      ∃ css, List.Forall₂ (fun s cs => AcceptedPath cfg.usizeMod (str s) cs) ss css ∧ CTrail p number w css w') := by
  induction ss with
  | nil =>
    intro w w' _
    constructor
    · intro h
      cases h
      exact ⟨[], .nil, .stop⟩
    · rintro ⟨css, h1, h2⟩
      cases h1
      cases h2
      exact .stop
  | cons s ss ih =>
    intro w w' hw'
    constructor
    · intro h
      cases h with
      | @step _ u o w₁ _ _ _ h1 h2 h3 =>
        cases hw : number w with
        | none =>
          rcases hw' with h | h
          · exact absurd hw h
          · exact absurd h2 (h s u o w₁ h1)
        | some S =>
          obtain ⟨-, g, -, -⟩ := hN w S hw
          obtain ⟨cs, hcs⟩ := offset_of_consumes cfg ti w s _ h1
          obtain ⟨g1, g2⟩ := g s cs hcs
          cases hx : S.reach p cs with
          | none => cases (g2 hx _).1 h1
          | some x =>
            obtain ⟨u', o', m1, -, -, -, m2⟩ := g1 x hx
            cases (m1 _).1 h1
            have htar : x.type.target = some w₁ := by
              have := (m2 _).1 h2
              cases ht : x.type.target with
              | none => rw [ht] at this; cases this
              | some w₂ => rw [ht] at this; cases this; rfl
            obtain ⟨css, k1, k2⟩ := (ih w₁ w' (hclosed w S cs x w₁ hw hx htar)).1 h3
            exact ⟨cs :: css, .cons hcs k1, .step hw hx htar k2⟩
    · rintro ⟨css, h1, h2⟩
      cases h1 with
      | @cons _ cs _ css hcs h1 =>
        cases h2 with
        | @step _ w₁ _ S x _ _ hw hx ht h2 =>
          obtain ⟨-, g, -, -⟩ := hN w S hw
          obtain ⟨u, o, m1, -, -, -, m2⟩ := (g s cs hcs).1 x hx
          exact .step ((m1 _).2 rfl) ((m2 _).2 (by rw [ht]; rfl)) ((ih w₁ w' (hclosed w S cs x w₁ hw hx ht)).2 ⟨css, h1, h2⟩)

/-- Ids that do not exist are dead ends, and types that are no pointers and have no members and no elements. -/
theorem leaf_dead {w : UInt32} (h : ti.fromId w = none ∨ ∃ v v', ti.fromId w = some v ∧ aliasOf v = none ∧ ¬ IsPtr v ∧
    Resolves ti w v' ∧ ¬ IsAggregate v') : DeadEnd cfg ti w := by
  intro s u o w₁ h1 h2
  have hptr : PointeeOf ti w (.err .InvalidTypeID) := (pointee_tid_err_iff ti w _).2 ⟨rfl, w, .refl, fun v hv => by
    rcases h with h | ⟨v', -, h, h3, h4, -⟩
    · rw [h] at hv; cases hv
    · rw [h] at hv
      cases hv
      exact ⟨h3, h4⟩⟩
  by_cases hs : s = ""
  · subst hs
    cases (offset_of_empty cfg ti w _).1 h1
    cases (pointeeTid_mono ti w).returns_unique h2 hptr
  · rcases h with h | ⟨v, v', -, -, -, h3, h4⟩
    · obtain ⟨cs, hcs⟩ := offset_of_consumes cfg ti w s _ h1
      have hsearch := (offset_of_search cfg ti w s cs hcs _).1 h1
      cases cs with
      | nil =>
        cases hsearch
        cases (pointeeTid_mono ti w).returns_unique h2 hptr
      | cons c cs => cases search_determined cfg ti true w _ _ _ _ hsearch (.missing .refl h)
    · cases offset_of_deterministic cfg ti w s _ _ h1 (offset_of_scalar cfg ti w v' s hs h3 h4)

theorem self_part : ∀ T : CType, T ∈ T.parts
  | .scalar _ | .pointer _ | .array _ _ | .record _ _ _ _ | .renamed _ _ => by simp [CType.parts]

mutual
/-- What a path leads to is a part. -/
theorem reach_part {p : Nat} : ∀ (T : CType) (cs : List PathComponent) (x : Found), T.reach p cs = some x → x.type ∈ T.parts
  | T, [], x, h => by
    have : x = ⟨T, 0, none⟩ := by
      cases T <;> simp only [CType.reach, Option.some.injEq] at h <;> exact h.symm
    subst this
    exact self_part T
  | .scalar s, c :: cs, x, h => by simp [CType.reach] at h
  | .pointer _, c :: cs, x, h => by simp [CType.reach] at h
  | .array n T, .name y :: cs, x, h => by simp [CType.reach] at h
  | .record u tag s ms, .index i :: cs, x, h => by simp [CType.reach] at h
  | .array n T, .index i :: cs, x, h => by
    rw [CType.reach] at h
    split at h
    · obtain ⟨y, hy, rfl⟩ := Option.map_eq_some_iff.1 h
      rw [CType.parts]
      exact List.mem_append_left _ (reach_part T cs y hy)
    · cases h
  | .record u tag s ms, .name y :: cs, x, h => by
    rw [CType.reach] at h
    rw [CType.parts]
    exact List.mem_append_left _ (reachMembers_part ms y cs x h)
  | .renamed how T, c :: cs, x, h => by
    rw [CType.reach] at h
    rw [CType.parts]
    exact List.mem_append_left _ (reach_part T (c :: cs) x h)

theorem reachMembers_part {p : Nat} : ∀ (ms : CMembers) (y : Str) (cs : List PathComponent) (x : Found),
    ms.reach p y cs = some x → x.type ∈ ms.parts
  | .nil, y, cs, x, h => by simp [CMembers.reach] at h
  | .cons name pos width T rest, y, cs, x, h => by
    rw [reach_cons] at h
    rw [CMembers.parts]
    split at h
    · split at h
      · rename_i z hz
        cases h
        exact List.mem_append_left _ (reach_part T (.name y :: cs) z hz)
      · exact List.mem_append_right _ (reachMembers_part rest y cs x h)
    · split at h
      · cases width with
        | none =>
          obtain ⟨z, hz, rfl⟩ := Option.map_eq_some_iff.1 h
          exact List.mem_append_left _ (reach_part T cs z hz)
        | some w =>
          simp only at h
          split at h
          · cases h
            exact List.mem_append_left _ (self_part T)
          · cases h
      · exact List.mem_append_right _ (reachMembers_part rest y cs x h)
end

mutual
/-- Parts of parts are parts. -/
theorem part_part : ∀ (T S U : CType), S ∈ T.parts → U ∈ S.parts → U ∈ T.parts
  | .scalar s, S, U, h, hU => by
    rw [CType.parts, List.mem_singleton] at h
    exact h ▸ hU
  | .pointer w, S, U, h, hU => by
    rw [CType.parts, List.mem_singleton] at h
    exact h ▸ hU
  | .array n T, S, U, h, hU => by
    rw [CType.parts, List.mem_append, List.mem_singleton] at h
    rcases h with h | rfl
    · rw [CType.parts]
      exact List.mem_append_left _ (part_part T S U h hU)
    · exact hU
  | .record u tag s ms, S, U, h, hU => by
    rw [CType.parts, List.mem_append, List.mem_singleton] at h
    rcases h with h | rfl
    · rw [CType.parts]
      exact List.mem_append_left _ (part_members ms S U h hU)
    · exact hU
  | .renamed how T, S, U, h, hU => by
    rw [CType.parts, List.mem_append, List.mem_singleton] at h
    rcases h with h | rfl
    · rw [CType.parts]
      exact List.mem_append_left _ (part_part T S U h hU)
    · exact hU

theorem part_members : ∀ (ms : CMembers) (S U : CType), S ∈ ms.parts → U ∈ S.parts → U ∈ ms.parts
  | .nil, S, U, h, hU => by simp [CMembers.parts] at h
  | .cons _ _ _ T rest, S, U, h, hU => by
    rw [CMembers.parts, List.mem_append] at h
    rw [CMembers.parts]
    rcases h with h | h
    · exact List.mem_append_left _ (part_part T S U h hU)
    · exact List.mem_append_right _ (part_members rest S U h hU)
end

/-- The pointers of the header lead to types of the header, or to `void`, functions, their prototypes and incomplete types. -/
def TargetsKnown (before : List Decl) (Ts : List CType) (after : List Decl) : Prop :=
  ∀ S ∈ headerParts Ts, ∀ w, S.target = some w → numberAfter before.length Ts w ≠ none ∨ w = 0 ∨
    ∃ i d, (before[i]? = some d ∧ w = UInt32.ofNat (i + 2) ∨
        after[i]? = some d ∧ w = UInt32.ofNat (before.length + (headerParts Ts).length + i + 2)) ∧
      ((∃ name proto, d = .func name proto) ∨ (∃ result ps, d = .funcProto result ps) ∨ ∃ name, d = .fwd name 0)

/-- C119: a header file among any other declarations (C118): if its pointers lead to its own types, to `void`, to functions and their
prototypes, and to incomplete types, then from each of its types one gets exactly where C gets. -/
theorem c_among_walk {R : Readable} {e : Endianness} (hp : p < 2 ^ 29) (before after : List Decl)
    (Ts : List CType) (hT : ∀ T ∈ Ts, T.Proper p ∧ T.Recordable) (hone : OneMeaning Ts)
    (hn : ∀ d ∈ before ++ after, Good d ∧ declName d ≠ str "list_head")
    (he : e = .little ∨ ∀ d ∈ before ++ after, d.isEnum64 = false)
    (hknown : TargetsKnown before Ts after)
    (hsize : 24 + 4 * (typeWords (amongProgram p before Ts after)).length +
      (stringTable (amongProgram p before Ts after)).length < 2 ^ 32)
    (hS : Serves cfg R (encode e (amongProgram p before Ts after)))
    (ht : FitsTarget cfg (encode e (amongProgram p before Ts after))) :
    ∃ ti, TypeInformation.new cfg R = .ok ti ∧
      (∀ S ∈ headerParts Ts, ∀ name : String, S.label = str name → Ident name → str name ≠ str "void" →
        str name ∉ after.map declName → ∃ t S', ti.idOf (str name) = some t ∧ numberAfter before.length Ts t = some S' ∧
          S'.label = str name ∧ S'.core = S.core) ∧
      ∀ t S, numberAfter before.length Ts t = some S → AnswersFor cfg ti p t S ∧
        ∀ ss t', Walk cfg ti t ss t' ↔ ∃ css, List.Forall₂ (fun s cs => AcceptedPath cfg.usizeMod (str s) cs) ss css ∧
          CTrail p (numberAfter before.length Ts) t css t' := by
  have hlen := decodes_length (encode_decodes hsize e (amongProgram_good (p := p) hT fun d h => (hn d h).1))
  rw [List.length_map] at hlen
  have hcount : (amongProgram p before Ts after).length = 1 + before.length + (headerParts Ts).length + after.length := by
    have := congrArg List.length (amongProgram_names p before Ts after)
    simp only [List.length_map, List.length_cons, List.length_append] at this
    omega
  obtain ⟨ti, h1, h2, h3, h4, h5⟩ := c_among (cfg := cfg) (e := e) p hp before after Ts hT hone hn he hsize hS ht
  have hN : ∀ w S, numberAfter before.length Ts w = some S → AnswersFor cfg ti p w S := by
    intro w S h
    rw [numberAfter] at h
    split at h
    · cases h
    · obtain ⟨hi, rfl⟩ := List.getElem?_eq_some_iff.1 h
      have := h3 _ hi
      rwa [show before.length + (w.toNat - (before.length + 2)) + 2 = w.toNat by omega, UInt32.ofNat_toNat] at this
  have hmem : ∀ w S, numberAfter before.length Ts w = some S → S ∈ headerParts Ts := by
    intro w S h
    rw [numberAfter] at h
    split at h
    · cases h
    · exact List.mem_of_getElem? h
  have hvoid : ti.fromId 0 = some .void := by simp [TypeInformation.fromId]
  have hdead : ∀ (d : Decl) (w : UInt32) (v : TypeVariant), ti.fromId w = some v → Says d v →
      ((∃ name proto, d = .func name proto) ∨ (∃ result ps, d = .funcProto result ps) ∨ ∃ name, d = .fwd name 0) →
      DeadEnd cfg ti w := by
    rintro d w v hv hsays (⟨name, proto, rfl⟩ | ⟨result, ps, rfl⟩ | ⟨name, rfl⟩)
    · cases v <;> first | exact hsays.elim | skip
      exact leaf_dead (.inr ⟨_, _, hv, rfl, id, ⟨w, .refl, hv, rfl⟩, id⟩)
    · cases v <;> first | exact hsays.elim | skip
      exact leaf_dead (.inr ⟨_, _, hv, rfl, id, ⟨w, .refl, hv, rfl⟩, id⟩)
    · cases v <;> first | exact hsays.elim | skip
      rename_i h d
      have hd : d = ⟨nameStr name, 0⟩ := hsays
      subst hd
      exact leaf_dead (.inr ⟨_, .void, hv, rfl, id, ⟨0, .step hv rfl .refl, hvoid, rfl⟩, id⟩)
  have hclosed : ∀ w S cs x w₁, numberAfter before.length Ts w = some S → S.reach p cs = some x → x.type.target = some w₁ →
      numberAfter before.length Ts w₁ ≠ none ∨ DeadEnd cfg ti w₁ := by
    intro w S cs x w₁ hw hx htar
    obtain ⟨T, g1, g2⟩ := List.mem_flatMap.1 (hmem w S hw)
    rcases hknown x.type (List.mem_flatMap.2 ⟨T, g1, part_part T S _ g2 (reach_part S cs x hx)⟩) w₁ htar with
      h | rfl | ⟨i, d, ⟨hd, rfl⟩ | ⟨hd, rfl⟩, hkind⟩
    · exact .inl h
    · exact .inr (leaf_dead (.inr ⟨.void, .void, hvoid, rfl, id, ⟨0, .refl, hvoid, rfl⟩, id⟩))
    · obtain ⟨hi, rfl⟩ := List.getElem?_eq_some_iff.1 hd
      obtain ⟨v, k1, k2⟩ := h2 i hi
      exact .inr (hdead _ _ v k1 k2 hkind)
    · obtain ⟨hi, rfl⟩ := List.getElem?_eq_some_iff.1 hd
      obtain ⟨v, k1, k2⟩ := h4 i hi
      exact .inr (hdead _ _ v k1 k2 hkind)
  refine ⟨ti, h1, fun S hS' name hlabel hid hv hno => ?_, fun t S hw => ⟨hN t S hw, fun ss t' =>
    trail_any _ hN hclosed ss t t' (.inl (by rw [hw]; simp))⟩⟩
  obtain ⟨t, g1, -, i, rfl, g3⟩ := (h5 name hid hv).2.1 hno S hS' hlabel
  obtain ⟨S', g4, g5⟩ := Option.map_eq_some_iff.1 g3
  have hi := (List.getElem?_eq_some_iff.1 g4).1
  have hne : S'.label ≠ [] := by
    intro h0
    have := hid.1
    rw [← g5, h0] at this
    cases this
  refine ⟨_, S', g1, ?_, g5, hone _ (List.mem_of_getElem? g4) _ hS' (by rw [g5, hlabel]) hne⟩
  rw [numberAfter, UInt32.toNat_ofNat_of_lt' (by rw [UInt32.size]; omega), if_neg (by omega),
    show before.length + i + 2 - (before.length + 2) = i by omega]
  exact g4

/-! ### Example -/

/-- `struct file; struct task { struct file *file; struct task *parent; };`; 2 is `struct file`, 5 is `struct task`. -/
def taskType : CType :=
  .record false (str "task") 16 (.cons (str "file") 0 none (.pointer 2) (.cons (str "parent") 64 none (.pointer 5) .nil))

theorem task_spelled : str "task" = [116, 97, 115, 107] ∧ str "parent" = [112, 97, 114, 101, 110, 116] := by decide +kernel

theorem task_ident : Ident "task" := by
  refine ⟨?_, by decide +kernel⟩
  rw [task_spelled.1]
  exact .mk _ _ (by simp [NameStart, Letter]) fun c hc => (nameByte_iff c).1
    ((by decide +kernel : ∀ c ∈ ([97, 115, 107] : List UInt8), nameByte c = true) c hc)

theorem task_proper : ∀ T ∈ [taskType], T.Proper 8 ∧ T.Recordable := by
  obtain ⟨h1, h2⟩ := task_spelled
  have h10 := header_spelled.2.2.2.2.2.2.2.2.2
  simp [taskType, CType.Proper, CMembers.Proper, CMembers.names, CType.size, Nat.dvd_iff_mod_eq_zero, CType.Recordable,
    CMembers.Recordable, CMembers.fields, hasBitfield, h1, h2, h10, file_spelled]

theorem task_parts : headerParts [taskType] = [.pointer 2, .pointer 5, taskType] := by
  simp [headerParts, taskType, CType.parts, CMembers.parts]

theorem task_one : OneMeaning [taskType] := by
  intro S hS S' hS' h hne
  rw [task_parts] at hS hS'
  simp only [List.mem_cons, List.not_mem_nil, or_false] at hS hS'
  rcases hS with rfl | rfl | rfl
  · exact absurd rfl hne
  · exact absurd rfl hne
  · rcases hS' with rfl | rfl | rfl
    · exact absurd h hne
    · exact absurd h hne
    · rfl

theorem task_known : TargetsKnown [.fwd (str "file") 0] [taskType] [] := by
  intro S hS w hw
  rw [task_parts] at hS
  simp only [List.mem_cons, List.not_mem_nil, or_false] at hS
  rcases hS with rfl | rfl | rfl
  · cases hw
    exact .inr (.inr ⟨0, _, .inl ⟨rfl, rfl⟩, .inr (.inr ⟨_, rfl⟩)⟩)
  · cases hw
    exact .inl (by simp [numberAfter, task_parts])
  · cases hw

/-- The parent of the parent of .. of a `task` is a `task`; there is nothing behind its `file`. -/
example : ∃ ti t, TypeInformation.new Samples.dbg
      (Samples.buffer (encode .big (amongProgram 8 [.fwd (str "file") 0] [taskType] []))) = .ok ti ∧ ti.idOf (str "task") = some t ∧
    (∀ n t', Walk Samples.dbg ti t (List.replicate n "parent") t' ↔ t' = t) ∧
    Walk Samples.dbg ti t ["parent", "file"] 2 ∧ ∀ s t', ¬ Walk Samples.dbg ti t ["file", s] t' := by
  obtain ⟨h1, h2⟩ := task_spelled
  obtain ⟨ti, g1, g2, g3⟩ := c_among_walk (cfg := Samples.dbg) (e := .big) (p := 8) (by decide) [.fwd (str "file") 0] [] [taskType]
    task_proper task_one (by simp [Good, declName, file_spelled, header_spelled.2.2.2.2.2.2.2.2.2])
    (.inr (by simp [Decl.isEnum64])) task_known (by decide +kernel) (Examples.serves _ (by decide +kernel)) (Examples.fits _)
  obtain ⟨t, S', k1, k2, k3, -⟩ := g2 taskType (by simp [task_parts]) "task" rfl task_ident (by decide +kernel) (by simp)
  have ht : t = 5 ∧ S' = taskType := by
    rw [numberAfter, task_parts] at k2
    split at k2
    · cases k2
    · rename_i hlt
      simp only [List.length_singleton] at hlt k2
      have hi := (List.getElem?_eq_some_iff.1 k2).1
      simp only [List.length_cons, List.length_nil] at hi
      obtain hi | hi | hi : t.toNat - (1 + 2) = 0 ∨ t.toNat - (1 + 2) = 1 ∨ t.toNat - (1 + 2) = 2 := by omega
      · rw [hi] at k2; cases k2; exact absurd k3 (by simp [CType.label, h1])
      · rw [hi] at k2; cases k2; exact absurd k3 (by simp [CType.label, h1])
      · rw [hi] at k2
        exact ⟨UInt32.toNat_inj.1 (show t.toNat = 5 by omega), (Option.some.inj k2).symm⟩
  obtain ⟨rfl, rfl⟩ := ht
  obtain ⟨-, g4⟩ := g3 5 taskType k2
  have hparent : taskType.reach 8 [.name (str "parent")] = some ⟨.pointer 5, 64, none⟩ := by
    simp [taskType, CType.reach, CMembers.reach, Found.shift, h2, file_spelled]
  have hfile : taskType.reach 8 [.name (str "file")] = some ⟨.pointer 2, 0, none⟩ := by
    simp [taskType, CType.reach, CMembers.reach, Found.shift, file_spelled]
  have aparent : AcceptedPath Samples.dbg.usizeMod (str "parent") [.name (str "parent")] :=
    (yields_iff Samples.dbg (utf8Like_str _) _).1 (.tok (by rfl) (.stop rfl))
  have afile : AcceptedPath Samples.dbg.usizeMod (str "file") [.name (str "file")] :=
    (yields_iff Samples.dbg (utf8Like_str _) _).1 (.tok (by rfl) (.stop rfl))
  refine ⟨ti, 5, g1, k1, fun n t' => ?_, ?_, fun s t' h => ?_⟩
  · have hw : Walk Samples.dbg ti 5 (List.replicate n "parent") 5 := by
      refine (g4 _ _).2 ⟨List.replicate n [.name (str "parent")], ?_, ?_⟩
      · induction n with
        | zero => exact .nil
        | succ n ih => exact .cons aparent ih
      · induction n with
        | zero => exact .stop
        | succ n ih => exact .step k2 hparent rfl ih
    exact ⟨fun h => walk_unique h hw, fun h => h ▸ hw⟩
  · exact (g4 _ _).2 ⟨[_, _], .cons aparent (.cons afile .nil), .step k2 hparent rfl (.step k2 hfile rfl .stop)⟩
  · obtain ⟨css, m1, m2⟩ := (g4 _ _).1 h
    cases m1 with
    | @cons _ cs _ css hcs m1 =>
      cases m1 with
      | cons _ m1 =>
        cases m2 with
        | step n1 n2 n3 n4 =>
          rw [k2] at n1
          cases n1
          have : cs = [.name (str "file")] := accepted_unique (utf8Like_str _) hcs afile
          subst this
          rw [hfile] at n2
          cases n2
          cases n3
          cases n4 with
          | step n5 => simp [numberAfter] at n5

end Btf.Props

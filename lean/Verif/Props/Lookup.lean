import Verif.Props.Queries
import Verif.Props.OffsetOf
import Verif.SamplesWF

/-!
# Properties C40–C43, C45, C47, C48, C50: lookup order, composition, containment, bitfields, errors
-/

namespace Btf.Props

open Btf Spec TypeInformation

/-! ### C40: lookup order -/

/-- `o'` is `o` moved by the position of the member offset `m`. -/
def MovedBy (m o o' : Offset) : Prop := bitPos o' = bitPos m + bitPos o ∧ bitWidth o' = bitWidth o

theorem bitWidth_shift (k : Nat) (o : Offset) : bitWidth (shift k o) = bitWidth o := by cases o <;> rfl

theorem bitPos_shift {k : Nat} {o : Offset} (h : 8 * k + bitPos o < 2 ^ 32) : bitPos (shift k o) = 8 * k + bitPos o := by
  cases o with
  | byteOffset x =>
    simp only [bitPos] at h
    show bitPos (byteAt (x.toNat + k)) = _
    rw [bitPos_byteAt (by omega)]
    simp only [bitPos]
    omega
  | bitOffsetAndSize x w =>
    simp only [bitPos] at h
    simp only [shift, bitPos]
    rw [ofNat_toNat_lt (by omega)]
    omega

/-- The value at a member from the value at the start. -/
theorem ev_member {cfg : Cfg} {ti : TypeInformation} (hw : Layout ti) {k : Nat} {u : UInt32}
    (hroom : Room ti k u) {es : List PathComponent} {o : Outcome (UInt32 × Offset)}
    (h : Ev (fun n => impl cfg ti true n (byteAt 0) u es) o) :
    Ev (fun n => impl cfg ti true n (byteAt k) u es) (shiftOut k o) := by
  obtain ⟨N, hN⟩ := h
  refine ⟨N, fun n hn => ?_⟩
  have h1 := impl_shift hw cfg true k n 0 u es (by simpa using hroom)
  have h2 := hN n hn
  simp only [Nat.add_zero] at h1
  beta_reduce at *
  rw [h1, h2]

theorem moved_of_ev {cfg : Cfg} {ti : TypeInformation} (hw : Layout ti) {k : Nat} {u u' : UInt32} {o m : Offset}
    (hroom : Room ti k u) {es : List PathComponent} (hm : bitPos m = 8 * k)
    (h : Ev (fun n => impl cfg ti true n (byteAt 0) u es) (.ok (u', o))) : MovedBy m o (shift k o) := by
  obtain ⟨N, hN⟩ := h
  have := impl_room hw cfg (b := k) (x := 0) (by simpa using hroom) (hN N (Nat.le_refl _))
  exact ⟨by rw [bitPos_shift this, hm], bitWidth_shift k o⟩

theorem anon_not_bitfield {ti : TypeInformation} (hw : Layout ti) {t : UInt32} {v : TypeVariant} {ms : List Member}
    (hr : Resolves ti t v) (hm : membersOf v = some ms) {a : Member} (ha : a ∈ ms) (hn : a.name = none) :
    bitWidth a.offset = none := by
  obtain ⟨x, -, hx, -⟩ := hr
  by_contra h
  exact (hw.bitfields x v ms a hx hm ha (by simpa [IsBitfield, Option.isSome_iff_ne_none] using h)).1 hn

/-- Anonymous members in which the path fails are skipped. -/
theorem skipped {cfg : Cfg} {ti : TypeInformation} (hw : Layout ti) {t : UInt32} {v : TypeVariant} {ms : List Member}
    (hr : Resolves ti t v) (hm : membersOf v = some ms) {p : Str} (hp : Utf8Like p) {es : List PathComponent}
    (ha : AcceptedPath cfg.usizeMod p es) {a : Member} (hmem : a ∈ ms) (hn : a.name = none) {e : ErrorKind}
    (he : OffsetOf cfg ti a.tid p (.err e)) :
    ∃ start e, a.offset.add (byteAt 0) = .ok start ∧ Ev (fun n => impl cfg ti true n start a.tid es) (.err e) := by
  have hb := anon_not_bitfield hw hr hm hmem hn
  obtain ⟨k, hk, hadd, -, hroom⟩ := room_member hw hr hm hmem hb (room_zero hw t)
  simp only [Nat.zero_add] at hadd hroom
  exact ⟨_, e, hadd, ev_member hw hroom ((returns_iff hp ha).1 he).2⟩

/-- C40: the first anonymous member (in declaration order) in which the whole path resolves wins, whatever
other members there are; its answer is moved by the offset of that member. -/
theorem lookup_anonymous (cfg : Cfg) (ti : TypeInformation) (hw : Layout ti) (t : UInt32) (v : TypeVariant)
    (s : String) (name : Str) (cs : List PathComponent) (pre post : List Member) (m : Member)
    (hp : AcceptedPath cfg.usizeMod (str s) (.name name :: cs))
    (hr : Resolves ti t v) (hm : membersOf v = some (pre ++ m :: post)) (hn : m.name = none)
    (hpre : ∀ a ∈ pre, a.name = none → ∃ e, OffsetOf cfg ti a.tid (str s) (.err e))
    (u : UInt32) (o : Offset) (h : OffsetOf cfg ti m.tid (str s) (.ok (u, o))) :
    ∃ o', OffsetOf cfg ti t (str s) (.ok (u, o')) ∧ MovedBy m.offset o o' := by
  have hu := utf8Like_str s
  have hmem : m ∈ pre ++ m :: post := by simp
  have hb := anon_not_bitfield hw hr hm hmem hn
  obtain ⟨k, hk, hadd, -, hroom⟩ := room_member hw hr hm hmem hb (room_zero hw t)
  simp only [Nat.zero_add] at hadd hroom
  have hev := ((returns_iff hu hp).1 h).2
  refine ⟨shift k o, (returns_iff hu hp).2 ⟨by simp, ev_impl_anon hr hm ?_⟩, moved_of_ev hw hroom hk hev⟩
  rw [List.filter_append, List.filter_cons_of_pos (by simp [hn])]
  refine ev_probe_some ?_ hadd (ev_member hw hroom hev)
  intro a ha
  obtain ⟨ha, hna⟩ := List.mem_filter.1 ha
  have hna : a.name = none := by simpa using hna
  obtain ⟨e, he⟩ := hpre a ha hna
  exact skipped hw hr hm hu hp (by simp [ha]) hna he

/-- The anonymous members, when the path fails in all of them. -/
theorem none_anonymous {cfg : Cfg} {ti : TypeInformation} (hw : Layout ti) {t : UInt32} {v : TypeVariant}
    {ms : List Member} (hr : Resolves ti t v) (hm : membersOf v = some ms) {p : Str} (hp : Utf8Like p)
    {es : List PathComponent} (ha : AcceptedPath cfg.usizeMod p es)
    (hanon : ∀ a ∈ ms, a.name = none → ∃ e, OffsetOf cfg ti a.tid p (.err e)) :
    Ev (fun n => probeAnonymous (fun o u => impl cfg ti true n o u es) (byteAt 0)
      (ms.filter (fun m => m.name.isNone))) (.ok none) := by
  apply ev_probe_none
  intro a hmem
  obtain ⟨hmem, hna⟩ := List.mem_filter.1 hmem
  have hna : a.name = none := by simpa using hna
  obtain ⟨e, he⟩ := hanon a hmem hna
  exact skipped hw hr hm hp ha hmem hna he

theorem find_first {pre post : List Member} {m : Member} {name : Str} (hn : m.name = some name)
    (hpre : ∀ a ∈ pre, a.name ≠ some name) :
    (pre ++ m :: post).find? (fun m => m.name = some name) = some m := by
  rw [List.find?_append, List.find?_eq_none.2 (fun a ha => by simpa using hpre a ha)]
  simp [hn]

/-- C40: if the path resolves in no anonymous member, the first member with that name is used and no later
one is tried: the answer — success or failure — is what the rest of the path gives on that member, moved
by its offset. (For members that are not bitfields; `rest` is any spelling of the rest of the path.) -/
theorem lookup_named (cfg : Cfg) (ti : TypeInformation) (hw : Layout ti) (t : UInt32) (v : TypeVariant)
    (s rest : String) (name : Str) (cs : List PathComponent) (pre post : List Member) (m : Member)
    (hp : AcceptedPath cfg.usizeMod (str s) (.name name :: cs)) (hq : AcceptedPath cfg.usizeMod (str rest) cs)
    (hr : Resolves ti t v) (hm : membersOf v = some (pre ++ m :: post))
    (hanon : ∀ a ∈ pre ++ m :: post, a.name = none → ∃ e, OffsetOf cfg ti a.tid (str s) (.err e))
    (hn : m.name = some name) (hpre : ∀ a ∈ pre, a.name ≠ some name) (hb : bitWidth m.offset = none) :
    (∀ u o, OffsetOf cfg ti m.tid (str rest) (.ok (u, o)) →
      ∃ o', OffsetOf cfg ti t (str s) (.ok (u, o')) ∧ MovedBy m.offset o o') ∧
    (∀ e, OffsetOf cfg ti m.tid (str rest) (.err e) → OffsetOf cfg ti t (str s) (.err e)) := by
  have hu := utf8Like_str s
  have hu' := utf8Like_str rest
  have hmem : m ∈ pre ++ m :: post := by simp
  obtain ⟨k, hk, -, hadd, hroom⟩ := room_member hw hr hm hmem hb (room_zero hw t)
  simp only [Nat.zero_add] at hadd hroom
  have hnone := none_anonymous hw hr hm hu hp hanon
  have hfind := find_first (post := post) hn hpre
  constructor
  · intro u o h
    have hev := ((returns_iff hu' hq).1 h).2
    exact ⟨shift k o, (returns_iff hu hp).2 ⟨by simp, ev_impl_named hr hm hnone hfind hadd (ev_member hw hroom hev)⟩,
      moved_of_ev hw hroom hk hev⟩
  · intro e h
    have hev := ((returns_iff hu' hq).1 h).2
    exact (returns_iff hu hp).2 ⟨by simp, ev_impl_named hr hm hnone hfind hadd (ev_member hw hroom hev)⟩

/-- C40: as `lookup_named`, for a bitfield: it is the answer if the path ends there, otherwise the lookup
fails (and no later member is tried). -/
theorem lookup_bitfield (cfg : Cfg) (ti : TypeInformation) (hw : Layout ti) (t : UInt32) (v : TypeVariant)
    (s : String) (name : Str) (cs : List PathComponent) (pre post : List Member) (m : Member)
    (hp : AcceptedPath cfg.usizeMod (str s) (.name name :: cs))
    (hr : Resolves ti t v) (hm : membersOf v = some (pre ++ m :: post))
    (hanon : ∀ a ∈ pre ++ m :: post, a.name = none → ∃ e, OffsetOf cfg ti a.tid (str s) (.err e))
    (hn : m.name = some name) (hpre : ∀ a ∈ pre, a.name ≠ some name) (hb : IsBitfield m.offset) :
    (cs = [] → OffsetOf cfg ti t (str s) (.ok (m.tid, m.offset))) ∧
    (cs ≠ [] → ∀ r, ¬ OffsetOf cfg ti t (str s) (.ok r)) := by
  have hu := utf8Like_str s
  have hmem : m ∈ pre ++ m :: post := by simp
  have hnone := none_anonymous hw hr hm hu hp hanon
  have hfind := find_first (post := post) hn hpre
  obtain ⟨w, hwd⟩ : ∃ w, bitWidth m.offset = some w := by
    cases h : m.offset with
    | byteOffset x => rw [h] at hb; simp [IsBitfield, bitWidth] at hb
    | bitOffsetAndSize x w => exact ⟨w, rfl⟩
  obtain ⟨hlt, hadd⟩ := room_bitfield hw hr hm hmem hwd (room_zero hw t)
  have hsame : Offset.bitOffsetAndSize (UInt32.ofNat (8 * 0 + bitPos m.offset)) w = m.offset := by
    cases h : m.offset with
    | byteOffset x => rw [h] at hwd; cases hwd
    | bitOffsetAndSize x w' => rw [h] at hwd; cases hwd; simp [bitPos]
  rw [hsame] at hadd
  constructor
  · rintro rfl
    exact (returns_iff hu hp).2 ⟨by simp, ev_impl_named hr hm hnone hfind hadd ev_impl_nil⟩
  · intro hne r h
    obtain ⟨N, hN⟩ := ((returns_iff hu hp).1 h).2
    obtain ⟨K, hK⟩ := ev_resolve hr
    obtain ⟨a, hc, ha, -⟩ := hr
    have hsc := (hw.bitfields a v _ m ha hm hmem hb).2
    obtain ⟨c, cs', rfl⟩ := List.exists_cons_of_ne_nil hne
    obtain ⟨M, hM⟩ := hnone
    have h1 := hN (max (max N M) K + 1) (by omega)
    have h2 := hM (max (max N M) K) (by omega)
    have h3 := hK (max (max N M) K) (by omega)
    simp only [] at h1 h2 h3
    rw [impl_succ, h3] at h1
    have hml : memberListOf v = some (pre ++ m :: post) := by rw [memberListOf_eq]; exact hm
    simp only [Res.bind, if_neg (members_ne_void hm), hml, h2, hfind] at h1
    rw [show (byteAt 0).add m.offset = .ok m.offset from hadd] at h1
    exact (impl_scalar cfg hsc _ _ (byteAt 0) c cs').2 r h1

/-- C40: if the path resolves in no anonymous member and no member has the name, the lookup fails with
`InvalidTypePath`. -/
theorem lookup_not_found (cfg : Cfg) (ti : TypeInformation) (hw : Layout ti) (t : UInt32) (v : TypeVariant)
    (s : String) (name : Str) (cs : List PathComponent) (ms : List Member)
    (hp : AcceptedPath cfg.usizeMod (str s) (.name name :: cs))
    (hr : Resolves ti t v) (hm : membersOf v = some ms)
    (hanon : ∀ a ∈ ms, a.name = none → ∃ e, OffsetOf cfg ti a.tid (str s) (.err e))
    (hno : ∀ a ∈ ms, a.name ≠ some name) :
    OffsetOf cfg ti t (str s) (.err .InvalidTypePath) := by
  have hu := utf8Like_str s
  refine (returns_iff hu hp).2 ⟨by simp, ev_impl_not_found hr hm (none_anonymous hw hr hm hu hp hanon) ?_⟩
  exact List.find?_eq_none.2 (fun a ha => by simpa using hno a ha)

section Examples
open Samples

theorem zoo_7 : zoo.fromId 7 = some (.struct ⟨.Struct, 35, 4, false, 80⟩ ⟨some (str "outer"), 80,
    [⟨41, some (str "x"), 1, .byteOffset 0⟩, ⟨0, none, 6, .byteOffset 8⟩, ⟨43, some (str "arr"), 5, .byteOffset 24⟩,
      ⟨47, some (str "head"), 3, .byteOffset 64⟩]⟩) := by decide +kernel

theorem zoo_15 : zoo.fromId 15 = some (.struct ⟨.Struct, 67, 2, true, 8⟩ ⟨some (str "flags"), 8,
    [⟨73, some (str "lo"), 1, .bitOffsetAndSize 3 5⟩, ⟨76, some (str "hi"), 1, .byteOffset 4⟩]⟩) := by decide +kernel

theorem sample_name (cfg : Cfg) (b : UInt8) (h : NameStart b) : AcceptedPath cfg.usizeMod [b] [.name [b]] :=
  .strict (Path.name (rest := []) (.mk b [] h (by simp)) .nil)

theorem sample_ident (cfg : Cfg) (b : UInt8) (rest : Str) (h : 97 ≤ b.toNat ∧ b.toNat ≤ 122)
    (hr : ∀ c ∈ rest, 97 ≤ c.toNat ∧ c.toNat ≤ 122) : Path cfg.usizeMod (b :: rest) [.name (b :: rest)] := by
  have := Path.name (limit := cfg.usizeMod) (rest := []) (cs := []) (IsName.mk b rest
    (.inl (.inr (.inl h))) (fun c hc => .inl (.inr (.inl (hr c hc))))) .nil
  simpa using this

/-- `lookup_anonymous` applies: `a` of `struct outer` is found in its anonymous union, 8 bytes in. -/
example : ∃ o', OffsetOf dbg zoo 7 (str "a") (.ok (1, o')) ∧ MovedBy (.byteOffset 8) (.byteOffset 0) o' :=
  lookup_anonymous dbg zoo zoo_wf.toLayout 7 _ "a" (str "a") [] [⟨41, some (str "x"), 1, .byteOffset 0⟩] _ _
    (sample_name dbg 97 (by simp [NameStart, Letter])) ⟨7, .refl, zoo_7, rfl⟩ rfl rfl (by simp) 1 (.byteOffset 0)
    ⟨by simp, 6, by decide +kernel⟩

/-- `lookup_named` applies: `x` is not in the anonymous union. -/
example : ∃ o', OffsetOf dbg zoo 7 (str "x") (.ok (1, o')) ∧ MovedBy (.byteOffset 0) (.byteOffset 0) o' :=
  (lookup_named dbg zoo zoo_wf.toLayout 7 _ "x" "" (str "x") [] [] _ ⟨41, some (str "x"), 1, .byteOffset 0⟩
    (sample_name dbg 120 (by simp [NameStart, Letter])) (accepted_nil _) ⟨7, .refl, zoo_7, rfl⟩ rfl
    (by
      intro a ha hn
      simp only [List.nil_append, List.mem_cons, List.not_mem_nil, or_false] at ha
      rcases ha with rfl | rfl | rfl | rfl <;> first | (cases hn; done) | skip
      exact ⟨.InvalidTypePath, by simp, 6, by decide +kernel⟩) rfl (by simp) rfl).1 1 (.byteOffset 0)
    ((offset_of_empty _ _ _ _).2 rfl)

/-- `lookup_not_found` applies. -/
example : OffsetOf dbg zoo 15 (str "q") (.err .InvalidTypePath) :=
  lookup_not_found dbg zoo zoo_wf.toLayout 15 _ "q" (str "q") [] _ (sample_name dbg 113 (by simp [NameStart, Letter]))
    ⟨15, .refl, zoo_15, rfl⟩ rfl (by simp) (by simp [str, List.flatMap]; decide)

end Examples

/-! ### C41: unnamed bitfields -/

/-- C60 (so C41 is false): if the first unnamed member of a struct or union is a bitfield, every lookup by name in
it fails with `UnexpectedBitfield`. -/
theorem lookup_blocked (cfg : Cfg) (ti : TypeInformation) (t : UInt32) (v : TypeVariant)
    (s : String) (name : Str) (cs : List PathComponent) (pre post : List Member) (m : Member)
    (hp : AcceptedPath cfg.usizeMod (str s) (.name name :: cs))
    (hr : Resolves ti t v) (hm : membersOf v = some (pre ++ m :: post)) (hn : m.name = none)
    (hpre : ∀ a ∈ pre, a.name ≠ none) (hb : IsBitfield m.offset) (o : Outcome (UInt32 × Offset)) :
    OffsetOf cfg ti t (str s) o ↔ o = .err .UnexpectedBitfield := by
  have hu := utf8Like_str s
  have h : OffsetOf cfg ti t (str s) (.err .UnexpectedBitfield) := by
    refine (returns_iff hu hp).2 ⟨by simp, ev_impl_anon_err hr hm ?_⟩
    rw [List.filter_append, List.filter_cons_of_pos (by simp [hn])]
    refine ev_probe_err (fun a ha => ?_) ?_
    · obtain ⟨ha, hna⟩ := List.mem_filter.1 ha
      exact absurd (by simpa using hna) (hpre a ha)
    · exact (offset_add_err _ _ _).2 (.inl ⟨rfl, hb⟩)
  constructor
  · intro h'; exact offset_of_deterministic cfg ti t s _ _ h' h
  · rintro rfl; exact h

theorem bad_7 : Samples.bad.fromId 7 = some (.struct ⟨.Struct, 26, 3, true, 4⟩ ⟨some (str "bits"), 4,
    [⟨31, some (str "f"), 2, .bitOffsetAndSize 3 5⟩, ⟨0, none, 2, .bitOffsetAndSize 8 8⟩,
      ⟨33, some (str "g"), 2, .byteOffset 2⟩]⟩) := by decide +kernel

/-- C41 is false of `Samples.bad`, type 7 = `struct bits { int f:5; int :8; short g; }`: the member `g`
exists, but cannot be looked up. -/
theorem unnamed_bitfield_refuted (cfg : Cfg) :
    TypeInformation.new Samples.dbg (Samples.buffer (Samples.leFile Samples.badTypes Samples.badStrings)) =
      .ok Samples.bad ∧
    Access Samples.bad 7 [.name (str "g")] 2 16 none ∧
    OffsetOf cfg Samples.bad 7 (str "g") (.err .UnexpectedBitfield) := by
  have hr : Resolves Samples.bad 7 _ := ⟨7, .refl, bad_7, rfl⟩
  refine ⟨Samples.bad_parsed, ?_, ?_⟩
  · exact .member hr rfl (m := ⟨33, some (str "g"), 2, .byteOffset 2⟩) (by simp) rfl rfl .here
  · refine (lookup_blocked cfg Samples.bad 7 _ "g" (str "g") []
      [⟨31, some (str "f"), 2, .bitOffsetAndSize 3 5⟩] [⟨33, some (str "g"), 2, .byteOffset 2⟩] _
      (sample_name cfg 103 (by simp [NameStart, Letter])) hr rfl rfl (by simp) (by simp [IsBitfield, bitWidth]) _).2 rfl

/-! ### C42: paths compose -/

/-- Soundness and completeness for any path that is valid UTF-8. -/
theorem offset_of_iff_path (cfg : Cfg) (ti : TypeInformation) (hw : WellFormed ti) (hu : Unambiguous ti)
    (t u : UInt32) {p : Str} (hp : Utf8Like p) {cs : List PathComponent} (ha : AcceptedPath cfg.usizeMod p cs)
    (o : Offset) : OffsetOf cfg ti t p (.ok (u, o)) ↔ ∃ bits w, Access ti t cs u bits w ∧ Denotes o bits w := by
  constructor
  · intro h
    obtain ⟨N, hN⟩ := ((returns_iff hp ha).1 h).2
    obtain ⟨bits, w, hA, h1, h2⟩ :=
      impl_sound (sizesExact_wf hw.toLayout cfg) (bitWidth_byteAt 0) (hN N (Nat.le_refl _))
    exact ⟨bits, w, hA, by rw [h2]; simp [bitPos, byteAt], h1⟩
  · rintro ⟨bits, w, hA, hD⟩
    obtain ⟨⟨u', o'⟩, hev⟩ := impl_complete hw cfg hA 0 (room_zero hw.toLayout t)
    obtain ⟨N, hN⟩ := hev
    obtain ⟨bits', w', hA', h1, h2⟩ :=
      impl_sound (sizesExact_wf hw.toLayout cfg) (bitWidth_byteAt 0) (hN N (Nat.le_refl _))
    obtain ⟨rfl, rfl, rfl⟩ := access_unique hu hA hA'
    have : o = o' := by
      obtain ⟨h3, h4⟩ := hD
      have h2 : bitPos o' = bits := by rw [h2]; simp [bitPos, byteAt]
      rw [← h1] at h4
      rw [← h2] at h3
      clear hN hA hA' h1
      cases o <;> cases o' <;> simp only [bitPos, bitWidth, Option.some.injEq, reduceCtorEq] at *
      · exact congrArg _ (UInt32.toNat_inj.1 (by omega))
      · rw [h4]; exact congrArg (Offset.bitOffsetAndSize · _) (UInt32.toNat_inj.1 (by omega))
    rw [this]
    exact (returns_iff hp ha).2 ⟨by simp, N, hN⟩

/-- C42: looking up `p` and then `q` from there is the same as looking up `p` followed by `q`: the type is
that of the second lookup and the offsets add up. -/
theorem offset_of_compose (cfg : Cfg) (ti : TypeInformation) (hw : WellFormed ti) (hu : Unambiguous ti)
    (t u v : UInt32) (p q : String) (cs ds : List PathComponent) (o1 o2 : Offset)
    (hp : Path cfg.usizeMod (str p) cs) (hq : Path cfg.usizeMod (str q) ds)
    (h1 : OffsetOf cfg ti t (str p) (.ok (u, o1))) (h2 : OffsetOf cfg ti u (str q) (.ok (v, o2))) :
    ∃ o, OffsetOf cfg ti t (join (str p) (str q)) (.ok (v, o)) ∧ bitPos o = bitPos o1 + bitPos o2 ∧
      bitWidth o = if q = "" then bitWidth o1 else bitWidth o2 := by
  obtain ⟨b1, w1, hA1, hD1⟩ := (offset_of_iff_path cfg ti hw hu t u (utf8Like_str p) (.strict hp) o1).1 h1
  obtain ⟨b2, w2, hA2, hD2⟩ := (offset_of_iff_path cfg ti hw hu u v (utf8Like_str q) (.strict hq) o2).1 h2
  have hj : Utf8Like (join (str p) (str q)) := utf8Like_join (utf8Like_str p) (utf8Like_str q)
  have hjp := path_join hp hq
  by_cases hqe : q = ""
  · subst hqe
    have : ds = [] := by
      have := accepted_unique (cfg := cfg) (utf8Like_str "") (.strict hq) (accepted_nil _)
      exact this
    subst this
    cases hA2
    refine ⟨o1, ?_, by rw [hD2.1]; rfl, by simp⟩
    have : join (str p) (str "") = str p := by
      have : str "" = [] := by decide
      rw [this]
      unfold join
      split
      · rename_i h; exact h.symm
      · rfl
    rw [this]; exact h1
  · have hds : ds ≠ [] := by
      rintro rfl
      exact hqe (str_eq_nil (accepted_empty (.strict hq)))
    cases w1 with
    | none =>
      have hA := access_append hA1 rfl hA2
      obtain ⟨⟨v', o⟩, N, hN⟩ := impl_complete hw cfg hA 0 (room_zero hw.toLayout t)
      have hok : OffsetOf cfg ti t (join (str p) (str q)) (.ok (v', o)) :=
        (returns_iff hj (.strict hjp)).2 ⟨by simp, N, hN⟩
      obtain ⟨b, w, hA', hD⟩ := (offset_of_iff_path cfg ti hw hu t v' hj (.strict hjp) o).1 hok
      obtain ⟨rfl, rfl, rfl⟩ := access_unique hu hA hA'
      exact ⟨o, hok, by rw [hD.1, hD1.1, hD2.1], by rw [if_neg hqe, hD.2, hD2.2]⟩
    | some w =>
      exfalso
      obtain ⟨cs', name, x, vx, ms, m, -, ⟨a, -, ha, -⟩, hm, hmem, -, rfl, hb⟩ := access_bitfield hA1 rfl
      have hsc := (hw.bitfields a vx ms m ha hm hmem (by simp [IsBitfield, hb])).2
      obtain ⟨c, ds', rfl⟩ := List.exists_cons_of_ne_nil hds
      obtain ⟨N, hN⟩ := ((returns_iff (utf8Like_str q) (.strict hq)).1 h2).2
      exact (impl_scalar cfg hsc N (byteAt 0) (byteAt 0) c ds').2 _ (hN N (Nat.le_refl _))

/-- The hypotheses can be met: `head` of `struct outer`, then `next` from there. -/
example : ∃ o, OffsetOf Samples.dbg Samples.zoo 7 (join (str "head") (str "next")) (.ok (4, o)) ∧
    bitPos o = 8 * 64 + 0 ∧ bitWidth o = none :=
  offset_of_compose Samples.dbg Samples.zoo Samples.zoo_wf Samples.zoo_unambiguous 7 3 4 "head" "next" _ _
    (.byteOffset 64) (.byteOffset 0) (sample_ident _ 104 [101, 97, 100] (by decide) (by decide))
    (sample_ident _ 110 [101, 120, 116] (by decide) (by decide))
    ⟨by simp, 8, by decide +kernel⟩ ⟨by simp, 8, by decide +kernel⟩

/-! ### C43: containment -/

/-- C43: what `offset_of` locates lies inside the object it starts from. -/
theorem offset_of_inside (cfg : Cfg) (ti : TypeInformation) (hw : Layout ti) (t u : UInt32) (p : String)
    (o : Offset) (s : Nat) (h : OffsetOf cfg ti t (str p) (.ok (u, o))) (hs : SizeOf cfg ti t (.ok s)) :
    (∀ n, bitWidth o = none → SizeOf cfg ti u (.ok n) → bitPos o + 8 * n ≤ 8 * s) ∧
    (∀ w, bitWidth o = some w → bitPos o + w.toNat ≤ 8 * s) := by
  obtain ⟨cs, ha, N, hN⟩ := accepted_of_ok (utf8Like_str p) h
  obtain ⟨bits, w, hA, h1, h2⟩ := impl_sound (sizesExact_wf hw cfg) (bitWidth_byteAt 0) (hN N (Nat.le_refl _))
  have h2 : bitPos o = bits := by rw [h2]; simp [bitPos, byteAt]
  obtain ⟨-, k, hk⟩ := hs
  obtain ⟨i1, i2⟩ := access_inside hw hA ((sizeOf_wf hw cfg).1 s hk)
  rw [h2]
  constructor
  · rintro n hb ⟨-, k', hk'⟩
    exact i1 n (by rw [← h1, hb]) ((sizeOf_wf hw cfg).1 n hk')
  · intro w' hb
    exact i2 w' (by rw [← h1, hb])

/-- `next` of `head` of `struct outer` ends at or before byte 80. -/
example : 8 * 64 + 8 * 8 ≤ 8 * 80 :=
  (offset_of_inside Samples.dbg Samples.zoo Samples.zoo_wf.toLayout 7 4 "head.next" (.byteOffset 64) 80
    ⟨by simp, 8, by decide +kernel⟩ ⟨by simp, 8, by decide +kernel⟩).1 8 rfl ⟨by simp, 8, by decide +kernel⟩

/-! ### C45: bitfields -/

/-- C45: an answer is a bit offset only if the last part of the path is the name of a bitfield of that
width, and then the type is the one the bitfield is declared with. -/
theorem offset_of_bitfield_last (cfg : Cfg) (ti : TypeInformation) (t u : UInt32) (p : String)
    (b w : UInt32) (hx : cfg.overflowChecks = true ∨ Layout ti)
    (h : OffsetOf cfg ti t (str p) (.ok (u, .bitOffsetAndSize b w))) :
    ∃ cs name x v ms m, AcceptedPath cfg.usizeMod (str p) (cs ++ [.name name]) ∧ Resolves ti x v ∧
      membersOf v = some ms ∧ m ∈ ms ∧ m.name = some name ∧ m.tid = u ∧ bitWidth m.offset = some w := by
  obtain ⟨cs, ha, N, hN⟩ := accepted_of_ok (utf8Like_str p) h
  have hx : SizesExact cfg ti := by
    rcases hx with hx | hx
    · exact sizesExact_checked hx ti
    · exact sizesExact_wf hx cfg
  obtain ⟨bits, w', hA, h1, -⟩ := impl_sound hx (bitWidth_byteAt 0) (hN N (Nat.le_refl _))
  obtain ⟨cs', name, x, v, ms, m, rfl, hr, hm, hmem, hn, ht, hb⟩ := access_bitfield hA (k := w) (by rw [← h1]; rfl)
  exact ⟨cs', name, x, v, ms, m, ha, hr, hm, hmem, hn, ht, hb⟩

/-- C45: nothing can be looked up inside a bitfield: if `p` denotes a bitfield (and nothing else), no
longer path through it succeeds. -/
theorem offset_of_inside_bitfield (cfg : Cfg) (ti : TypeInformation) (hx : cfg.overflowChecks = true ∨ Layout ti)
    (hu : Unambiguous ti) (t u : UInt32) (p q : String) (cs ds : List PathComponent) (b w : UInt32)
    (hp : Path cfg.usizeMod (str p) cs) (hq : Path cfg.usizeMod (str q) ds) (hne : q ≠ "")
    (h : OffsetOf cfg ti t (str p) (.ok (u, .bitOffsetAndSize b w))) (r : UInt32 × Offset) :
    ¬ OffsetOf cfg ti t (join (str p) (str q)) (.ok r) := by
  intro h'
  have hx : SizesExact cfg ti := by
    rcases hx with hx | hx
    · exact sizesExact_checked hx ti
    · exact sizesExact_wf hx cfg
  have hj : Utf8Like (join (str p) (str q)) := utf8Like_join (utf8Like_str p) (utf8Like_str q)
  obtain ⟨N, hN⟩ := ((returns_iff (utf8Like_str p) (.strict hp)).1 h).2
  obtain ⟨M, hM⟩ := ((returns_iff hj (.strict (path_join hp hq))).1 h').2
  obtain ⟨bits, w', hA, h1, -⟩ := impl_sound hx (bitWidth_byteAt 0) (hN N (Nat.le_refl _))
  obtain ⟨bits2, w2, hA2, -, -⟩ := impl_sound hx (bitWidth_byteAt 0) (hM M (Nat.le_refl _))
  have hds : ds ≠ [] := by
    rintro rfl
    exact hne (str_eq_nil (accepted_empty (.strict hq)))
  obtain ⟨u', b1, b2, hA1, -, -⟩ := access_split hA2 rfl hds
  obtain ⟨-, -, h3⟩ := access_unique hu hA hA1
  rw [← h1] at h3
  cases h3

/-- `lo` of `struct flags` is a bitfield, so `lo.x` is nothing. -/
example (r : UInt32 × Offset) : ¬ OffsetOf Samples.dbg Samples.zoo 15 (join (str "lo") (str "x")) (.ok r) :=
  offset_of_inside_bitfield Samples.dbg Samples.zoo (.inl rfl) Samples.zoo_unambiguous 15 1 "lo" "x" _ _ 3 5
    (sample_ident _ 108 [111] (by decide) (by decide)) (sample_ident _ 120 [] (by decide) (by decide))
    (by decide) ⟨by simp, 8, by decide +kernel⟩ r

/-! ### C47: type tags -/

/-- C61: type tags (and typedefs, qualifiers, variables) are transparent to `size_of`. -/
theorem size_of_alias (cfg : Cfg) (ti : TypeInformation) (t u : UInt32) (v : TypeVariant)
    (hv : ti.fromId t = some v) (hu : sizeAlias v = some u) (o : Outcome Nat) :
    SizeOf cfg ti t o ↔ SizeOf cfg ti u o := by
  have hn : ∀ n, TypeInformation.sizeOf cfg ti (n + 1) t = TypeInformation.sizeOf cfg ti n u := by
    intro n
    rw [(sizeOf_follows cfg ti).next n t v u hv (sizeAlias_sizeRef hu).1]
    cases h : TypeInformation.sizeOf cfg ti n u <;> try rfl
    exact (sizeAlias_sizeRef hu).2 cfg _
  constructor
  · rintro ⟨hne, k, hk⟩
    refine ⟨hne, ?_⟩
    cases k with
    | zero => exact absurd hk.symm hne
    | succ k => exact ⟨k, by beta_reduce at *; rw [← hn]; exact hk⟩
  · rintro ⟨hne, k, hk⟩
    exact ⟨hne, k + 1, by beta_reduce at *; rw [hn]; exact hk⟩

/-- C47 (partial): a type tag does not change the answer of `size_of`. Missing: `pointee_tid` and `offset_of`, for
which the claim is false (`type_tag_refuted`, `type_tag_opaque`). -/
theorem type_tag_transparent_partial (cfg : Cfg) (ti : TypeInformation) (t : UInt32) (th : Header) (d : NamedTidData)
    (hv : ti.fromId t = some (.typeTag th d)) (o : Outcome Nat) : SizeOf cfg ti t o ↔ SizeOf cfg ti d.tid o :=
  size_of_alias cfg ti t d.tid _ hv rfl o

/-- C61: what `pointee_tid` and `offset_of` do with a type tag, directly or behind aliases: they do not look
behind it, and fail. -/
theorem type_tag_opaque (cfg : Cfg) (ti : TypeInformation) (t a : UInt32) (th : Header) (d : NamedTidData) (s : String)
    (ha : ti.fromId a = some (.typeTag th d)) :
    (Chain ti aliasOf t a → Returns (fun k => TypeInformation.pointeeTid ti k t) (.err .InvalidTypeID)) ∧
    (Chain ti accessAlias t a → s ≠ "" → OffsetOf cfg ti t (str s) (.err .InvalidTypePath)) := by
  constructor
  · intro hc
    exact (pointee_tid_err_iff ti t _).2 ⟨rfl, a, hc, fun v hv => by rw [ha] at hv; cases hv; exact ⟨rfl, id⟩⟩
  · intro hc hs
    exact offset_of_scalar cfg ti t _ s hs ⟨a, hc, ha, rfl⟩ id

/-- C47 is false: in `Samples.zoo`, 9 is a type tag on `struct outer` (7) and 16 one on `struct list_head *`
(4); `offset_of` finds the member `x` of 7 but not of 9, and `pointee_tid` answers for 4 but not for
16. -/
theorem type_tag_refuted :
    TypeInformation.new Samples.dbg (Samples.buffer (Samples.leFile Samples.zooTypes Samples.zooStrings)) =
      .ok Samples.zoo ∧
    (∃ h d, Samples.zoo.fromId 9 = some (.typeTag h d) ∧ d.tid = 7) ∧
    OffsetOf Samples.dbg Samples.zoo 7 (str "x") (.ok (1, .byteOffset 0)) ∧
    OffsetOf Samples.dbg Samples.zoo 9 (str "x") (.err .InvalidTypePath) ∧
    (∃ h d, Samples.zoo.fromId 16 = some (.typeTag h d) ∧ d.tid = 4) ∧
    Returns (fun k => TypeInformation.pointeeTid Samples.zoo k 4) (.ok 3) ∧
    Returns (fun k => TypeInformation.pointeeTid Samples.zoo k 16) (.err .InvalidTypeID) := by
  refine ⟨Samples.zoo_parsed, ⟨⟨.TypeTag, 52, 0, false, 7⟩, ⟨some (str "tag"), 7⟩, by decide +kernel, rfl⟩,
    ⟨by simp, 6, by decide +kernel⟩, ⟨by simp, 6, by decide +kernel⟩,
    ⟨⟨.TypeTag, 79, 0, false, 4⟩, ⟨some (str "ptag"), 4⟩, by decide +kernel, rfl⟩,
    ⟨by simp, 6, by decide +kernel⟩, ⟨by simp, 6, by decide +kernel⟩⟩

/-! ### C48: errors -/

/-- C48: the only error kinds of `offset_of`. -/
theorem offset_of_error_kinds (cfg : Cfg) (ti : TypeInformation) (t : UInt32) (s : String) (e : ErrorKind)
    (h : OffsetOf cfg ti t (str s) (.err e)) :
    e = .InvalidTypePath ∨ e = .InvalidTypeID ∨ e = .InvalidOffset ∨ e = .UnexpectedBitfield ∨ e = .NotSized := by
  obtain ⟨cs, b, -, -, he⟩ := offsetOf_cases cfg ti t (utf8Like_str s)
  rw [OffsetOf, he] at h
  obtain ⟨-, n, h⟩ := h
  exact impl_err_kind h

theorem sizeOf_release_no_panic {cfg : Cfg} (hc : cfg.overflowChecks = false) {ti : TypeInformation} {k : Nat} :
    ∀ {t : UInt32}, TypeInformation.sizeOf cfg ti k t ≠ .panic := by
  induction k with
  | zero => intro t h; cases h
  | succ k ih =>
    intro t h
    rw [TypeInformation.sizeOf] at h
    split at h <;> first | exact ih h | cases h | skip
    · rcases pointerSize_eq ti with ⟨n, hn, -⟩ | ⟨hn, -⟩ <;> rw [hn] at h <;> cases h
    · change Res.bind _ _ = _ at h
      cases hs : TypeInformation.sizeOf cfg ti k _ with
      | ok n => rw [hs] at h; simp [Res.bind, Cfg.usizeMul, Cfg.wrapOr, hc] at h; split at h <;> cases h
      | panic => exact ih hs
      | err e => rw [hs] at h; cases h
      | nofuel => rw [hs] at h; cases h

/-- C48: `offset_of` panics only where `size_of` does, and only in builds with overflow checks. -/
theorem offset_of_panics (cfg : Cfg) (ti : TypeInformation) (t : UInt32) (s : String)
    (h : OffsetOf cfg ti t (str s) .panic) :
    cfg.overflowChecks = true ∧ ∃ u, SizeOf cfg ti u .panic := by
  obtain ⟨cs, b, -, -, he⟩ := offsetOf_cases cfg ti t (utf8Like_str s)
  rw [OffsetOf, he] at h
  obtain ⟨-, n, h⟩ := h
  obtain ⟨k, u, hk⟩ := impl_panic h
  refine ⟨?_, u, by simp, k, hk⟩
  by_contra hc
  have hc : cfg.overflowChecks = false := by simpa using hc
  exact sizeOf_release_no_panic hc hk

/-! ### C24, C50 at the API -/

/-- C50, C24: `offset_of` only succeeds on paths the grammar accepts: every byte of the path is part of a
component or separator of `cs`, and those components denote the access that is answered. -/
theorem offset_of_consumes (cfg : Cfg) (ti : TypeInformation) (t : UInt32) (s : String) (r : UInt32 × Offset)
    (h : OffsetOf cfg ti t (str s) (.ok r)) : ∃ cs, AcceptedPath cfg.usizeMod (str s) cs :=
  let ⟨cs, hc, _⟩ := accepted_of_ok (utf8Like_str s) h
  ⟨cs, hc⟩

/-- C24: on a path that the grammar does not accept, `offset_of` on an existing graph fails or (for cyclic
graphs, or sizes that overflow) does not return; it never answers. -/
theorem offset_of_rejects (cfg : Cfg) (ti : TypeInformation) (t : UInt32) (s : String)
    (h : ∀ cs, ¬ AcceptedPath cfg.usizeMod (str s) cs) (r : UInt32 × Offset) :
    ¬ OffsetOf cfg ti t (str s) (.ok r) :=
  fun h' => let ⟨cs, hc, _⟩ := accepted_of_ok (utf8Like_str s) h'; h cs hc

/-! ### The hypotheses of `Props/OffsetOf.lean` can be met -/

section Examples
open Samples

example (s : String) : ∃ o, OffsetOf dbg zoo 14 (str s) o := offset_of_terminates_partial dbg zoo zoo_acyclic 14 s

theorem bad_6 : bad.fromId 6 = some (.typedef ⟨.Typedef, 17, 0, false, 99⟩ ⟨some (str "dangling"), 99⟩) := by
  decide +kernel

example : OffsetOf dbg bad 6 (str "x") (.err .InvalidTypeID) :=
  offset_of_missing dbg bad 6 99 "x" _ (sample_x' dbg) (by simp) (.step bad_6 rfl .refl) (by decide +kernel)

example : (5 : UInt32) = 5 ∨ ∃ x v, zoo.fromId x = some v ∧ Mentions v 5 :=
  .inr ((offset_of_no_invention dbg zoo 7 5 "arr" (.byteOffset 24) ⟨by simp, 8, by decide +kernel⟩).resolve_left (by decide))

theorem zoo_5 : Resolves zoo 5 (.array ⟨.Array, 0, 0, false, 0⟩ ⟨1, 1, 10⟩) := ⟨5, .refl, by decide +kernel, rfl⟩

/-- `arr[1]`-style lookups: element 1 of `int[10]` is at byte 4. -/
example : OffsetOf dbg zoo 5 ([91] ++ str "1" ++ [93]) (.ok (1, .byteOffset 4)) :=
  (offset_of_index_ok dbg zoo 5 _ _ "1" 1 zoo_5 (isIndex_1 dbg) 1 (.byteOffset 4)).2
    ⟨by decide, rfl, 4, ⟨by simp, 2, by decide +kernel⟩, by decide, rfl⟩

/-- `offset_of_alias`: `const struct outer` (8) and `struct outer` (7). -/
example (o : Outcome (UInt32 × Offset)) : OffsetOf rel zoo 8 (str "x") o ↔ OffsetOf rel zoo 7 (str "x") o :=
  offset_of_alias rel zoo 8 7 (.const ⟨.Const, 0, 0, false, 7⟩ ⟨7⟩) "x" (by decide) (by decide +kernel) rfl o

/-- `offset_of_pointer`: 11 is `const struct outer * volatile`. -/
example : OffsetOf dbg zoo 11 (str "x") (.err .InvalidTypePath) :=
  (offset_of_pointer dbg zoo 11 (.ptr ⟨.Ptr, 0, 0, false, 8⟩ ⟨8⟩) "x" (by decide)
    ⟨10, .step (v := .volatile ⟨.Volatile, 0, 0, false, 10⟩ ⟨10⟩) (by decide +kernel) rfl .refl, by decide +kernel, rfl⟩
    trivial _).2 rfl

/-- Soundness, completeness and uniqueness: `a` of `struct nest` (14) is inside the anonymous union inside
the anonymous `struct outer`, at byte 8. -/
theorem zoo_access : Access zoo 14 [.name (str "a")] 1 (0 + (64 + (0 + 0))) none := by
  refine .anonymous (v := (zoo.fromId 14).get (by decide +kernel)) (m := ⟨0, none, 7, .byteOffset 0⟩)
    ⟨14, .refl, by decide +kernel, by decide +kernel⟩ (ms := _) rfl (by decide +kernel) rfl rfl ?_
  refine .anonymous (v := (zoo.fromId 7).get (by decide +kernel)) (m := ⟨0, none, 6, .byteOffset 8⟩)
    ⟨7, .refl, by decide +kernel, by decide +kernel⟩ (ms := _) rfl (by decide +kernel) rfl rfl ?_
  exact .member (v := (zoo.fromId 6).get (by decide +kernel)) (m := ⟨31, some (str "a"), 1, .byteOffset 0⟩)
    ⟨6, .refl, by decide +kernel, by decide +kernel⟩ (ms := _) rfl (by decide +kernel) rfl rfl .here

example : ∃ r, OffsetOf rel zoo 14 (str "a") (.ok r) :=
  offset_of_complete rel zoo zoo_wf 14 1 "a" _ _ _ (sample_name rel 97 (by simp [NameStart, Letter])) zoo_access

example : OffsetOf rel zoo 14 (str "a") (.ok (1, .byteOffset 8)) :=
  (offset_of_iff rel zoo zoo_wf zoo_unambiguous 14 1 "a" (.byteOffset 8)).2
    ⟨_, _, _, sample_name rel 97 (by simp [NameStart, Letter]), zoo_access, rfl, rfl⟩

end Examples

end Btf.Props

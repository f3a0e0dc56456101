import Verif.Props.Compose
import Verif.Props.Encode

/-!
# Property C80: declared members are found where they were declared
-/

namespace Btf.Props

open Btf Spec TypeInformation

theorem zero_add_offset (o : Offset) : (byteAt 0).add o = .ok o := by
  cases o with
  | byteOffset b =>
    have h := b.toNat_lt
    simp only [byteAt, Offset.add, u32CheckedAdd, okOr]
    rw [if_pos (by simp; omega)]
    simp [Res.bind, bind, pure]
  | bitOffsetAndSize b w =>
    have h := b.toNat_lt
    simp only [byteAt, Offset.add, u32CheckedAdd, u32CheckedMul, okOr]
    rw [if_pos (by simp)]
    simp only [Res.bind, bind, pure]
    rw [if_pos (by simp; omega)]
    simp

/-- C80: in a struct or union without unnamed members, a name denotes the first member with that name, whatever the
types of the members are; the answer is what the file says about the member, and nothing else. -/
theorem offset_of_member (cfg : Cfg) (ti : TypeInformation) (t : UInt32) (v : TypeVariant)
    (s : String) (name : Str) (pre post : List Member) (m : Member)
    (hp : AcceptedPath cfg.usizeMod (str s) [.name name])
    (hr : Resolves ti t v) (hm : membersOf v = some (pre ++ m :: post))
    (hnamed : ∀ a ∈ pre ++ m :: post, a.name ≠ none)
    (hn : m.name = some name) (hpre : ∀ a ∈ pre, a.name ≠ some name) (o : Outcome (UInt32 × Offset)) :
    OffsetOf cfg ti t (str s) o ↔ o = .ok (m.tid, m.offset) := by
  have key : OffsetOf cfg ti t (str s) (.ok (m.tid, m.offset)) := by
    refine (returns_iff (utf8Like_str s) hp).2 ⟨by simp, ev_impl_named hr hm ?_ (find_first hn hpre) (zero_add_offset _) ev_impl_nil⟩
    have : (pre ++ m :: post).filter (fun m => m.name.isNone) = [] := by
      rw [List.filter_eq_nil_iff]
      intro a ha
      have := hnamed a ha
      cases h : a.name with
      | none => exact absurd h this
      | some x => simp
    rw [this]
    exact ⟨0, fun n _ => rfl⟩
  constructor
  · intro h
    exact offset_of_deterministic cfg ti t s _ _ h key
  · rintro rfl; exact key

/-- C80: and if no member has the name, the lookup fails with `InvalidTypePath`. -/
theorem offset_of_no_member (cfg : Cfg) (ti : TypeInformation) (t : UInt32) (v : TypeVariant)
    (s : String) (name : Str) (cs : List PathComponent) (ms : List Member)
    (hp : AcceptedPath cfg.usizeMod (str s) (.name name :: cs))
    (hr : Resolves ti t v) (hm : membersOf v = some ms)
    (hnamed : ∀ a ∈ ms, a.name ≠ none ∧ a.name ≠ some name) (o : Outcome (UInt32 × Offset)) :
    OffsetOf cfg ti t (str s) o ↔ o = .err .InvalidTypePath := by
  have key : OffsetOf cfg ti t (str s) (.err .InvalidTypePath) := by
    refine (returns_iff (utf8Like_str s) hp).2 ⟨by simp, ev_impl_not_found hr hm ?_
      (List.find?_eq_none.2 (fun a ha => by simpa using (hnamed a ha).2))⟩
    have : ms.filter (fun m => m.name.isNone) = [] := by
      rw [List.filter_eq_nil_iff]
      intro a ha
      have := (hnamed a ha).1
      cases h : a.name with
      | none => exact absurd h this
      | some x => simp
    rw [this]
    exact ⟨0, fun n _ => rfl⟩
  constructor
  · intro h
    exact offset_of_deterministic cfg ti t s _ _ h key
  · rintro rfl; exact key

/-! ### From the declaration to the answer -/

/-- The members of a declared struct or union. -/
def declMembers : Decl → Option (List MemberDecl)
  | .struct _ _ ms => some ms
  | .union _ _ ms => some ms
  | _ => none

/-- An ASCII identifier. -/
def Ident (s : String) : Prop := IsName (str s) ∧ ∀ b ∈ str s, b.toNat < 128

theorem encode_byte : ∀ b : UInt8, (b.toNat < 128 → String.utf8EncodeChar (Char.ofNat b.toNat) = [b]) ∧
    (¬ b.toNat < 128 → ∃ x r, String.utf8EncodeChar (Char.ofNat b.toNat) = x :: r ∧ ¬ x.toNat < 128) := by
  intro b
  have key : ∀ n < 256, (n < 128 → String.utf8EncodeChar (Char.ofNat n) = [UInt8.ofNat n]) ∧
      (¬ n < 128 → ∃ x r, String.utf8EncodeChar (Char.ofNat n) = x :: r ∧ ¬ x.toNat < 128) := by
    intro n hn
    constructor
    · revert n; decide +kernel
    · intro h
      have : ∀ n < 256, ¬ n < 128 → ((String.utf8EncodeChar (Char.ofNat n)).head?.any fun x => ! decide (x.toNat < 128)) = true := by
        decide +kernel
      have := this n hn h
      cases he : String.utf8EncodeChar (Char.ofNat n) with
      | nil => rw [he] at this; cases this
      | cons x r => rw [he] at this; exact ⟨x, r, rfl, by simpa using this⟩
  have := key b.toNat b.toNat_lt
  rwa [UInt8.ofNat_toNat] at this

theorem latin1_ascii : ∀ {bs : List UInt8}, (∀ b ∈ bs, b.toNat < 128) → latin1 bs = bs
  | [], _ => rfl
  | b :: bs, h => by
    rw [latin1_cons, latin1_ascii (fun c hc => h c (by simp [hc])), (encode_byte b).1 (h b (by simp))]
    rfl

theorem latin1_eq_ascii : ∀ {bs cs : List UInt8}, (∀ b ∈ cs, b.toNat < 128) → latin1 bs = cs → bs = cs
  | [], cs, _, h => h
  | b :: bs, cs, hc, h => by
    rw [latin1_cons] at h
    by_cases hb : b.toNat < 128
    · rw [(encode_byte b).1 hb] at h
      subst h
      have := latin1_eq_ascii (bs := bs) (cs := latin1 bs) (fun x hx => hc x (by simp [hx])) rfl
      rw [← this]
      rfl
    · obtain ⟨x, r, h1, h2⟩ := (encode_byte b).2 hb
      rw [h1] at h
      subst h
      exact absurd (hc x (by simp)) h2

theorem nameStr_eq {bs : Name} {s : String} (hs : Ident s) : nameStr bs = some (str s) ↔ bs = str s := by
  unfold nameStr
  by_cases h : bs = []
  · rw [if_pos h, h]
    constructor
    · intro h; cases h
    · intro h
      have := hs.1
      rw [← h] at this
      cases this
  · rw [if_neg h]
    constructor
    · intro h; exact latin1_eq_ascii hs.2 (by simpa using h)
    · rintro rfl; rw [latin1_ascii hs.2]

theorem says_members {d : Decl} {v : TypeVariant} {mds : List MemberDecl} (h : Says d v) (hd : declMembers d = some mds) :
    ∃ ms, membersOf v = some ms ∧ List.Forall₂ SaysMember mds ms ∧ accessAlias v = none := by
  cases d <;> cases hd <;> cases v <;> first | exact h.elim | exact ⟨_, rfl, h.2.2, rfl⟩

theorem forall₂_split {α β : Type} {P : α → β → Prop} : ∀ {xs : List α} {x : α} {ys : List α} {zs : List β},
    List.Forall₂ P (xs ++ x :: ys) zs →
    ∃ us u vs, zs = us ++ u :: vs ∧ List.Forall₂ P xs us ∧ P x u ∧ List.Forall₂ P ys vs
  | [], x, ys, _, .cons h1 h2 => ⟨[], _, _, rfl, .nil, h1, h2⟩
  | w :: xs, x, ys, _, .cons h1 h2 => by
    obtain ⟨us, u, vs, rfl, h3, h4, h5⟩ := forall₂_split h2
    exact ⟨_ :: us, u, vs, rfl, .cons h1 h3, h4, h5⟩

theorem forall₂_mem {α β : Type} {P : α → β → Prop} : ∀ {xs : List α} {ys : List β}, List.Forall₂ P xs ys →
    ∀ y ∈ ys, ∃ x ∈ xs, P x y
  | _, _, .cons h1 h2, y, hy => by
    rcases List.mem_cons.1 hy with rfl | hy
    · exact ⟨_, by simp, h1⟩
    · obtain ⟨x, hx, h⟩ := forall₂_mem h2 y hy
      exact ⟨x, by simp [hx], h⟩

/-- C80: a struct or union that is declared with named members only and written to a BTF file: `offset_of` finds each
member (the first with its name) at the declared position, with the declared type and width. -/
theorem declared_member {cfg cfg' : Cfg} {R : Readable} {e : Endianness} {ds : List Decl} (hg : ∀ d ∈ ds, Good d)
    (hsize : 24 + 4 * (typeWords ds).length + (stringTable ds).length < 2 ^ 32)
    (he : e = .little ∨ ∀ d ∈ ds, d.isEnum64 = false)
    (hS : Serves cfg R (encode e ds)) (ht : FitsTarget cfg (encode e ds)) :
    ∃ ti, TypeInformation.new cfg R = .ok ti ∧
      ∀ i (hi : i < ds.length) ms pre (md : MemberDecl) post (s : String), declMembers ds[i] = some ms →
        (∀ m ∈ ms, m.name ≠ []) → ms = pre ++ md :: post → md.name = str s → Ident s → (∀ m ∈ pre, m.name ≠ str s) →
        ∃ o, bitPos o = md.position ∧ (bitWidth o).map UInt32.toNat = md.width ∧
          ∀ r, OffsetOf cfg' ti (UInt32.ofNat (i + 1)) (str s) r ↔ r = .ok (md.tid, o) := by
  obtain ⟨ti, h1, -, h3⟩ := round_trip_lookup hg hsize he hS ht
  refine ⟨ti, h1, fun i hi ms pre md post s hms hnamed hsplit hname hid hpre => ?_⟩
  obtain ⟨v, hv, hsays, -⟩ := h3 i hi
  obtain ⟨mem, hmem, hall, hal⟩ := says_members hsays hms
  subst hsplit
  have hne : ∀ a ∈ mem, a.name ≠ none := by
    intro a ha
    obtain ⟨x, hx, hsx, -⟩ := forall₂_mem hall a ha
    rw [hsx]
    unfold nameStr
    rw [if_neg (hnamed x hx)]
    simp
  obtain ⟨us, m, vs, rfl, hus, hm, -⟩ := forall₂_split hall
  obtain ⟨m1, m2, m3, m4⟩ := hm
  refine ⟨m.offset, m3, m4, fun r => ?_⟩
  rw [← m2]
  refine offset_of_member cfg' ti _ v s (str s) us vs m ?_ ⟨_, .refl, hv, hal⟩ hmem hne ?_ ?_ r
  · have := Path.name (limit := cfg'.usizeMod) (rest := []) (cs := []) hid.1 .nil
    rw [List.append_nil] at this
    exact .strict this
  · rw [m1]; exact (nameStr_eq hid).2 hname
  · intro a ha h
    obtain ⟨x, hx, hsx, -⟩ := forall₂_mem hus a ha
    rw [hsx] at h
    exact hpre x hx ((nameStr_eq hid).1 h)

/-- The declared size. -/
def declSize : Decl → Option Nat
  | .int _ size .. | .struct _ size _ | .union _ size _ | .enum _ size _ _ | .dataSec _ size _ | .float _ size
  | .enum64 _ size _ _ => some size.toNat
  | _ => none

theorem says_size {d : Decl} {v : TypeVariant} {n : Nat} (h : Says d v) (hd : declSize d = some n) : ownSize v = some n := by
  cases d <;> cases hd <;> cases v <;> first | exact h.elim | skip
  all_goals first | (simp only [Says] at h; subst h; rfl) | (simp only [ownSize]; rw [h.2.1])

/-- C80: `size_of` answers the declared size, and `pointee_tid` the declared pointee. -/
theorem declared_size {cfg cfg' : Cfg} {R : Readable} {e : Endianness} {ds : List Decl} (hg : ∀ d ∈ ds, Good d)
    (hsize : 24 + 4 * (typeWords ds).length + (stringTable ds).length < 2 ^ 32)
    (he : e = .little ∨ ∀ d ∈ ds, d.isEnum64 = false)
    (hS : Serves cfg R (encode e ds)) (ht : FitsTarget cfg (encode e ds)) :
    ∃ ti, TypeInformation.new cfg R = .ok ti ∧
      ∀ i (hi : i < ds.length),
        (∀ n, declSize ds[i] = some n → ∀ r, SizeOf cfg' ti (UInt32.ofNat (i + 1)) r ↔ r = .ok n) ∧
        (∀ tid, ds[i] = .ptr tid → ∀ r, Returns (fun k => pointeeTid ti k (UInt32.ofNat (i + 1))) r ↔ r = .ok tid) := by
  obtain ⟨ti, h1, -, h3⟩ := round_trip_lookup hg hsize he hS ht
  refine ⟨ti, h1, fun i hi => ?_⟩
  obtain ⟨v, hv, hsays, -⟩ := h3 i hi
  constructor
  · intro n hn r
    have hsz := says_size hsays hn
    have key : SizeOf cfg' ti (UInt32.ofNat (i + 1)) (.ok n) := by
      refine ⟨by simp, 1, ?_⟩
      simp only [TypeInformation.sizeOf, hv]
      cases v <;> simp only [ownSize, Option.some.injEq, reduceCtorEq] at hsz <;> subst hsz <;> rfl
    constructor
    · intro h; exact (sizeOf_mono cfg' ti _).returns_unique h key
    · rintro rfl; exact key
  · intro tid hd r
    rw [hd] at hsays
    cases v <;> first | exact hsays.elim | skip
    rename_i hdr d
    have key : Returns (fun k => pointeeTid ti k (UInt32.ofNat (i + 1))) (.ok tid) := by
      refine ⟨by simp, 1, ?_⟩
      simp only [pointeeTid, hv]
      rw [show d = ⟨tid⟩ from hsays]
    constructor
    · intro h; exact (pointeeTid_mono ti _).returns_unique h key
    · rintro rfl; exact key

/-- The same for any file that is read as declared. -/
theorem declared_id_of {ti : TypeInformation} {vs : List TypeVariant} {ds : List Decl} (h2 : Holds ti vs) (h3 : List.Forall₂ Says ds vs)
    (hlen : ds.length < 2 ^ 32 - 1) :
    (∀ i (hi : i < ds.length) (s : String), Ident s → str s ≠ str "void" → declName ds[i] = str s →
      (∀ j (hj : j < ds.length), i < j → declName ds[j] ≠ str s) →
      ti.idOf (str s) = some (UInt32.ofNat (i + 1))) ∧
    (∀ s, Ident s → str s ≠ str "void" → (∀ d ∈ ds, declName d ≠ str s) → ti.idOf (str s) = none) := by
  have hl := h3.length_eq
  have hname : ∀ j (hj : j < ds.length), (typeAt vs (j + 1)).bind typeName = nameStr (declName ds[j]) := by
    intro j hj
    have hv := (List.forall₂_iff_get.1 h3).2 j hj (hl ▸ hj)
    have : typeAt vs (j + 1) = some (vs[j]'(hl ▸ hj)) := by simp [typeAt, hl ▸ hj]
    rw [this]
    exact says_name hv
  refine ⟨?_, ?_⟩
  · intro i hi s hs hsv hd hlast
    have hi' : (UInt32.ofNat (i + 1)).toNat = i + 1 := UInt32.toNat_ofNat_of_lt' (by rw [UInt32.size]; omega)
    rw [h2.idOf_some _ _ hsv, hi']
    refine ⟨by rw [hname i hi]; exact (nameStr_eq hs).2 hd, fun u hu h => ?_⟩
    obtain ⟨j, rfl⟩ : ∃ j, u = j + 1 := ⟨u - 1, by omega⟩
    by_cases hj : j < ds.length
    · rw [hname j hj] at h
      exact hlast j hj (by omega) ((nameStr_eq hs).1 h)
    · have : typeAt vs (j + 1) = none := by simp [typeAt]; omega
      rw [this] at h; cases h
  · intro s hs hsv hno
    rw [h2.idOf_none]
    intro u h
    cases u with
    | zero =>
      have : (typeAt vs 0).bind typeName = some (str "void") := rfl
      rw [this] at h
      exact hsv (by simpa using h.symm)
    | succ j =>
      by_cases hj : j < ds.length
      · rw [hname j hj] at h
        exact hno _ (List.getElem_mem hj) ((nameStr_eq hs).1 h)
      · have : typeAt vs (j + 1) = none := by simp [typeAt]; omega
        rw [this] at h; cases h

/-- C80: `id_of` finds the last declaration with the name. -/
theorem declared_id {cfg : Cfg} {R : Readable} {e : Endianness} {ds : List Decl} (hg : ∀ d ∈ ds, Good d)
    (hsize : 24 + 4 * (typeWords ds).length + (stringTable ds).length < 2 ^ 32)
    (he : e = .little ∨ ∀ d ∈ ds, d.isEnum64 = false)
    (hS : Serves cfg R (encode e ds)) (ht : FitsTarget cfg (encode e ds)) :
    ∃ ti, TypeInformation.new cfg R = .ok ti ∧
      (∀ i (hi : i < ds.length) (s : String), Ident s → str s ≠ str "void" → declName ds[i] = str s →
        (∀ j (hj : j < ds.length), i < j → declName ds[j] ≠ str s) →
        ti.idOf (str s) = some (UInt32.ofNat (i + 1))) ∧
      (∀ s, Ident s → str s ≠ str "void" → (∀ d ∈ ds, declName d ≠ str s) → ti.idOf (str s) = none) := by
  obtain ⟨ti, vs, h1, h2, h3⟩ := round_trip hg hsize he hS ht
  have hlen := decodes_length (encode_decodes hsize e hg)
  rw [List.length_map] at hlen
  obtain ⟨h4, h5⟩ := declared_id_of h2 h3 (by omega)
  exact ⟨ti, h1, h4, h5⟩

/-! ### Examples -/

theorem ident_a : Ident "a" := ⟨.mk 97 [] (.inl (.inr (.inl (by decide)))) (by simp), by decide⟩

/-- The bitfield `a` of the third of `someDecls` has 3 bits, at the beginning. -/
example : ∃ ti, TypeInformation.new Samples.dbg (Samples.buffer (encode .little someDecls)) = .ok ti ∧
    ∃ o, bitPos o = 0 ∧ (bitWidth o).map UInt32.toNat = some 3 ∧
      ∀ r, OffsetOf Samples.rel ti 3 (str "a") r ↔ r = .ok (1, o) := by
  obtain ⟨ti, h1, h2⟩ := declared_member (cfg' := Samples.rel) someDecls_good (by decide +kernel) (.inl rfl)
    (Examples.serves _ (by decide +kernel)) (Examples.fits _)
  exact ⟨ti, h1, h2 2 (by decide) _ [] _ _ "a" rfl (by simp) rfl rfl ident_a (by simp)⟩

/-- It has 12 bytes. -/
example : ∃ ti, TypeInformation.new Samples.dbg (Samples.buffer (encode .little someDecls)) = .ok ti ∧
    ∀ r, SizeOf Samples.rel ti 3 r ↔ r = .ok 12 := by
  obtain ⟨ti, h1, h2⟩ := declared_size (cfg' := Samples.rel) someDecls_good (by decide +kernel) (.inl rfl)
    (Examples.serves _ (by decide +kernel)) (Examples.fits _)
  exact ⟨ti, h1, (h2 2 (by decide)).1 12 rfl⟩

end Btf.Props

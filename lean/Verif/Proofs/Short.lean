import Verif.Spec.Short
import Verif.Proofs.SafeNew
import Verif.Props.Narrow

/-!
# With short sources, 32-bit and 64-bit builds do the same
-/

namespace Btf

open Spec Reader Props

/-- `p` and `q` do the same if the reader is not beyond `A`; what they return is in `Q`, and the reader is not beyond `L`. -/
def Alike {α : Type} (R : Readable) (A L : Nat) (p q : P α) (Q : α → Prop) : Prop :=
  ∀ r, r.readable = R → r.offset ≤ A → p r = q r ∧ (p r).2.readable = R ∧ ∀ a, (p r).1 = .ok a → Q a ∧ (p r).2.offset ≤ L

section
variable {α β : Type} {R : Readable} {A B L : Nat} {cfg cfg' : Cfg} {fh : FileHeader}

theorem Alike.mono {p q : P α} {Q Q' : α → Prop} (h : Alike R A L p q Q) (hQ : ∀ a, Q a → Q' a) : Alike R A L p q Q' :=
  fun r hr ho => ⟨(h r hr ho).1, (h r hr ho).2.1, fun a ha => ⟨hQ a ((h r hr ho).2.2 a ha).1, ((h r hr ho).2.2 a ha).2⟩⟩

theorem Alike.farther {p q : P α} {Q : α → Prop} (h : Alike R A B p q Q) (hB : B ≤ L) : Alike R A L p q Q :=
  fun r hr ho => ⟨(h r hr ho).1, (h r hr ho).2.1, fun a ha => ⟨((h r hr ho).2.2 a ha).1, Nat.le_trans ((h r hr ho).2.2 a ha).2 hB⟩⟩

theorem alike_pure {a : α} {Q : α → Prop} (h : Q a) : Alike R A A (Pure.pure a : P α) (Pure.pure a) Q :=
  fun r hr ho => ⟨rfl, hr, fun b hb => by cases hb; exact ⟨h, ho⟩⟩

theorem alike_lift {o o' : Res LoadReason α} {Q : α → Prop} (h : o = o') (hQ : ∀ a, o = .ok a → Q a) :
    Alike R A A (P.lift o) (P.lift o') Q :=
  fun r hr ho => ⟨by rw [h], hr, fun a ha => ⟨hQ a ha, ho⟩⟩

theorem alike_fail {Q : α → Prop} (k : LoadReason) : Alike R A L (P.fail k : P α) (P.fail k) Q :=
  fun r hr _ => ⟨rfl, hr, fun a ha => by cases ha⟩

theorem alike_getOffset : Alike R A A getOffset getOffset (fun n => n ≤ A) :=
  fun r hr ho => ⟨rfl, hr, fun a ha => by cases ha; exact ⟨ho, ho⟩⟩

theorem alike_getEndianness : Alike R A A getEndianness getEndianness (fun _ => True) :=
  fun r hr ho => ⟨rfl, hr, fun a _ => ⟨trivial, ho⟩⟩

theorem alike_bind {p q : P α} {p' q' : α → P β} {Q : α → Prop} {S : β → Prop} (h : Alike R A B p q Q)
    (h' : ∀ a, Q a → Alike R B L (p' a) (q' a) S) : Alike R A L (p >>= p') (q >>= q') S := by
  intro r hr ho
  obtain ⟨h1, h2, h3⟩ := h r hr ho
  change P.bind p p' r = P.bind q q' r ∧ (P.bind p p' r).2.readable = R ∧ ∀ a, (P.bind p p' r).1 = .ok a → S a ∧ (P.bind p p' r).2.offset ≤ L
  unfold P.bind
  rw [← h1]
  cases hp : p r with
  | mk o r' =>
    rw [hp] at h2 h3
    cases o with
    | ok a => exact h' a (h3 a rfl).1 r' h2 (h3 a rfl).2
    | _ => exact ⟨rfl, h2, fun a ha => by cases ha⟩

theorem alike_ite {c : Prop} [Decidable c] {p q p' q' : P α} {Q : α → Prop} (h : c → Alike R A L p q Q)
    (h' : ¬ c → Alike R A L p' q' Q) : Alike R A L (if c then p else p') (if c then q else q') Q := by
  by_cases hc : c
  · rw [if_pos hc, if_pos hc]; exact h hc
  · rw [if_neg hc, if_neg hc]; exact h' hc

/-- A request, wherever the reader is. -/
theorem read_alike (hR : Short R L) (hL : L < 2 ^ 32) {n : Nat} (hn : 0 < n) {r : Reader} (hr : r.readable = R)
    (ho : r.offset < 2 ^ 32) : Reader.read cfg n r = Reader.read cfg' n r ∧ (Reader.read cfg n r).2.readable = R ∧
      ∀ a, (Reader.read cfg n r).1 = .ok a → (Reader.read cfg n r).2.offset ≤ L := by
  have hu := usizeMod_ge cfg
  have hu' := usizeMod_ge cfg'
  unfold Reader.read
  rw [hr]
  cases h : R.read r.trace r.offset n with
  | error e => exact ⟨rfl, rfl, fun a ha => by cases ha⟩
  | ok b =>
    have := hR _ _ _ _ hn ho h
    simp only []
    rw [usizeAdd_lt (by omega), usizeAdd_lt (by omega)]
    exact ⟨rfl, rfl, fun a _ => this⟩

variable (hR : Short R L) (hL : L + 2 ^ 20 < 2 ^ 32)
include hR hL

theorem alike_read (hA : A < 2 ^ 32) {n : Nat} (hn : 0 < n) :
    Alike R A L (Reader.read cfg n) (Reader.read cfg' n) (fun _ => True) :=
  fun r hr ho => ⟨(read_alike hR (by omega) hn hr (by omega)).1, (read_alike (cfg' := cfg) hR (by omega) hn hr (by omega)).2.1,
    fun a ha => ⟨trivial, (read_alike (cfg' := cfg) hR (by omega) hn hr (by omega)).2.2 a ha⟩⟩

theorem alike_u8 (hA : A < 2 ^ 32) : Alike R A L (u8 cfg) (u8 cfg') (fun _ => True) :=
  alike_bind (alike_read hR hL hA (by decide)) fun _ _ => alike_pure trivial

theorem alike_u32 (hA : A < 2 ^ 32) : Alike R A L (u32 cfg) (u32 cfg') (fun _ => True) :=
  alike_bind (alike_read hR hL hA (by decide)) fun _ _ => alike_bind alike_getEndianness fun _ _ => alike_pure trivial

theorem alike_u64 (hA : A < 2 ^ 32) : Alike R A L (u64 cfg) (u64 cfg') (fun _ => True) :=
  alike_bind (alike_read hR hL hA (by decide)) fun _ _ => alike_bind alike_getEndianness fun _ _ => alike_pure trivial

theorem alike_i32 (hA : A < 2 ^ 32) : Alike R A L (i32 cfg) (i32 cfg') (fun _ => True) :=
  alike_bind (alike_u32 hR hL hA) fun _ _ => alike_pure trivial

theorem alike_i64 (hA : A < 2 ^ 32) : Alike R A L (i64 cfg) (i64 cfg') (fun _ => True) :=
  alike_bind (alike_u64 hR hL hA) fun _ _ => alike_pure trivial

theorem stringLoop_alike (start : UInt32) (stop orig fuel : Nat) : ∀ acc r, r.readable = R → r.offset + 1 < 2 ^ 32 →
    parseStringLoop cfg start stop orig fuel acc r = parseStringLoop cfg' start stop orig fuel acc r ∧
      (parseStringLoop cfg start stop orig fuel acc r).2.readable = R := by
  have hu := usizeMod_ge cfg
  have hu' := usizeMod_ge cfg'
  induction fuel with
  | zero => intro acc r hr _; exact ⟨rfl, hr⟩
  | succ fuel ih =>
    intro acc r hr ho
    rw [parseStringLoop, parseStringLoop]
    beta_reduce
    rw [usizeAdd_lt (by omega), usizeAdd_lt (by omega)]
    simp only []
    split
    · exact ⟨rfl, hr⟩
    · obtain ⟨h1, h2, h3⟩ := alike_u8 (cfg := cfg) (cfg' := cfg') hR hL (by omega) r hr (Nat.le_refl _)
      rw [← h1]
      cases h : u8 cfg r with
      | mk o r' =>
        rw [h] at h2 h3
        cases o with
        | ok b =>
          simp only []
          split
          · exact ⟨rfl, h2⟩
          · exact ih _ r' h2 (by have := (h3 b rfl).2; simp only [] at this; omega)
        | _ => exact ⟨rfl, h2⟩

theorem alike_string (off : UInt32) : Alike R L L (parseString cfg fh off) (parseString cfg' fh off) (fun _ => True) := by
  unfold parseString
  refine alike_bind (alike_lift (Q := fun _ => True) rfl fun _ _ => trivial) fun ss _ =>
    alike_bind (alike_lift (Q := fun _ => True) rfl fun _ _ => trivial) fun se _ =>
    alike_bind (alike_lift (Q := fun _ => True) rfl fun _ _ => trivial) fun st _ =>
    alike_ite (fun _ => alike_fail _) fun hlt => ?_
  intro r hr ho
  have hlt' : st.toNat < se.toNat := by
    have : ¬ se ≤ st := hlt
    rw [UInt32.le_iff_toNat_le] at this; omega
  have := se.toNat_lt
  obtain ⟨h1, h2⟩ := stringLoop_alike (cfg := cfg) (cfg' := cfg') hR hL st se.toNat r.offset (se.toNat - st.toNat + 1) []
    { r with offset := st.toNat } hr (by simp only []; omega)
  change P.bind (parseStringLoop cfg st se.toNat r.offset (se.toNat - st.toNat + 1) []) _ _ =
    P.bind (parseStringLoop cfg' st se.toNat r.offset (se.toNat - st.toNat + 1) []) _ _ ∧
    (P.bind (parseStringLoop cfg st se.toNat r.offset (se.toNat - st.toNat + 1) []) _ _).2.readable = R ∧
    ∀ a, (P.bind (parseStringLoop cfg st se.toNat r.offset (se.toNat - st.toNat + 1) []) _ _).1 = .ok a → True ∧
      (P.bind (parseStringLoop cfg st se.toNat r.offset (se.toNat - st.toNat + 1) []) _ _).2.offset ≤ L
  unfold P.bind
  rw [← h1]
  cases h : parseStringLoop cfg st se.toNat r.offset (se.toNat - st.toNat + 1) [] { r with offset := st.toNat } with
  | mk o r' =>
    rw [h] at h2
    cases o with
    | ok s => exact ⟨rfl, h2, fun _ _ => ⟨trivial, ho⟩⟩
    | _ => exact ⟨rfl, h2, fun a ha => by cases ha⟩

theorem alike_name (off : UInt32) : Alike R L L (parseName cfg fh off) (parseName cfg' fh off) (fun _ => True) := by
  unfold parseName
  exact alike_ite (fun _ => alike_bind (alike_string hR hL _) fun _ _ => alike_pure trivial) fun _ => alike_pure trivial

omit hR hL in
theorem alike_repeat {p q : P α} (h : Alike R L L p q (fun _ => True)) (n : Nat) :
    Alike R L L (repeatP p n) (repeatP q n) (fun _ => True) := by
  induction n with
  | zero => exact alike_pure trivial
  | succ n ih => exact alike_bind h fun _ _ => alike_bind ih fun _ _ => alike_pure trivial

variable (hb : cfg.overflowChecks = cfg'.overflowChecks)
include hb

omit hR hL in
theorem u32Add_alike {ε : Type} (a b : UInt32) : cfg.u32Add (ε := ε) a b = cfg'.u32Add a b := by
  unfold Cfg.u32Add Cfg.wrapOr
  rw [hb]

omit hR in
theorem alike_checkExtra {th : Header} (hv : th.vlen < 2 ^ 16) {k : Kind} :
    Alike R L L (checkExtra cfg fh k th) (checkExtra cfg' fh k th) (fun _ => True) := by
  have hu := usizeMod_ge cfg
  have hu' := usizeMod_ge cfg'
  unfold checkExtra
  refine alike_ite (fun _ => alike_fail _) fun hk => ?_
  obtain rfl := not_not.1 hk
  have hsz := boundedSize_le (k := th.kind) hv
  refine alike_bind (Q := fun n => n < 2 ^ 20) (alike_lift ?_ ?_) fun n hn => ?_
  · rw [extraSize_eq hv (by omega), extraSize_eq hv (by omega)]
  · intro a ha
    rw [extraSize_eq hv (by omega)] at ha
    cases ha
    exact hsz
  refine alike_ite (fun _ => ?_) fun _ => alike_pure trivial
  refine alike_bind (alike_lift (Q := fun _ => True) (u32Add_alike hb _ _) fun _ _ => trivial) fun _ _ =>
    alike_bind (alike_lift (Q := fun _ => True) (u32Add_alike hb _ _) fun _ _ => trivial) fun _ _ =>
    alike_bind alike_getOffset fun o ho => alike_ite (fun _ => alike_fail _) fun _ =>
    alike_bind (alike_lift (Q := fun _ => True) ?_ fun _ _ => trivial) fun _ _ =>
    alike_ite (fun _ => alike_fail _) fun _ => alike_pure trivial
  rw [usizeAdd_lt (by omega), usizeAdd_lt (by omega)]

theorem alike_parseType {th : Header} (hv : th.vlen < 2 ^ 16) :
    Alike R L L (parseType cfg fh th) (parseType cfg' fh th) (fun _ => True) := by
  have hdef : ∀ {D : Type} {k : Kind} {d d' : P D} {mk : Header → D → TypeVariant}, Alike R L L d d' (fun _ => True) →
      Alike R L L (defineTypeNew cfg fh k th d mk) (defineTypeNew cfg' fh k th d' mk) (fun _ => True) := fun h =>
    alike_bind (alike_checkExtra hL hb hv) fun _ _ => alike_bind h fun _ _ => alike_pure trivial
  have h32 := alike_u32 (A := L) (cfg := cfg) (cfg' := cfg') hR hL (by omega)
  have hname : ∀ off, Alike R L L (parseName cfg fh off) (parseName cfg' fh off) (fun _ => True) := fun off => alike_name hR hL off
  have hstr : ∀ off, Alike R L L (parseString cfg fh off) (parseString cfg' fh off) (fun _ => True) := fun off => alike_string hR hL off
  have hmember : ∀ kf, Alike R L L (Member.parse cfg fh kf) (Member.parse cfg' fh kf) (fun _ => True) := fun kf =>
    alike_bind h32 fun _ _ => alike_bind h32 fun _ _ => alike_bind h32 fun _ _ => alike_bind (hname _) fun _ _ =>
      alike_bind (alike_lift (Q := fun _ => True) rfl fun _ _ => trivial) fun _ _ => alike_pure trivial
  have hstruct : Alike R L L (StructData.new cfg fh th) (StructData.new cfg' fh th) (fun _ => True) :=
    alike_bind (alike_repeat (hmember _) _) fun _ _ => alike_bind (hname _) fun _ _ => alike_pure trivial
  have hnamed : Alike R L L (NamedTidData.new cfg fh th) (NamedTidData.new cfg' fh th) (fun _ => True) :=
    alike_bind (hname _) fun _ _ => alike_pure trivial
  have htid : Alike R L L (TidData.new th) (TidData.new th) (fun _ => True) := alike_pure trivial
  have henum : ∀ s, Alike R L L (NamedValue32.parse cfg fh s) (NamedValue32.parse cfg' fh s) (fun _ => True) := by
    intro s
    refine alike_bind h32 fun _ _ => alike_bind (hstr _) fun _ _ => ?_
    cases s
    · exact alike_bind h32 fun _ _ => alike_pure trivial
    · exact alike_bind (alike_i32 hR hL (by omega)) fun _ _ => alike_pure trivial
  have henum64 : ∀ s, Alike R L L (NamedValue64.parse cfg fh s) (NamedValue64.parse cfg' fh s) (fun _ => True) := by
    intro s
    refine alike_bind h32 fun _ _ => alike_bind (hstr _) fun _ _ => ?_
    cases s
    · exact alike_bind (alike_u64 hR hL (by omega)) fun _ _ => alike_pure trivial
    · exact alike_bind (alike_i64 hR hL (by omega)) fun _ _ => alike_pure trivial
  have hvar : Alike R L L (Variable.parse cfg) (Variable.parse cfg') (fun _ => True) :=
    alike_bind h32 fun _ _ => alike_bind h32 fun _ _ => alike_bind h32 fun _ _ => alike_pure trivial
  have hparam : Alike R L L (Parameter.parse cfg fh) (Parameter.parse cfg' fh) (fun _ => True) :=
    alike_bind h32 fun _ _ => alike_bind h32 fun _ _ => alike_bind (hname _) fun _ _ => alike_pure trivial
  unfold parseType
  split
  · exact hdef (alike_bind h32 fun _ _ => alike_bind (hname _) fun _ _ => alike_pure trivial)
  · exact hdef hnamed
  · exact hdef (alike_bind (alike_repeat (henum _) _) fun _ _ => alike_bind (hname _) fun _ _ => alike_pure trivial)
  · exact hdef htid
  · exact hdef htid
  · exact hdef htid
  · exact hdef (alike_bind h32 fun _ _ => alike_bind h32 fun _ _ => alike_bind h32 fun _ _ => alike_pure trivial)
  · exact hdef (alike_bind (alike_repeat hparam _) fun _ _ => alike_pure trivial)
  · exact hdef hstruct
  · exact hdef hstruct
  · exact hdef hnamed
  · exact hdef (alike_bind h32 fun _ _ => alike_bind (hname _) fun _ _ => alike_pure trivial)
  · exact hdef (alike_bind (alike_repeat (henum64 _) _) fun _ _ => alike_bind (hname _) fun _ _ => alike_pure trivial)
  · exact hdef (alike_bind (hname _) fun _ _ => alike_pure trivial)
  · exact hdef (alike_bind (hname _) fun _ _ => alike_pure trivial)
  · exact hdef htid
  · exact hdef (alike_bind (alike_repeat hvar _) fun _ _ => alike_bind (hname _) fun _ _ => alike_pure trivial)
  · exact hdef hnamed
  · exact hdef (alike_bind h32 fun _ _ => alike_bind (hname _) fun _ _ => alike_pure trivial)

omit hb in
theorem alike_header (hA : A + 12 < 2 ^ 32) :
    Alike R A L (Header.new cfg fh) (Header.new cfg' fh) (fun th => th.vlen < 2 ^ 16) := by
  have hu := usizeMod_ge cfg
  have hu' := usizeMod_ge cfg'
  unfold Header.new
  refine alike_bind (alike_lift (Q := fun _ => True) rfl fun _ _ => trivial) fun s _ =>
    alike_bind (alike_lift (Q := fun _ => True) rfl fun _ _ => trivial) fun t _ =>
    alike_bind alike_getOffset fun o ho =>
    alike_bind (alike_lift (Q := fun _ => True) ?_ fun _ _ => trivial) fun n _ =>
    alike_ite (fun _ => alike_fail _) fun _ =>
    alike_bind (B := L) (alike_u32 hR hL (by omega)) fun w _ => alike_bind (B := L) (alike_u32 hR hL (by omega)) fun info _ =>
    alike_bind (alike_lift (Q := fun _ => True) rfl fun _ _ => trivial) fun k _ =>
    alike_bind (alike_u32 hR hL (by omega)) fun sz _ => alike_pure ?_
  · rw [usizeAdd_lt (by unfold TYPE_HEADER_SIZE; omega), usizeAdd_lt (by unfold TYPE_HEADER_SIZE; omega)]
  · simp only []
    rw [info_vlen]
    exact Nat.mod_lt _ (by decide)

theorem alike_loop (stop fuel : Nat) : ∀ A tid ti, A + 12 < 2 ^ 32 →
    Alike R A (max A L) (parseLoop cfg fh stop fuel tid ti) (parseLoop cfg' fh stop fuel tid ti) (fun _ => True) := by
  induction fuel with
  | zero => intro A tid ti _ r hr _; exact ⟨rfl, hr, fun a ha => by cases ha⟩
  | succ fuel ih =>
    intro A tid ti hA
    rw [parseLoop, parseLoop]
    refine alike_bind alike_getOffset fun o _ => alike_ite (fun _ => ?_) fun _ => (alike_pure trivial).farther (by omega)
    refine alike_bind (B := L) (alike_header hR hL hA) fun th hv => alike_bind (alike_parseType hR hL hb hv) fun t _ =>
      alike_bind (alike_lift (Q := fun _ => True) (u32Add_alike hb _ _) fun _ _ => trivial) fun tid' _ => ?_
    exact (ih L _ _ (by omega)).farther (by omega)

end

section
variable {R : Readable} {L : Nat} {cfg cfg' : Cfg} {fh : FileHeader}

theorem alike_fileHeader (hR : Short R L) (hL : L + 2 ^ 20 < 2 ^ 32) :
    Alike R 0 L (FileHeader.new cfg) (FileHeader.new cfg') (fun _ => True) := by
  have hend : ∀ e, Alike R L L (setEndianness e) (setEndianness e) (fun _ => True) :=
    fun e r hr ho => ⟨rfl, hr, fun _ _ => ⟨trivial, ho⟩⟩
  have h32 := alike_u32 (A := L) (cfg := cfg) (cfg' := cfg') hR hL (by omega)
  have h8 := alike_u8 (A := L) (cfg := cfg) (cfg' := cfg') hR hL (by omega)
  unfold FileHeader.new FileHeader.detectEndianness
  refine alike_bind (B := 0) (Q := fun _ => True) (fun r hr _ => ⟨rfl, hr, fun _ _ => ⟨trivial, Nat.le_refl _⟩⟩) fun _ _ => ?_
  refine alike_bind (B := L) (Q := fun _ => True) (alike_bind (B := L) (Q := fun _ => True) ?_ fun m _ => ?_) fun _ _ =>
    alike_bind h8 fun _ _ => alike_bind h8 fun _ _ => alike_bind h32 fun _ _ => alike_bind h32 fun _ _ =>
    alike_bind h32 fun _ _ => alike_bind h32 fun _ _ => alike_bind h32 fun _ _ => alike_pure trivial
  · exact alike_bind (B := L) (alike_read hR hL (by decide) (by decide)) fun _ _ => alike_bind alike_getEndianness fun _ _ =>
      alike_pure trivial
  · exact alike_ite (fun _ => hend _) fun _ => alike_ite (fun _ => hend _) fun _ => alike_fail _

end

/-! ### The type section is at the end of the address space -/

section
variable {R : Readable} {L : Nat} {fh : FileHeader} {r : Reader} {n : Nat} {tid : UInt32} {ti : TypeInformation}

theorem loop_header {cfg : Cfg} {stop : Nat} (h : r.offset < stop) :
    parseLoop cfg fh stop (n + 1) tid ti r = (Header.new cfg fh >>= fun th => parseType cfg fh th >>= fun t =>
      P.lift (cfg.u32Add tid 1) >>= fun tid' => parseLoop cfg fh stop n tid' (ti.register tid t)) r := by
  rw [parseLoop]
  change P.bind getOffset _ _ = _
  unfold P.bind getOffset
  simp only []
  rw [if_pos h]

theorem header_start {cfg : Cfg} (hE : typeEnd fh < 2 ^ 32) (hr : r.offset = typeStart fh) :
    ∃ t : UInt32, t.toNat = typeEnd fh ∧ Header.new cfg fh r = (P.lift (cfg.usizeAdd (typeStart fh) 12) >>= fun headerEnd =>
      if headerEnd > t.toNat then P.fail .typeSectionOffset else do
        let nameOffset ← u32 cfg
        let infoFlags ← u32 cfg
        let vlen := (infoFlags &&& 0xFFFF).toNat
        let kind ← P.lift (Kind.new ((infoFlags &&& 0x1F000000) >>> 24))
        let kindFlag := (infoFlags &&& 0x80000000) != 0
        let sizeOrType ← u32 cfg
        return { kind, nameOffset, vlen, kindFlag, sizeOrType }) r := by
  obtain ⟨s, t, h1, h2, h1', h2'⟩ := section_ok hE
  refine ⟨t, h2', ?_⟩
  unfold Header.new
  rw [h1]
  change P.bind (P.lift (okOr (u32CheckedAdd s fh.typeLen) .typeSectionEnd)) _ _ = _
  rw [h2]
  change (P.lift (cfg.usizeAdd r.offset TYPE_HEADER_SIZE) >>= _) r = _
  rw [hr]
  rfl

/-- With overflow checks. -/
theorem end_panics (h : AtTheEnd fh) (hr : r.offset = typeStart fh) :
    (parseLoop ⟨.w32, true⟩ fh (typeEnd fh) (n + 1) tid ti r).1 = .panic := by
  rw [loop_header (by rw [hr]; exact h.1)]
  obtain ⟨t, ht, he⟩ := header_start (cfg := ⟨.w32, true⟩) h.2.1 hr
  have hp : Cfg.usizeAdd (ε := LoadReason) ⟨.w32, true⟩ (typeStart fh) 12 = .panic := by
    unfold Cfg.usizeAdd Cfg.wrapOr
    rw [if_neg (by rw [usizeMod_w32]; have := h.2.2; omega)]
    rfl
  change (P.bind (Header.new _ fh) _ r).1 = _
  unfold P.bind
  rw [he, hp]
  rfl

/-- Without overflow checks: the first word of the record is requested, in vain. -/
theorem end_fails (hR : Short R L) (hL : L + 2 ^ 20 < 2 ^ 32) (h : AtTheEnd fh) (hr : r.offset = typeStart fh)
    (hr' : r.readable = R) : ∃ x, R.read r.trace (typeStart fh) 4 = .error x ∧
      parseLoop ⟨.w32, false⟩ fh (typeEnd fh) (n + 1) tid ti r =
        (.err (.source x), { r with trace := ⟨typeStart fh, 4, some x⟩ :: r.trace }) := by
  rw [loop_header (by rw [hr]; exact h.1)]
  obtain ⟨t, ht, he⟩ := header_start (cfg := ⟨.w32, false⟩) h.2.1 hr
  obtain ⟨h1, h2, h3⟩ := h
  have hp : Cfg.usizeAdd (ε := LoadReason) ⟨.w32, false⟩ (typeStart fh) 12 = .ok ((typeStart fh + 12) % 2 ^ 32) := by
    unfold Cfg.usizeAdd Cfg.wrapOr
    rw [if_neg (by rw [usizeMod_w32]; omega)]
    rfl
  cases hx : R.read r.trace (typeStart fh) 4 with
  | ok b => have := hR _ _ _ _ (by decide) (by omega) hx; omega
  | error x =>
    refine ⟨x, rfl, ?_⟩
    have hread : read ⟨.w32, false⟩ 4 r = (.err (.source x), { r with trace := ⟨typeStart fh, 4, some x⟩ :: r.trace }) := by
      unfold Reader.read
      rw [hr', hr, hx]
    have h32 : u32 ⟨.w32, false⟩ r = (.err (.source x), { r with trace := ⟨typeStart fh, 4, some x⟩ :: r.trace }) := by
      change P.bind (read _ 4) _ r = _
      unfold P.bind
      rw [hread]
    have hH : Header.new ⟨.w32, false⟩ fh r = (.err (.source x), { r with trace := ⟨typeStart fh, 4, some x⟩ :: r.trace }) := by
      rw [he, hp]
      change P.bind (P.lift _) _ r = _
      unfold P.bind P.lift
      simp only []
      rw [if_neg (by omega)]
      change P.bind (u32 _) _ r = _
      unfold P.bind
      rw [h32]
    change P.bind (Header.new _ fh) _ r = _
    unfold P.bind
    rw [hH]

/-- On 64-bit targets the record does not fit in the section. -/
theorem end_outside {b : Bool} (h : AtTheEnd fh) (hr : r.offset = typeStart fh) :
    parseLoop ⟨.w64, b⟩ fh (typeEnd fh) (n + 1) tid ti r = (.err .typeSectionOffset, r) := by
  rw [loop_header (by rw [hr]; exact h.1)]
  obtain ⟨t, ht, he⟩ := header_start (cfg := ⟨.w64, b⟩) h.2.1 hr
  obtain ⟨h1, h2, h3⟩ := h
  have hp : Cfg.usizeAdd (ε := LoadReason) ⟨.w64, b⟩ (typeStart fh) 12 = .ok (typeStart fh + 12) :=
    usizeAdd_lt (by rw [usizeMod_w64]; omega)
  have hH : Header.new ⟨.w64, b⟩ fh r = (.err .typeSectionOffset, r) := by
    rw [he, hp]
    change P.bind (P.lift _) _ r = _
    unfold P.bind P.lift
    simp only []
    rw [if_pos (by omega)]
    rfl
  change P.bind (Header.new _ fh) _ r = _
  unfold P.bind
  rw [hH]

end

end Btf

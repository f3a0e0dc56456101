import Verif.Proofs.SafeNew
import Verif.Proofs.RequestCount
import Verif.Spec.Changing

/-!
# Two sources that give the same answers in the type section

`Sim f p p'`: if `p` succeeds with `a` on `R`, then `p'` succeeds with `f a` on `R'`, which serves a file that contains all that
`R` has answered to the requests that are not for names; the string section of the file is full of zeros.
-/

namespace Btf

open Spec Reader

/-- What the two sources have to do with each other. -/
structure Blanked (cfg : Cfg) (fh : FileHeader) (R' : Readable) (file : List UInt8) : Prop where
  serves : Serves cfg R' file
  short : file.length ≤ cfg.usizeMod
  names : ∀ i, InStrings fh i → file[i]? = some 0

/-- The file contains the answers to the requests in `new`, made after `old`, that are not for names. -/
def Contains (fh : FileHeader) (R : Readable) (file : List UInt8) (new old : List ReadEvent) : Prop :=
  ∀ later ev earlier b, new = later ++ ev :: earlier → ¬ ForName fh ev → R.read (earlier ++ old) ev.offset ev.len = .ok b →
    ∀ i < ev.len, file[ev.offset + i]? = some (b i)

structure Mates (R R' : Readable) (r r' : Reader) : Prop where
  left : r.readable = R
  right : r'.readable = R'
  offset : r'.offset = r.offset
  endianness : r'.endianness = r.endianness

def Sim (fh : FileHeader) (R R' : Readable) (file : List UInt8) {α β : Type} (f : α → β) (p : P α) (p' : P β) : Prop :=
  ∀ r r' a r1, Mates R R' r r' → p r = (.ok a, r1) → r1.readable = R ∧ ∃ new, r1.trace = new ++ r.trace ∧
    (Contains fh R file new r.trace → ∃ r1', p' r' = (.ok (f a), r1') ∧ Mates R R' r1 r1')

section
variable {α β γ δ : Type} {cfg : Cfg} {fh : FileHeader} {R R' : Readable} {file : List UInt8}

theorem Contains.append {new new' old : List ReadEvent} (h : Contains fh R file (new' ++ new) old) :
    Contains fh R file new old ∧ Contains fh R file new' (new ++ old) := by
  constructor
  · rintro later ev earlier b rfl
    exact h (new' ++ later) ev earlier b (by simp)
  · rintro later ev earlier b rfl hev hb
    exact h later ev (earlier ++ new) b (by simp) hev (by simpa using hb)

theorem sim_pure {f : α → β} (a : α) (b : β) (h : b = f a) : Sim fh R R' file f (Pure.pure a : P α) (Pure.pure b : P β) := by
  subst h
  intro r r' x r1 hm hr
  cases hr
  exact ⟨hm.left, [], rfl, fun _ => ⟨r', rfl, hm⟩⟩

theorem sim_fail {f : α → β} {k : LoadReason} {p : P β} : Sim fh R R' file f (P.fail k : P α) p := by
  intro r r' x r1 hm hr; cases hr

theorem sim_lift (o : Res LoadReason α) : Sim fh R R' file id (P.lift o) (P.lift o) := by
  intro r r' x r1 hm hr
  cases hr
  exact ⟨hm.left, [], rfl, fun _ => ⟨r', rfl, hm⟩⟩

theorem sim_getOffset : Sim fh R R' file id getOffset getOffset := by
  intro r r' x r1 hm hr
  cases hr
  exact ⟨hm.left, [], rfl, fun _ => ⟨r', by unfold getOffset; rw [hm.offset]; rfl, hm⟩⟩

theorem sim_getEndianness : Sim fh R R' file id getEndianness getEndianness := by
  intro r r' x r1 hm hr
  cases hr
  exact ⟨hm.left, [], rfl, fun _ => ⟨r', by unfold getEndianness; rw [hm.endianness]; rfl, hm⟩⟩

theorem sim_bind {f : α → β} {g : γ → δ} {p : P α} {p' : P β} {q : α → P γ} {q' : β → P δ} (hp : Sim fh R R' file f p p')
    (hq : ∀ a, Sim fh R R' file g (q a) (q' (f a))) : Sim fh R R' file g (p >>= q) (p' >>= q') := by
  intro r r' c r2 hm hr
  change P.bind p q r = _ at hr
  unfold P.bind at hr
  cases hpr : p r with
  | mk o r1 =>
    rw [hpr] at hr
    cases o with
    | ok a =>
      simp only [] at hr
      obtain ⟨h0, new, h1, h2⟩ := hp r r' a r1 hm hpr
      by_cases hc : Contains fh R file new r.trace
      · obtain ⟨r1', h3, h4⟩ := h2 hc
        obtain ⟨h0', new', h5, h6⟩ := hq a r1 r1' c r2 h4 hr
        refine ⟨h0', new' ++ new, by rw [h5, h1, List.append_assoc], fun hc => ?_⟩
        obtain ⟨r2', h7, h8⟩ := h6 (by rw [h1]; exact hc.append.2)
        refine ⟨r2', ?_, h8⟩
        change P.bind p' q' r' = _
        unfold P.bind
        rw [h3]; exact h7
      · obtain ⟨h0', new', h5, -⟩ := hq a r1 { r1 with readable := R' } c r2 ⟨h0, rfl, rfl, rfl⟩ hr
        exact ⟨h0', new' ++ new, by rw [h5, h1, List.append_assoc], fun hc' => absurd hc'.append.1 hc⟩
    | _ => cases hr

theorem sim_ite {f : α → β} {c : Prop} [Decidable c] {p q : P α} {p' q' : P β} (h : c → Sim fh R R' file f p p')
    (h' : ¬ c → Sim fh R R' file f q q') : Sim fh R R' file f (if c then p else q) (if c then p' else q') := by
  by_cases hc : c
  · rw [if_pos hc, if_pos hc]; exact h hc
  · rw [if_neg hc, if_neg hc]; exact h' hc

theorem sim_read (hb : Blanked cfg fh R' file) {n : Nat} (hn : 1 < n) : Sim fh R R' file id (Reader.read cfg n) (Reader.read cfg n) := by
  intro r r' a r1 hm hr
  unfold Reader.read at hr
  rw [hm.left] at hr
  cases hread : R.read r.trace r.offset n with
  | error k => rw [hread] at hr; cases hr
  | ok b =>
    rw [hread] at hr
    simp only [] at hr
    cases hadd : cfg.usizeAdd (ε := LoadReason) r.offset n with
    | ok o =>
      rw [hadd] at hr
      cases hr
      refine ⟨rfl, [⟨r.offset, n, none⟩], rfl, fun hc => ?_⟩
      have hin : ∀ i < n, file[r.offset + i]? = some (b i) :=
        hc [] ⟨r.offset, n, none⟩ [] b rfl (fun h => by have := h.2; simp only [] at this; omega) hread
      have hle : r.offset + n ≤ file.length := by
        have := (List.getElem?_eq_some_iff.1 (hin (n - 1) (by omega))).1
        omega
      have := hb.serves r'.trace r.offset n (by omega) (by have := hb.short; omega)
      rw [if_pos hle] at this
      obtain ⟨b', h1, h2⟩ := this
      refine ⟨{ r' with offset := o, trace := ⟨r.offset, n, none⟩ :: r'.trace }, ?_, rfl, hm.right, rfl, hm.endianness⟩
      unfold Reader.read
      rw [hm.right, hm.offset, h1]
      simp only []
      rw [hadd]
      simp only [id, Prod.mk.injEq, and_true]
      congr 1
      funext i
      by_cases hi : i < n
      · rw [if_pos hi, if_pos hi]
        have := h2 i hi
        rw [hin i hi] at this
        exact Option.some.inj this
      · rw [if_neg hi, if_neg hi]
    | _ => rw [hadd] at hr; cases hr

theorem sim_u32 (hb : Blanked cfg fh R' file) : Sim fh R R' file id (u32 cfg) (u32 cfg) :=
  sim_bind (sim_read hb (by decide)) fun _ => sim_bind sim_getEndianness fun _ => sim_pure _ _ rfl
theorem sim_u64 (hb : Blanked cfg fh R' file) : Sim fh R R' file id (u64 cfg) (u64 cfg) :=
  sim_bind (sim_read hb (by decide)) fun _ => sim_bind sim_getEndianness fun _ => sim_pure _ _ rfl
theorem sim_i32 (hb : Blanked cfg fh R' file) : Sim fh R R' file id (i32 cfg) (i32 cfg) :=
  sim_bind (sim_u32 hb) fun _ => sim_pure _ _ rfl
theorem sim_i64 (hb : Blanked cfg fh R' file) : Sim fh R R' file id (i64 cfg) (i64 cfg) :=
  sim_bind (sim_u64 hb) fun _ => sim_pure _ _ rfl

theorem sim_lift_bind {g : γ → δ} {o : Res LoadReason α} {q : α → P γ} {q' : α → P δ}
    (hq : ∀ a, o = .ok a → Sim fh R R' file g (q a) (q' a)) : Sim fh R R' file g (P.lift o >>= q) (P.lift o >>= q') := by
  cases o with
  | ok a => exact hq a rfl
  | _ => intro r r' c r2 hm hr; cases hr

theorem stringLoop_endianness {start : UInt32} {stop orig : Nat} (fuel : Nat) : ∀ acc r,
    (parseStringLoop cfg start stop orig fuel acc r).2.endianness = r.endianness := by
  induction fuel with
  | zero => intro acc r; rfl
  | succ fuel ih =>
    intro acc r
    unfold parseStringLoop
    cases cfg.usizeAdd (ε := LoadReason) r.offset 1 with
    | ok next =>
      simp only []
      split
      · rfl
      · have hu : (u8 cfg r).2.endianness = r.endianness := by
          change (P.bind (Reader.read cfg 1) _ r).2.endianness = _
          unfold P.bind Reader.read
          cases r.readable.read r.trace r.offset 1 with
          | error k => rfl
          | ok b => cases cfg.usizeAdd (ε := LoadReason) r.offset 1 <;> rfl
        cases hur : u8 cfg r with
        | mk o r1 =>
          rw [hur] at hu
          cases o with
          | ok c =>
            simp only []
            split
            · exact hu
            · rw [ih]; exact hu
          | _ => exact hu
    | _ => rfl

theorem sim_parseString (hf : Fits cfg fh) (hb : Blanked cfg fh R' file) (off : UInt32) :
    Sim fh R R' file (fun _ => []) (parseString cfg fh off) (parseString cfg fh off) := by
  unfold parseString
  have hl : ∀ {a b c : UInt32} {q : LoadReason}, okOr (u32CheckedAdd a b) q = .ok c → c.toNat = a.toNat + b.toNat := by
    intro a b c q h
    cases h' : u32CheckedAdd a b with
    | none => rw [h'] at h; cases h
    | some c => rw [h'] at h; cases h; exact u32CheckedAdd_eq_some.1 h'
  refine sim_lift_bind fun s hs => sim_lift_bind fun t ht => sim_lift_bind fun u hu => sim_ite (fun _ => sim_fail) fun hlt => ?_
  replace hs := hl hs
  replace ht := hl ht
  replace hu := hl hu
  have hlt' : u.toNat < t.toNat := by
    have : ¬ t ≤ u := hlt
    rw [UInt32.le_iff_toNat_le] at this; omega
  have hte : t.toNat = strEnd fh := by unfold strEnd strStart; omega
  have hst : strStart fh ≤ u.toNat := by unfold strStart; omega
  have hfit := hf.str (by rw [← hte]; exact t.toNat_lt)
  intro r r' a r1 hm hr
  change P.bind (parseStringLoop cfg u t.toNat r.offset (t.toNat - u.toNat + 1) []) _ { r with offset := u.toNat } = _ at hr
  unfold P.bind at hr
  have hd := (prog_stringLoop (⟨Nat.le_refl _, .inr rfl⟩ : Stricter cfg cfg) u t.toNat r.offset (t.toNat - u.toNat + 1) []).discipline { r with offset := u.toNat }
  have he := stringLoop_endianness (cfg := cfg) (start := u) (stop := t.toNat) (orig := r.offset) (t.toNat - u.toNat + 1) [] { r with offset := u.toNat }
  cases hrun : parseStringLoop cfg u t.toNat r.offset (t.toNat - u.toNat + 1) [] { r with offset := u.toNat } with
  | mk o r2 =>
    rw [hrun] at hr he
    have h2 := hd.readable
    obtain ⟨new, h3, -⟩ := hd.trace
    rw [hrun] at h2 h3
    simp only [] at h2 h3 he
    cases o with
    | ok x =>
      simp only [] at hr
      cases hr
      refine ⟨h2.trans hm.left, new, h3, fun _ => ?_⟩
      have hlen : strEnd fh ≤ file.length := by
        have := (List.getElem?_eq_some_iff.1 (hb.names (strEnd fh - 1) ⟨by omega, by omega⟩)).1
        omega
      have := hb.serves r'.trace u.toNat 1 (by decide) (by have := hb.short; omega)
      rw [if_pos (by omega)] at this
      obtain ⟨b', h4, h5⟩ := this
      have hz : b' 0 = 0 := by
        have := h5 0 (by decide)
        rw [Nat.add_zero, hb.names _ ⟨hst, by omega⟩] at this
        exact Option.some.inj this
      refine ⟨{ r' with trace := ⟨u.toNat, 1, none⟩ :: r'.trace }, ?_, h2.trans hm.left, hm.right, hm.offset,
        hm.endianness.trans he.symm⟩
      change P.bind (parseStringLoop cfg u t.toNat r'.offset (t.toNat - u.toNat + 1) []) _ { r' with offset := u.toNat } = _
      unfold P.bind
      have hu8 : u8 cfg { r' with offset := u.toNat } =
          (.ok 0, { r' with offset := u.toNat + 1, trace := ⟨u.toNat, 1, none⟩ :: r'.trace }) := by
        change P.bind (Reader.read cfg 1) _ _ = _
        unfold P.bind Reader.read
        simp only []
        rw [hm.right, h4]
        simp only []
        rw [usizeAdd_lt (by omega)]
        simp only []
        rw [← hm.right]
        change (Res.ok (if 0 < 1 then b' 0 else 0), _) = _
        rw [if_pos (by decide), hz]
      have hloop : parseStringLoop cfg u t.toNat r'.offset (t.toNat - u.toNat + 1) [] { r' with offset := u.toNat } =
          (.ok [], { r' with offset := u.toNat + 1, trace := ⟨u.toNat, 1, none⟩ :: r'.trace }) := by
        rw [parseStringLoop]
        simp only []
        rw [usizeAdd_lt (by omega)]
        simp only []
        rw [if_neg (by omega), hu8]
        rfl
      rw [hloop]
      rfl
    | _ => cases hr

theorem sim_parseName (hf : Fits cfg fh) (hb : Blanked cfg fh R' file) (off : UInt32) :
    Sim fh R R' file blank (parseName cfg fh off) (parseName cfg fh off) := by
  unfold parseName
  exact sim_ite (fun _ => sim_bind (sim_parseString hf hb off) fun _ => sim_pure _ _ rfl) fun _ => sim_pure _ _ rfl

theorem sim_repeat {f : α → β} {item : P α} {item' : P β} (h : Sim fh R R' file f item item') (n : Nat) :
    Sim fh R R' file (List.map f) (repeatP item n) (repeatP item' n) := by
  induction n with
  | zero => exact sim_pure _ _ rfl
  | succ n ih => exact sim_bind h fun _ => sim_bind ih fun _ => sim_pure _ _ rfl

theorem sim_header (hb : Blanked cfg fh R' file) : Sim fh R R' file id (Header.new cfg fh) (Header.new cfg fh) := by
  unfold Header.new
  refine sim_lift_bind fun _ _ => sim_lift_bind fun _ _ => sim_bind sim_getOffset fun _ => sim_lift_bind fun _ _ =>
    sim_ite (fun _ => sim_fail) fun _ => ?_
  exact sim_bind (sim_u32 hb) fun _ => sim_bind (sim_u32 hb) fun _ => sim_lift_bind fun _ _ => sim_bind (sim_u32 hb) fun _ =>
    sim_pure _ _ rfl

theorem sim_define {D : Type} {data : P D} {mk : Header → D → TypeVariant} {K : Kind} {th : Header} {f : D → D}
    (h : Sim fh R R' file f data data) (hmk : ∀ d, mk th (f d) = blankNames (mk th d)) :
    Sim fh R R' file blankNames (defineTypeNew cfg fh K th data mk) (defineTypeNew cfg fh K th data mk) := by
  refine sim_bind (f := id) ?_ fun _ => sim_bind h fun d => sim_pure _ _ (hmk d)
  unfold checkExtra
  refine sim_ite (fun _ => sim_fail) fun _ => sim_lift_bind fun _ _ => sim_ite (fun _ => ?_) fun _ => sim_pure _ _ rfl
  exact sim_lift_bind fun _ _ => sim_lift_bind fun _ _ => sim_bind sim_getOffset fun _ => sim_ite (fun _ => sim_fail) fun _ =>
    sim_lift_bind fun _ _ => sim_ite (fun _ => sim_fail) fun _ => sim_pure _ _ rfl

theorem sim_parseType (hf : Fits cfg fh) (hb : Blanked cfg fh R' file) (th : Header) :
    Sim fh R R' file blankNames (parseType cfg fh th) (parseType cfg fh th) := by
  have hname := fun off => sim_parseName (R := R) hf hb off
  have hstr := fun off => sim_parseString (R := R) hf hb off
  have hu := sim_u32 (R := R) hb
  have hmember : ∀ kf, Sim fh R R' file (fun m : Member => { m with name := blank m.name }) (Member.parse cfg fh kf) (Member.parse cfg fh kf) := fun kf =>
    sim_bind hu fun _ => sim_bind hu fun _ => sim_bind hu fun _ => sim_bind (hname _) fun _ => sim_lift_bind fun _ _ => sim_pure _ _ rfl
  have henum : ∀ s, Sim fh R R' file (fun m : NamedValue32 => { m with name := [] }) (NamedValue32.parse cfg fh s) (NamedValue32.parse cfg fh s) := fun s =>
    sim_bind hu fun _ => sim_bind (hstr _) fun _ => by
      cases s
      · exact sim_bind hu fun _ => sim_pure _ _ rfl
      · exact sim_bind (sim_i32 hb) fun _ => sim_pure _ _ rfl
  have henum64 : ∀ s, Sim fh R R' file (fun m : NamedValue64 => { m with name := [] }) (NamedValue64.parse cfg fh s) (NamedValue64.parse cfg fh s) := fun s =>
    sim_bind hu fun _ => sim_bind (hstr _) fun _ => by
      cases s
      · exact sim_bind (sim_u64 hb) fun _ => sim_pure _ _ rfl
      · exact sim_bind (sim_i64 hb) fun _ => sim_pure _ _ rfl
  have hvar : Sim fh R R' file id (Variable.parse cfg) (Variable.parse cfg) :=
    sim_bind hu fun _ => sim_bind hu fun _ => sim_bind hu fun _ => sim_pure _ _ rfl
  have hparam : Sim fh R R' file (fun m : Parameter => { m with name := blank m.name }) (Parameter.parse cfg fh) (Parameter.parse cfg fh) :=
    sim_bind hu fun _ => sim_bind hu fun _ => sim_bind (hname _) fun _ => sim_pure _ _ rfl
  unfold parseType
  split
  · exact sim_define (f := fun d => { d with name := blank d.name }) (sim_bind hu fun _ => sim_bind (hname _) fun _ => sim_pure _ _ rfl) fun _ => rfl
  · exact sim_define (f := fun d => { d with name := blank d.name }) (sim_bind (hname _) fun _ => sim_pure _ _ rfl) fun _ => rfl
  · exact sim_define (f := fun d => { d with name := blank d.name, namedValueList := d.namedValueList.map fun v => { v with name := [] } })
      (sim_bind (sim_repeat (henum _) _) fun _ => sim_bind (hname _) fun _ => sim_pure _ _ rfl) fun _ => rfl
  · exact sim_define (f := id) (sim_pure _ _ rfl) fun _ => rfl
  · exact sim_define (f := id) (sim_pure _ _ rfl) fun _ => rfl
  · exact sim_define (f := id) (sim_pure _ _ rfl) fun _ => rfl
  · exact sim_define (f := id) (sim_bind hu fun _ => sim_bind hu fun _ => sim_bind hu fun _ => sim_pure _ _ rfl) fun _ => rfl
  · exact sim_define (f := fun d => { d with parameterList := d.parameterList.map fun p => { p with name := blank p.name } })
      (sim_bind (sim_repeat hparam _) fun _ => sim_pure _ _ rfl) fun _ => rfl
  · exact sim_define (f := fun d => { d with name := blank d.name, memberList := d.memberList.map fun m => { m with name := blank m.name } })
      (sim_bind (sim_repeat (hmember _) _) fun _ => sim_bind (hname _) fun _ => sim_pure _ _ rfl) fun _ => rfl
  · exact sim_define (f := fun d => { d with name := blank d.name, memberList := d.memberList.map fun m => { m with name := blank m.name } })
      (sim_bind (sim_repeat (hmember _) _) fun _ => sim_bind (hname _) fun _ => sim_pure _ _ rfl) fun _ => rfl
  · exact sim_define (f := fun d => { d with name := blank d.name }) (sim_bind (hname _) fun _ => sim_pure _ _ rfl) fun _ => rfl
  · exact sim_define (f := fun d => { d with name := blank d.name }) (sim_bind hu fun _ => sim_bind (hname _) fun _ => sim_pure _ _ rfl) fun _ => rfl
  · exact sim_define (f := fun d => { d with name := blank d.name, namedValueList := d.namedValueList.map fun v => { v with name := [] } })
      (sim_bind (sim_repeat (henum64 _) _) fun _ => sim_bind (hname _) fun _ => sim_pure _ _ rfl) fun _ => rfl
  · exact sim_define (f := fun d => { d with name := blank d.name }) (sim_bind (hname _) fun _ => sim_pure _ _ rfl) fun _ => rfl
  · exact sim_define (f := fun d => { d with name := blank d.name }) (sim_bind (hname _) fun _ => sim_pure _ _ rfl) fun _ => rfl
  · exact sim_define (f := id) (sim_pure _ _ rfl) fun _ => rfl
  · exact sim_define (f := fun d => { d with name := blank d.name })
      (sim_bind (sim_repeat hvar _) fun _ => sim_bind (hname _) fun _ => sim_pure _ _ (by rw [List.map_id])) fun _ => rfl
  · exact sim_define (f := fun d => { d with name := blank d.name }) (sim_bind (hname _) fun _ => sim_pure _ _ rfl) fun _ => rfl
  · exact sim_define (f := fun d => { d with name := blank d.name }) (sim_bind hu fun _ => sim_bind (hname _) fun _ => sim_pure _ _ rfl) fun _ => rfl

theorem sim_loop (hf : Fits cfg fh) (stop fuel : Nat) : ∀ tid ti (r : Reader) t1 r1,
    r.readable = R → parseLoop cfg fh stop fuel tid ti r = (.ok t1, r1) → ∃ vs new, vs.length ≤ fuel ∧ t1 = build tid ti vs ∧
      r1.trace = new ++ r.trace ∧ ∀ R' file, Blanked cfg fh R' file → ∀ ti' r', Mates R R' r r' → Contains fh R file new r.trace →
        ∃ r1', parseLoop cfg fh stop fuel tid ti' r' = (.ok (build tid ti' (vs.map blankNames)), r1') := by
  induction fuel with
  | zero => intro tid ti r t1 r1 hR h; cases h
  | succ fuel ih =>
    intro tid ti r t1 r1 hR h
    unfold parseLoop at h
    change P.bind getOffset _ r = _ at h
    unfold P.bind getOffset at h
    simp only [] at h
    by_cases hlt : r.offset < stop
    swap
    · rw [if_neg hlt] at h
      cases h
      refine ⟨[], [], Nat.zero_le _, rfl, rfl, fun R' file hb ti' r' hm _ => ⟨r', ?_⟩⟩
      rw [parseLoop]
      change P.bind getOffset _ r' = _
      unfold P.bind getOffset
      simp only []
      rw [hm.offset, if_neg hlt]; rfl
    rw [if_pos hlt] at h
    change P.bind (Header.new cfg fh) _ r = _ at h
    unfold P.bind at h
    cases hh : Header.new cfg fh r with
    | mk o ra =>
    rw [hh] at h
    simp only [] at h
    cases o with
    | err k => cases h
    | panic => cases h
    | nofuel => cases h
    | ok th =>
    simp only [] at h
    have hd := (prog_header (⟨Nat.le_refl _, .inr rfl⟩ : Stricter cfg cfg) fh).discipline r
    have a0 : ra.readable = R := by have := hd.readable; rw [hh] at this; exact this.trans hR
    obtain ⟨na, a1, -⟩ := hd.trace
    rw [hh] at a1
    simp only [] at a1
    change P.bind (parseType cfg fh th) _ ra = _ at h
    unfold P.bind at h
    cases hp : parseType cfg fh th ra with
    | mk o rb =>
    rw [hp] at h
    simp only [] at h
    cases o with
    | err k => cases h
    | panic => cases h
    | nofuel => cases h
    | ok v =>
    simp only [] at h
    change P.bind (P.lift (cfg.u32Add tid 1)) _ rb = _ at h
    unfold P.bind P.lift at h
    cases hadd : cfg.u32Add (ε := LoadReason) tid 1 with
    | err k => rw [hadd] at h; cases h
    | panic => rw [hadd] at h; cases h
    | nofuel => rw [hadd] at h; cases h
    | ok tid' =>
    rw [hadd] at h
    simp only [] at h
    have ht : tid' = tid + 1 := u32Add_ok hadd
    subst ht
    have hd' := (prog_parseType (⟨Nat.le_refl _, .inr rfl⟩ : Stricter cfg cfg) fh th).discipline ra
    have b0 : rb.readable = R := by have := hd'.readable; rw [hp] at this; exact this.trans a0
    obtain ⟨nb, b1, -⟩ := hd'.trace
    rw [hp] at b1
    simp only [] at b1
    obtain ⟨vs, nc, c0, c1, c2, c3⟩ := ih (tid + 1) (ti.register tid v) rb t1 r1 b0 h
    refine ⟨v :: vs, nc ++ (nb ++ na), by rw [List.length_cons]; omega, c1, by rw [c2, b1, a1]; simp, fun R' file hb ti' r' hm hc => ?_⟩
    obtain ⟨hc1, hc2⟩ := hc.append
    obtain ⟨hc3, hc4⟩ := hc1.append
    obtain ⟨-, na', a1', a2'⟩ := sim_header (R := R) hb r r' th ra hm hh
    obtain rfl : na' = na := List.append_cancel_right (a1'.symm.trans a1)
    obtain ⟨ra', e1, e2⟩ := a2' hc3
    obtain ⟨-, nb', b1', b2'⟩ := sim_parseType (R := R) hf hb th ra ra' v rb e2 hp
    obtain rfl : nb' = nb := List.append_cancel_right (b1'.symm.trans b1)
    obtain ⟨rb', f1, f2⟩ := b2' (by rw [a1]; exact hc4)
    obtain ⟨rc', g1⟩ := c3 R' file hb (ti'.register tid (blankNames v)) rb' f2 (by rw [b1, a1]; simpa using hc2)
    refine ⟨rc', ?_⟩
    rw [parseLoop]
    change P.bind getOffset _ r' = _
    unfold P.bind getOffset
    simp only []
    rw [hm.offset, if_pos hlt]
    change P.bind (Header.new cfg fh) _ r' = _
    unfold P.bind
    rw [e1]
    simp only [id]
    change P.bind (parseType cfg fh th) _ ra' = _
    unfold P.bind
    rw [f1]
    simp only []
    change P.bind (P.lift (cfg.u32Add tid 1)) _ rb' = _
    unfold P.bind P.lift
    rw [hadd]
    exact g1

end

end Btf

import Verif.Model.TypeInfo
import Verif.Spec.Requests
import Mathlib.Tactic.DefEqTransformations

/-!
# Programs

Every parsing function is built from a handful of primitives. `Prog p q`: `p` and `q` are the same program,
`p` compiled with overflow checks (or `p` and `q` both compiled in the same way). Facts that hold for every
such program are proved once, by induction.
-/

namespace Btf

open Spec Reader

/-- Run `p`; if it fails, move the reader to `o`. -/
def P.restoring {α : Type} (p : P α) (o : Nat) : P α := fun r =>
  match p r with
  | (.ok a, r') => (.ok a, r')
  | (.err e, r') => (.err e, { r' with offset := o })
  | (.panic, r') => (.panic, r')
  | (.nofuel, r') => (.nofuel, r')

/-- `cfg` has the overflow checks that `cfg'` may lack, and possibly a narrower `usize`. -/
structure Stricter (cfg cfg' : Cfg) : Prop where
  width : cfg.usizeMod ≤ cfg'.usizeMod
  checks : cfg.overflowChecks = true ∨ cfg = cfg'

inductive Prog (cfg cfg' : Cfg) : {α : Type} → P α → P α → Prop where
  | pure {α : Type} (a : α) : Prog cfg cfg' (Pure.pure a : P α) (Pure.pure a)
  | lift {α : Type} {o o' : Res LoadReason α} : o = .panic ∨ o = o' → Prog cfg cfg' (P.lift o) (P.lift o')
  | getOffset : Prog cfg cfg' getOffset getOffset
  | setOffset (o : Nat) : Prog cfg cfg' (setOffset o) (setOffset o)
  | getEndianness : Prog cfg cfg' getEndianness getEndianness
  | setEndianness (e : Endianness) : Prog cfg cfg' (setEndianness e) (setEndianness e)
  | read (n : Nat) : Prog cfg cfg' (Reader.read cfg n) (Reader.read cfg' n)
  | bind {α β : Type} {p q : P α} {p' q' : α → P β} : Prog cfg cfg' p q → (∀ a, Prog cfg cfg' (p' a) (q' a)) →
      Prog cfg cfg' (p >>= p') (q >>= q')
  | restoring {α : Type} {p q : P α} (o : Nat) : Prog cfg cfg' p q → Prog cfg cfg' (p.restoring o) (q.restoring o)

set_option linter.unusedSectionVars false

section
variable {cfg cfg' : Cfg} (hc : Stricter cfg cfg')
include hc

theorem wrapOr_stricter {ε : Type} {m m' : Nat} (hm : m ≤ m') (h : cfg = cfg' → m = m') (v : Nat) :
    cfg.wrapOr (ε := ε) m v = .panic ∨ cfg.wrapOr (ε := ε) m v = cfg'.wrapOr m' v := by
  rcases hc.checks with h | rfl
  · unfold Cfg.wrapOr
    by_cases hv : v < m
    · right; rw [if_pos hv, if_pos (by omega)]
    · left; rw [if_neg hv, if_pos h]
  · rw [h rfl]; exact .inr rfl

theorem usizeAdd_stricter {ε : Type} (a b : Nat) :
    cfg.usizeAdd (ε := ε) a b = .panic ∨ cfg.usizeAdd (ε := ε) a b = cfg'.usizeAdd a b :=
  wrapOr_stricter hc hc.width (fun h => by rw [h]) _

theorem usizeMul_stricter {ε : Type} (a b : Nat) :
    cfg.usizeMul (ε := ε) a b = .panic ∨ cfg.usizeMul (ε := ε) a b = cfg'.usizeMul a b :=
  wrapOr_stricter hc hc.width (fun h => by rw [h]) _

theorem u32Add_stricter {ε : Type} (a b : UInt32) :
    cfg.u32Add (ε := ε) a b = .panic ∨ cfg.u32Add (ε := ε) a b = cfg'.u32Add a b := by
  unfold Cfg.u32Add
  rcases wrapOr_stricter (ε := ε) hc (Nat.le_refl (2 ^ 32)) (fun _ => rfl) (a.toNat + b.toNat) with h | h
  · left; rw [h]
  · right; rw [h]

theorem extraSize_stricter (k : Kind) (th : Header) :
    extraSize cfg k th = .panic ∨ extraSize cfg k th = extraSize cfg' k th := by
  unfold extraSize
  cases k <;> first | exact .inr rfl | exact usizeMul_stricter hc _ _

/-! ### The parsing functions are programs -/

theorem prog_fail {α : Type} (k : LoadReason) : Prog cfg cfg' (P.fail k : P α) (P.fail k) :=
  Prog.lift (o := .err k) (o' := .err k) (.inr rfl)

theorem prog_u8 : Prog cfg cfg' (u8 cfg) (u8 cfg') := .bind (.read 1) fun _ => .pure _
theorem prog_u16 : Prog cfg cfg' (u16 cfg) (u16 cfg') := .bind (.read 2) fun _ => .bind .getEndianness fun _ => .pure _
theorem prog_u32 : Prog cfg cfg' (u32 cfg) (u32 cfg') := .bind (.read 4) fun _ => .bind .getEndianness fun _ => .pure _
theorem prog_u64 : Prog cfg cfg' (u64 cfg) (u64 cfg') := .bind (.read 8) fun _ => .bind .getEndianness fun _ => .pure _
theorem prog_i32 : Prog cfg cfg' (i32 cfg) (i32 cfg') := .bind (prog_u32 hc) fun _ => .pure _
theorem prog_i64 : Prog cfg cfg' (i64 cfg) (i64 cfg') := .bind (prog_u64 hc) fun _ => .pure _

theorem prog_ite {α : Type} {c : Prop} [Decidable c] {p q p' q' : P α} (h : c → Prog cfg cfg' p q)
    (h' : ¬ c → Prog cfg cfg' p' q') : Prog cfg cfg' (if c then p else p') (if c then q else q') := by
  by_cases hc : c
  · rw [if_pos hc, if_pos hc]; exact h hc
  · rw [if_neg hc, if_neg hc]; exact h' hc

theorem prog_fileHeader : Prog cfg cfg' (FileHeader.new cfg) (FileHeader.new cfg') := by
  refine .bind (.setOffset 0) fun _ => .bind ?_ fun _ => .bind (prog_u8 hc) fun _ => .bind (prog_u8 hc) fun _ =>
    .bind (prog_u32 hc) fun _ => .bind (prog_u32 hc) fun _ => .bind (prog_u32 hc) fun _ => .bind (prog_u32 hc) fun _ =>
    .bind (prog_u32 hc) fun _ => .pure _
  refine .bind (prog_u16 hc) fun _ => prog_ite hc (fun _ => .setEndianness _) fun _ => prog_ite hc (fun _ => .setEndianness _)
    fun _ => prog_fail hc _

theorem prog_header (fh : FileHeader) : Prog cfg cfg' (Header.new cfg fh) (Header.new cfg' fh) := by
  refine .bind (.lift (.inr rfl)) fun _ => .bind (.lift (.inr rfl)) fun _ => .bind .getOffset fun _ =>
    .bind (.lift (usizeAdd_stricter hc _ _)) fun _ => prog_ite hc (fun _ => prog_fail hc _) fun _ => ?_
  exact .bind (prog_u32 hc) fun _ => .bind (prog_u32 hc) fun _ => .bind (.lift (.inr rfl)) fun _ =>
    .bind (prog_u32 hc) fun _ => .pure _

omit hc in
theorem parseStringLoop_eq (start : UInt32) (stop orig fuel : Nat) (acc : Str) :
    parseStringLoop cfg start stop orig (fuel + 1) acc =
      (getOffset >>= fun o => P.lift (cfg.usizeAdd o 1) >>= fun next =>
        if next > stop then P.fail (.unterminated start) else
        (u8 cfg).restoring orig >>= fun b => if b = 0 then pure acc
          else parseStringLoop cfg start stop orig fuel (pushLatin1 acc b)) := by
  funext r
  rw [parseStringLoop]
  beta_reduce
  change _ = P.bind getOffset (fun o => P.bind (P.lift (cfg.usizeAdd o 1)) _) r
  unfold P.bind getOffset P.lift
  simp only []
  cases cfg.usizeAdd (ε := LoadReason) r.offset 1 with
  | ok next =>
    simp only []
    by_cases h : next > stop
    · rw [if_pos h, if_pos h]; rfl
    · rw [if_neg h, if_neg h]
      change _ = P.bind ((u8 cfg).restoring orig) _ r
      unfold P.bind P.restoring
      cases u8 cfg r with
      | mk o r' =>
        cases o with
        | ok b =>
          simp only []
          by_cases hb : b = 0
          · rw [if_pos hb, if_pos hb]; rfl
          · rw [if_neg hb, if_neg hb]
        | err e => rfl
        | panic => rfl
        | nofuel => rfl
  | err e => rfl
  | panic => rfl
  | nofuel => rfl

theorem prog_stringLoop (start : UInt32) (stop orig fuel : Nat) (acc : Str) :
    Prog cfg cfg' (parseStringLoop cfg start stop orig fuel acc) (parseStringLoop cfg' start stop orig fuel acc) := by
  induction fuel generalizing acc with
  | zero => exact Prog.lift (o := .nofuel) (o' := .nofuel) (.inr rfl)
  | succ fuel ih =>
    rw [parseStringLoop_eq, parseStringLoop_eq]
    exact .bind .getOffset fun _ => .bind (.lift (usizeAdd_stricter hc _ _)) fun _ => prog_ite hc (fun _ => prog_fail hc _)
      fun _ => .bind (.restoring _ (prog_u8 hc)) fun _ => prog_ite hc (fun _ => .pure _) fun _ => ih _

theorem prog_string (fh : FileHeader) (off : UInt32) : Prog cfg cfg' (parseString cfg fh off) (parseString cfg' fh off) := by
  exact .bind (.lift (.inr rfl)) fun _ => .bind (.lift (.inr rfl)) fun _ => .bind (.lift (.inr rfl)) fun _ =>
    prog_ite hc (fun _ => prog_fail hc _) fun _ => .bind .getOffset fun _ => .bind (.setOffset _) fun _ =>
    .bind (prog_stringLoop hc _ _ _ _ _) fun _ => .bind (.setOffset _) fun _ => .pure _

theorem prog_name (fh : FileHeader) (off : UInt32) : Prog cfg cfg' (parseName cfg fh off) (parseName cfg' fh off) := by
  unfold parseName
  exact prog_ite hc (fun _ => .bind (prog_string hc _ _) fun _ => .pure _) fun _ => .pure _

theorem prog_repeat {α : Type} {p q : P α} (h : Prog cfg cfg' p q) (n : Nat) :
    Prog cfg cfg' (repeatP p n) (repeatP q n) := by
  induction n with
  | zero => exact .pure _
  | succ n ih => exact .bind h fun _ => .bind ih fun _ => .pure _

theorem prog_checkExtra (fh : FileHeader) (k : Kind) (th : Header) :
    Prog cfg cfg' (checkExtra cfg fh k th) (checkExtra cfg' fh k th) := by
  unfold checkExtra
  exact prog_ite hc (fun _ => prog_fail hc _) fun _ => .bind (.lift (extraSize_stricter hc _ _)) fun _ =>
    prog_ite hc (fun _ => .bind (.lift (u32Add_stricter hc _ _)) fun _ => .bind (.lift (u32Add_stricter hc _ _)) fun _ =>
      .bind .getOffset fun _ => prog_ite hc (fun _ => prog_fail hc _) fun _ =>
      .bind (.lift (usizeAdd_stricter hc _ _)) fun _ => prog_ite hc (fun _ => prog_fail hc _) fun _ => .pure _)
    fun _ => .pure _

theorem prog_defineType {D : Type} {fh : FileHeader} {k : Kind} {th : Header} {d d' : P D}
    {mk : Header → D → TypeVariant} (h : Prog cfg cfg' d d') :
    Prog cfg cfg' (defineTypeNew cfg fh k th d mk) (defineTypeNew cfg' fh k th d' mk) :=
  .bind (prog_checkExtra hc _ _ _) fun _ => .bind h fun _ => .pure _

theorem prog_parseType (fh : FileHeader) (th : Header) : Prog cfg cfg' (parseType cfg fh th) (parseType cfg' fh th) := by
  have hmember : ∀ kf, Prog cfg cfg' (Member.parse cfg fh kf) (Member.parse cfg' fh kf) := fun kf =>
    .bind (prog_u32 hc) fun _ => .bind (prog_u32 hc) fun _ => .bind (prog_u32 hc) fun _ => .bind (prog_name hc _ _) fun _ =>
      .bind (.lift (.inr rfl)) fun _ => .pure _
  have hstruct : Prog cfg cfg' (StructData.new cfg fh th) (StructData.new cfg' fh th) :=
    .bind (prog_repeat hc (hmember _) _) fun _ => .bind (prog_name hc _ _) fun _ => .pure _
  have hnamed : Prog cfg cfg' (NamedTidData.new cfg fh th) (NamedTidData.new cfg' fh th) :=
    .bind (prog_name hc _ _) fun _ => .pure _
  have htid : Prog cfg cfg' (TidData.new th) (TidData.new th) := .pure _
  have henum : ∀ s, Prog cfg cfg' (NamedValue32.parse cfg fh s) (NamedValue32.parse cfg' fh s) := by
    intro s
    refine .bind (prog_u32 hc) fun _ => .bind (prog_string hc _ _) fun _ => ?_
    cases s
    · exact .bind (prog_u32 hc) fun _ => .pure _
    · exact .bind (prog_i32 hc) fun _ => .pure _
  have henum64 : ∀ s, Prog cfg cfg' (NamedValue64.parse cfg fh s) (NamedValue64.parse cfg' fh s) := by
    intro s
    refine .bind (prog_u32 hc) fun _ => .bind (prog_string hc _ _) fun _ => ?_
    cases s
    · exact .bind (prog_u64 hc) fun _ => .pure _
    · exact .bind (prog_i64 hc) fun _ => .pure _
  have hvar : Prog cfg cfg' (Variable.parse cfg) (Variable.parse cfg') :=
    .bind (prog_u32 hc) fun _ => .bind (prog_u32 hc) fun _ => .bind (prog_u32 hc) fun _ => .pure _
  have hparam : Prog cfg cfg' (Parameter.parse cfg fh) (Parameter.parse cfg' fh) :=
    .bind (prog_u32 hc) fun _ => .bind (prog_u32 hc) fun _ => .bind (prog_name hc _ _) fun _ => .pure _
  unfold parseType
  split
  · exact prog_defineType hc (.bind (prog_u32 hc) fun _ => .bind (prog_name hc _ _) fun _ => .pure _)
  · exact prog_defineType hc hnamed
  · exact prog_defineType hc (.bind (prog_repeat hc (henum _) _) fun _ => .bind (prog_name hc _ _) fun _ => .pure _)
  · exact prog_defineType hc htid
  · exact prog_defineType hc htid
  · exact prog_defineType hc htid
  · exact prog_defineType hc (.bind (prog_u32 hc) fun _ => .bind (prog_u32 hc) fun _ => .bind (prog_u32 hc) fun _ => .pure _)
  · exact prog_defineType hc (.bind (prog_repeat hc hparam _) fun _ => .pure _)
  · exact prog_defineType hc hstruct
  · exact prog_defineType hc hstruct
  · exact prog_defineType hc hnamed
  · exact prog_defineType hc (.bind (prog_u32 hc) fun _ => .bind (prog_name hc _ _) fun _ => .pure _)
  · exact prog_defineType hc (.bind (prog_repeat hc (henum64 _) _) fun _ => .bind (prog_name hc _ _) fun _ => .pure _)
  · exact prog_defineType hc (.bind (prog_name hc _ _) fun _ => .pure _)
  · exact prog_defineType hc (.bind (prog_name hc _ _) fun _ => .pure _)
  · exact prog_defineType hc htid
  · exact prog_defineType hc (.bind (prog_repeat hc hvar _) fun _ => .bind (prog_name hc _ _) fun _ => .pure _)
  · exact prog_defineType hc hnamed
  · exact prog_defineType hc (.bind (prog_u32 hc) fun _ => .bind (prog_name hc _ _) fun _ => .pure _)

theorem prog_loop (fh : FileHeader) (stop fuel : Nat) (tid : UInt32) (ti : TypeInformation) :
    Prog cfg cfg' (parseLoop cfg fh stop fuel tid ti) (parseLoop cfg' fh stop fuel tid ti) := by
  induction fuel generalizing tid ti with
  | zero => exact Prog.lift (o := .nofuel) (o' := .nofuel) (.inr rfl)
  | succ fuel ih =>
    exact .bind .getOffset fun _ => prog_ite hc (fun _ => .bind (prog_header hc _) fun _ => .bind (prog_parseType hc _ _) fun _ =>
      .bind (.lift (u32Add_stricter hc _ _)) fun _ => ih _ _) fun _ => .pure _

theorem prog_new (hw : cfg.usizeMod = cfg'.usizeMod) :
    Prog cfg cfg' (TypeInformation.newP cfg) (TypeInformation.newP cfg') := by
  refine .bind (prog_fileHeader hc) fun _ => .bind (.lift (.inr rfl)) fun _ => .bind (.lift (.inr ?_)) fun _ =>
    .bind (.setOffset _) fun _ => prog_loop hc _ _ _ _ _
  unfold Cfg.usizeCheckedAdd
  rw [hw]

/-! ### Facts about all programs -/

/-- Without the checks the program does the same, unless the checks fail. -/
theorem Prog.refines {α : Type} {p q : P α} (h : Prog cfg cfg' p q) (r : Reader) : (p r).1 = .panic ∨ p r = q r := by
  induction h generalizing r with
  | pure a => exact .inr rfl
  | lift h =>
    rcases h with rfl | rfl
    · exact .inl rfl
    · exact .inr rfl
  | getOffset => exact .inr rfl
  | setOffset o => exact .inr rfl
  | getEndianness => exact .inr rfl
  | setEndianness e => exact .inr rfl
  | read n =>
    unfold Reader.read
    cases r.readable.read r.trace r.offset n with
    | error k => exact .inr rfl
    | ok b =>
      simp only []
      rcases usizeAdd_stricter (ε := LoadReason) hc r.offset n with h | h
      · rw [h]; exact .inl rfl
      · rw [h]; exact .inr rfl
  | @bind α β p q p' q' _ _ ih ih' =>
    change (P.bind p p' r).1 = _ ∨ P.bind p p' r = P.bind q q' r
    unfold P.bind
    rcases ih r with h | h
    · left
      cases hp : p r with
      | mk o r' => rw [hp] at h; simp only [] at h; subst h; rfl
    · rw [← h]
      cases p r with
      | mk o r' =>
        cases o with
        | ok a => exact ih' a r'
        | _ => exact .inr rfl
  | @restoring α p q o _ ih =>
    unfold P.restoring
    rcases ih r with h | h
    · left
      cases hp : p r with
      | mk o r' => rw [hp] at h; simp only [] at h; subst h; rfl
    · right; rw [← h]

omit hc

/-- What a program leaves behind: it extends the trace faithfully, and a failed request ends it with that
error. -/
structure Discipline {α : Type} (p : P α) (r : Reader) : Prop where
  readable : (p r).2.readable = r.readable
  trace : ∃ new, (p r).2.trace = new ++ r.trace ∧
    (NoFailure new ∨ ∃ ev old k, new = ev :: old ∧ ev.failed = some k ∧ NoFailure old ∧ (p r).1 = .err (.source k)) ∧
    (∀ a, (p r).1 = .ok a → NoFailure new)
  faithful : Faithful r.readable r.trace → Faithful r.readable (p r).2.trace

theorem discipline_still {α : Type} {p : P α} {r : Reader} (h1 : (p r).2.readable = r.readable)
    (h2 : (p r).2.trace = r.trace) : Discipline p r :=
  ⟨h1, ⟨[], by simp [h2], .inl (by intro ev h; cases h), fun _ _ => by intro ev h; cases h⟩, fun h => by rw [h2]; exact h⟩

theorem Prog.discipline {α : Type} {p q : P α} (h : Prog cfg cfg' p q) (r : Reader) : Discipline p r := by
  induction h generalizing r with
  | pure a => exact discipline_still rfl rfl
  | lift h => exact discipline_still rfl rfl
  | getOffset => exact discipline_still rfl rfl
  | setOffset o => exact discipline_still rfl rfl
  | getEndianness => exact discipline_still rfl rfl
  | setEndianness e => exact discipline_still rfl rfl
  | read n =>
    cases hread : r.readable.read r.trace r.offset n with
    | error k =>
      have hrun : Reader.read cfg n r = (.err (.source k), { r with trace := ⟨r.offset, n, some k⟩ :: r.trace }) := by
        unfold Reader.read; rw [hread]
      refine ⟨by rw [hrun], ⟨[⟨r.offset, n, some k⟩], by rw [hrun]; rfl, ?_, ?_⟩, ?_⟩
      · exact .inr ⟨_, [], k, rfl, rfl, (by intro ev h; cases h), by rw [hrun]⟩
      · intro a ha; rw [hrun] at ha; cases ha
      · intro hf; rw [hrun]; exact .failed hread hf
    | ok b =>
      have hno : NoFailure [⟨r.offset, n, none⟩] := by
        intro ev hev
        rw [List.mem_singleton] at hev
        rw [hev]
      have hrun : ∃ o off, Reader.read cfg n r = (o, { r with offset := off, trace := ⟨r.offset, n, none⟩ :: r.trace }) := by
        unfold Reader.read; rw [hread]
        simp only []
        cases cfg.usizeAdd r.offset n with
        | ok v => exact ⟨_, v, rfl⟩
        | _ => exact ⟨_, r.offset, rfl⟩
      obtain ⟨o, off, hrun⟩ := hrun
      refine ⟨by rw [hrun], ⟨[⟨r.offset, n, none⟩], by rw [hrun]; rfl, .inl hno, fun _ _ => hno⟩, ?_⟩
      intro hf; rw [hrun]; exact .done hread hf
  | @bind α β p q p' q' _ _ ih ih' =>
    have hp := ih r
    have hrun : (p >>= p') r = P.bind p p' r := rfl
    unfold P.bind at hrun
    cases hpr : p r with
    | mk o r1 =>
      rw [hpr] at hrun
      cases o with
      | ok a =>
        simp only [] at hrun
        have hq := ih' a r1
        obtain ⟨new, h1, -, h3⟩ := hp.trace
        have hno := h3 a (by rw [hpr])
        obtain ⟨new', h1', h2', h3'⟩ := hq.trace
        rw [hpr] at h1
        simp only [] at h1
        refine ⟨?_, ⟨new' ++ new, ?_, ?_, ?_⟩, ?_⟩
        · rw [hrun, hq.readable]; have := hp.readable; rw [hpr] at this; exact this
        · rw [hrun, h1', h1, List.append_assoc]
        · rw [hrun]
          rcases h2' with h | ⟨ev, old, k, h4, h5, h6, h7⟩
          · refine .inl ?_
            intro ev hev
            rcases List.mem_append.1 hev with hev | hev
            · exact h ev hev
            · exact hno ev hev
          · refine .inr ⟨ev, old ++ new, k, by rw [h4]; rfl, h5, ?_, h7⟩
            intro ev hev
            rcases List.mem_append.1 hev with hev | hev
            · exact h6 ev hev
            · exact hno ev hev
        · intro b hb
          rw [hrun] at hb
          intro ev hev
          rcases List.mem_append.1 hev with hev | hev
          · exact h3' b hb ev hev
          · exact hno ev hev
        · intro hf
          have h := hp.faithful hf
          rw [hpr] at h
          have hr : r1.readable = r.readable := by have := hp.readable; rw [hpr] at this; exact this
          rw [hrun, ← hr]
          exact hq.faithful (by rw [hr]; exact h)
      | err k =>
        simp only [] at hrun
        refine ⟨by rw [hrun]; have := hp.readable; rwa [hpr] at this, ?_, ?_⟩
        · obtain ⟨new, h1, h2, h3⟩ := hp.trace
          refine ⟨new, by rw [hrun]; rwa [hpr] at h1, ?_, fun a ha => by rw [hrun] at ha; cases ha⟩
          rw [hpr] at h2
          rcases h2 with h | ⟨ev, old, k', h4, h5, h6, h7⟩
          · exact .inl h
          · cases h7; exact .inr ⟨ev, old, _, h4, h5, h6, by rw [hrun]⟩
        · intro hf; have := hp.faithful hf; rw [hpr] at this; rw [hrun]; exact this
      | panic =>
        simp only [] at hrun
        refine ⟨by rw [hrun]; have := hp.readable; rwa [hpr] at this, ?_, ?_⟩
        · obtain ⟨new, h1, h2, h3⟩ := hp.trace
          refine ⟨new, by rw [hrun]; rwa [hpr] at h1, ?_, fun a ha => by rw [hrun] at ha; cases ha⟩
          rw [hpr] at h2
          rcases h2 with h | ⟨ev, old, k', h4, h5, h6, h7⟩
          · exact .inl h
          · cases h7
        · intro hf; have := hp.faithful hf; rw [hpr] at this; rw [hrun]; exact this
      | nofuel =>
        simp only [] at hrun
        refine ⟨by rw [hrun]; have := hp.readable; rwa [hpr] at this, ?_, ?_⟩
        · obtain ⟨new, h1, h2, h3⟩ := hp.trace
          refine ⟨new, by rw [hrun]; rwa [hpr] at h1, ?_, fun a ha => by rw [hrun] at ha; cases ha⟩
          rw [hpr] at h2
          rcases h2 with h | ⟨ev, old, k', h4, h5, h6, h7⟩
          · exact .inl h
          · cases h7
        · intro hf; have := hp.faithful hf; rw [hpr] at this; rw [hrun]; exact this
  | @restoring α p q o _ ih =>
    have hp := ih r
    have hrun : ∃ off, p.restoring o r = ((p r).1, { (p r).2 with offset := off }) := by
      unfold P.restoring
      cases p r with
      | mk x r' => cases x <;> first | exact ⟨o, rfl⟩ | exact ⟨r'.offset, rfl⟩
    obtain ⟨off, hrun⟩ := hrun
    exact ⟨by rw [hrun]; exact hp.readable, by rw [hrun]; exact hp.trace, by rw [hrun]; exact hp.faithful⟩

/-- The two sources give the same answers to the requests in `new`, made after `old`. -/
def AgreeOn (R R' : Readable) (new old : List ReadEvent) : Prop :=
  ∀ later ev earlier, new = later ++ ev :: earlier →
    SameAnswer ev.len (R.read (earlier ++ old) ev.offset ev.len) (R'.read (earlier ++ old) ev.offset ev.len)

theorem AgreeOn.append {R R' : Readable} {new new' old : List ReadEvent} (h : AgreeOn R R' (new' ++ new) old) :
    AgreeOn R R' new old ∧ AgreeOn R R' new' (new ++ old) := by
  constructor
  · rintro later ev earlier rfl
    exact h (new' ++ later) ev earlier (by simp)
  · rintro later ev earlier rfl
    have := h later ev (earlier ++ new) (by simp)
    simpa using this

/-- A program does the same with another source that gives the same answers to its requests. -/
theorem Prog.local {α : Type} {p q : P α} (h : Prog cfg cfg' p q) (r : Reader) (R' : Readable) (new : List ReadEvent)
    (hnew : (p r).2.trace = new ++ r.trace) (hagree : AgreeOn r.readable R' new r.trace) :
    p { r with readable := R' } = ((p r).1, { (p r).2 with readable := R' }) := by
  induction h generalizing r new with
  | pure a => rfl
  | lift h => rfl
  | getOffset => rfl
  | setOffset o => rfl
  | getEndianness => rfl
  | setEndianness e => rfl
  | read n =>
    have hev : ∃ fl, new = [⟨r.offset, n, fl⟩] := by
      unfold Reader.read at hnew
      cases hread : r.readable.read r.trace r.offset n with
      | error k =>
        rw [hread] at hnew
        exact ⟨some k, (List.append_cancel_right (as := [_]) hnew).symm⟩
      | ok b =>
        rw [hread] at hnew
        simp only [] at hnew
        refine ⟨none, (List.append_cancel_right (as := [_]) (bs := r.trace) (Eq.trans ?_ hnew)).symm⟩
        cases cfg.usizeAdd r.offset n <;> rfl
    obtain ⟨fl, rfl⟩ := hev
    have := hagree [] _ [] rfl
    simp only [List.nil_append] at this
    unfold Reader.read
    simp only []
    cases h1 : r.readable.read r.trace r.offset n with
    | error k =>
      rw [h1] at this
      cases h2 : R'.read r.trace r.offset n with
      | error k' => rw [h2] at this; cases this; rfl
      | ok b => rw [h2] at this; exact this.elim
    | ok b =>
      rw [h1] at this
      cases h2 : R'.read r.trace r.offset n with
      | error k' => rw [h2] at this; exact this.elim
      | ok b' =>
        rw [h2] at this
        have hb : (fun i => if i < n then b i else 0) = (fun i => if i < n then b' i else 0) := by
          funext i
          by_cases hi : i < n
          · rw [if_pos hi, if_pos hi]; exact this i hi
          · rw [if_neg hi, if_neg hi]
        simp only [hb]
        cases cfg.usizeAdd r.offset n <;> rfl
  | @bind α β p q p' q' hp hp' ih ih' =>
    have hrun : ∀ r, (p >>= p') r = P.bind p p' r := fun _ => rfl
    rw [hrun] at hnew
    rw [hrun, hrun]
    unfold P.bind at hnew ⊢
    have hd := (hp.discipline r)
    obtain ⟨new1, h1, -, -⟩ := hd.trace
    cases hpr : p r with
    | mk o r1 =>
      rw [hpr] at hnew h1
      simp only [] at h1
      have hr1 : r1.readable = r.readable := by have := hd.readable; rwa [hpr] at this
      cases o with
      | ok a =>
        simp only [] at hnew
        obtain ⟨new2, h2, -, -⟩ := ((hp' a).discipline r1).trace
        have hn : new = new2 ++ new1 := by
          rw [h2, h1, ← List.append_assoc] at hnew
          exact (List.append_cancel_right hnew).symm
        subst hn
        have hag := hagree.append
        have e1 := ih r new1 (by rw [hpr, h1]) hag.1
        rw [hpr] at e1
        rw [e1]
        simp only []
        exact ih' a r1 new2 h2 (by rw [hr1, h1]; exact hag.2)
      | err k =>
        simp only [] at hnew
        have e1 := ih r new (by rw [hpr, hnew]) hagree
        rw [hpr] at e1
        rw [e1]
      | panic =>
        simp only [] at hnew
        have e1 := ih r new (by rw [hpr, hnew]) hagree
        rw [hpr] at e1
        rw [e1]
      | nofuel =>
        simp only [] at hnew
        have e1 := ih r new (by rw [hpr, hnew]) hagree
        rw [hpr] at e1
        rw [e1]
  | @restoring α p q o hp ih =>
    have hd := (hp.discipline r)
    have ht : (p.restoring o r).2.trace = (p r).2.trace := by
      unfold P.restoring
      cases p r with
      | mk x r' => cases x <;> rfl
    have e1 := ih r new (by rw [← ht, hnew]) hagree
    unfold P.restoring
    rw [e1]
    cases p r with
    | mk x r' => cases x <;> rfl

end

end Btf

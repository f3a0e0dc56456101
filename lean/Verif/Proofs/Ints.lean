import Verif.Proofs.Prog
import Verif.Proofs.SafeNew
import Verif.Spec.Same

/-!
# Programs that read integers

After the file header, the parser only reads integers; it does not look at the byte order otherwise. So it
cannot distinguish two sources, in different byte orders, that contain the same integers.
-/

namespace Btf

open Spec Reader

inductive IntProg (cfg : Cfg) : {α : Type} → P α → Prop where
  | pure {α : Type} (a : α) : IntProg cfg (Pure.pure a : P α)
  | lift {α : Type} (o : Res LoadReason α) : IntProg cfg (P.lift o)
  | getOffset : IntProg cfg getOffset
  | setOffset (o : Nat) : IntProg cfg (setOffset o)
  | u8 : IntProg cfg (u8 cfg)
  | int {α : Type} (n : Nat) (hn : n = 4 ∨ n = 8) (mk : Nat → α) :
      IntProg cfg (Reader.read cfg n >>= fun b => getEndianness >>= fun e => Pure.pure (mk (decodeNat e b n)))
  | bind {α β : Type} {p : P α} {p' : α → P β} : IntProg cfg p → (∀ a, IntProg cfg (p' a)) → IntProg cfg (p >>= p')
  | restoring {α : Type} {p : P α} (o : Nat) : IntProg cfg p → IntProg cfg (p.restoring o)

section
variable {cfg : Cfg}

theorem IntProg.prog {α : Type} {p : P α} (h : IntProg cfg p) : Prog cfg cfg p p := by
  induction h with
  | pure a => exact .pure a
  | lift o => exact .lift (.inr rfl)
  | getOffset => exact .getOffset
  | setOffset o => exact .setOffset o
  | u8 => exact .bind (.read 1) fun _ => .pure _
  | int n _ mk => exact .bind (.read n) fun _ => .bind .getEndianness fun _ => .pure _
  | bind _ _ ih ih' => exact .bind ih ih'
  | restoring o _ ih => exact .restoring o ih

/-! ### The parser is such a program -/

theorem ints_u32 : IntProg cfg (u32 cfg) := .int 4 (.inl rfl) (fun v => UInt32.ofNat v)
theorem ints_u64 : IntProg cfg (u64 cfg) := .int 8 (.inr rfl) (fun v => UInt64.ofNat v)
theorem ints_i32 : IntProg cfg (i32 cfg) := .bind ints_u32 fun _ => .pure _
theorem ints_i64 : IntProg cfg (i64 cfg) := .bind ints_u64 fun _ => .pure _
theorem ints_fail {α : Type} (k : LoadReason) : IntProg cfg (P.fail k : P α) := .lift (.err k)

theorem ints_ite {α : Type} {c : Prop} [Decidable c] {p q : P α} (h : IntProg cfg p) (h' : IntProg cfg q) :
    IntProg cfg (if c then p else q) := by
  by_cases hc : c
  · rw [if_pos hc]; exact h
  · rw [if_neg hc]; exact h'

theorem ints_header (fh : FileHeader) : IntProg cfg (Header.new cfg fh) :=
  .bind (.lift _) fun _ => .bind (.lift _) fun _ => .bind .getOffset fun _ => .bind (.lift _) fun _ =>
    ints_ite (ints_fail _) (.bind ints_u32 fun _ => .bind ints_u32 fun _ => .bind (.lift _) fun _ =>
      .bind ints_u32 fun _ => .pure _)

theorem ints_stringLoop (start : UInt32) (stop orig fuel : Nat) (acc : Str) : IntProg cfg (parseStringLoop cfg start stop orig fuel acc) := by
  induction fuel generalizing acc with
  | zero => exact .lift .nofuel
  | succ fuel ih =>
    rw [parseStringLoop_eq]
    exact .bind .getOffset fun _ => .bind (.lift _) fun _ => ints_ite (ints_fail _)
      (.bind (.restoring _ .u8) fun _ => ints_ite (.pure _) (ih _))

theorem ints_string (fh : FileHeader) (off : UInt32) : IntProg cfg (parseString cfg fh off) :=
  .bind (.lift _) fun _ => .bind (.lift _) fun _ => .bind (.lift _) fun _ =>
    ints_ite (ints_fail _) (.bind .getOffset fun _ => .bind (.setOffset _) fun _ =>
    .bind (ints_stringLoop _ _ _ _ _) fun _ => .bind (.setOffset _) fun _ => .pure _)

theorem ints_name (fh : FileHeader) (off : UInt32) : IntProg cfg (parseName cfg fh off) := by
  unfold parseName
  exact ints_ite (.bind (ints_string _ _) fun _ => .pure _) (.pure _)

theorem ints_repeat {α : Type} {p : P α} (h : IntProg cfg p) (n : Nat) : IntProg cfg (repeatP p n) := by
  induction n with
  | zero => exact .pure _
  | succ n ih => exact .bind h fun _ => .bind ih fun _ => .pure _

theorem ints_checkExtra (fh : FileHeader) (k : Kind) (th : Header) : IntProg cfg (checkExtra cfg fh k th) := by
  unfold checkExtra
  exact ints_ite (ints_fail _) (.bind (.lift _) fun _ => ints_ite (.bind (.lift _) fun _ => .bind (.lift _) fun _ =>
      .bind .getOffset fun _ => ints_ite (ints_fail _) (.bind (.lift _) fun _ => ints_ite (ints_fail _) (.pure _)))
    (.pure _))

theorem ints_defineType {D : Type} {fh : FileHeader} {k : Kind} {th : Header} {d : P D}
    {mk : Header → D → TypeVariant} (h : IntProg cfg d) : IntProg cfg (defineTypeNew cfg fh k th d mk) :=
  .bind (ints_checkExtra _ _ _) fun _ => .bind h fun _ => .pure _

theorem ints_parseType (fh : FileHeader) (th : Header) : IntProg cfg (parseType cfg fh th) := by
  have hmember : ∀ kf, IntProg cfg (Member.parse cfg fh kf) := fun kf =>
    .bind ints_u32 fun _ => .bind ints_u32 fun _ => .bind ints_u32 fun _ => .bind (ints_name _ _) fun _ =>
      .bind (.lift _) fun _ => .pure _
  have hstruct : IntProg cfg (StructData.new cfg fh th) :=
    .bind (ints_repeat (hmember _) _) fun _ => .bind (ints_name _ _) fun _ => .pure _
  have hnamed : IntProg cfg (NamedTidData.new cfg fh th) :=
    .bind (ints_name _ _) fun _ => .pure _
  have htid : IntProg cfg (TidData.new th) := .pure _
  have henum : ∀ s, IntProg cfg (NamedValue32.parse cfg fh s) := by
    intro s
    refine .bind ints_u32 fun _ => .bind (ints_string _ _) fun _ => ?_
    cases s
    · exact .bind ints_u32 fun _ => .pure _
    · exact .bind ints_i32 fun _ => .pure _
  have henum64 : ∀ s, IntProg cfg (NamedValue64.parse cfg fh s) := by
    intro s
    refine .bind ints_u32 fun _ => .bind (ints_string _ _) fun _ => ?_
    cases s
    · exact .bind ints_u64 fun _ => .pure _
    · exact .bind ints_i64 fun _ => .pure _
  have hvar : IntProg cfg (Variable.parse cfg) :=
    .bind ints_u32 fun _ => .bind ints_u32 fun _ => .bind ints_u32 fun _ => .pure _
  have hparam : IntProg cfg (Parameter.parse cfg fh) :=
    .bind ints_u32 fun _ => .bind ints_u32 fun _ => .bind (ints_name _ _) fun _ => .pure _
  unfold parseType
  split
  · exact ints_defineType (.bind ints_u32 fun _ => .bind (ints_name _ _) fun _ => .pure _)
  · exact ints_defineType hnamed
  · exact ints_defineType (.bind (ints_repeat (henum _) _) fun _ => .bind (ints_name _ _) fun _ => .pure _)
  · exact ints_defineType htid
  · exact ints_defineType htid
  · exact ints_defineType htid
  · exact ints_defineType (.bind ints_u32 fun _ => .bind ints_u32 fun _ => .bind ints_u32 fun _ => .pure _)
  · exact ints_defineType (.bind (ints_repeat hparam _) fun _ => .pure _)
  · exact ints_defineType hstruct
  · exact ints_defineType hstruct
  · exact ints_defineType hnamed
  · exact ints_defineType (.bind ints_u32 fun _ => .bind (ints_name _ _) fun _ => .pure _)
  · exact ints_defineType (.bind (ints_repeat (henum64 _) _) fun _ => .bind (ints_name _ _) fun _ => .pure _)
  · exact ints_defineType (.bind (ints_name _ _) fun _ => .pure _)
  · exact ints_defineType (.bind (ints_name _ _) fun _ => .pure _)
  · exact ints_defineType htid
  · exact ints_defineType (.bind (ints_repeat hvar _) fun _ => .bind (ints_name _ _) fun _ => .pure _)
  · exact ints_defineType hnamed
  · exact ints_defineType (.bind ints_u32 fun _ => .bind (ints_name _ _) fun _ => .pure _)

theorem ints_loop (fh : FileHeader) (stop fuel : Nat) (tid : UInt32) (ti : TypeInformation) :
    IntProg cfg (parseLoop cfg fh stop fuel tid ti) := by
  induction fuel generalizing tid ti with
  | zero => exact .lift .nofuel
  | succ fuel ih =>
    exact .bind .getOffset fun _ => ints_ite (.bind (ints_header _) fun _ => .bind (ints_parseType _ _) fun _ =>
      .bind (.lift _) fun _ => ih _ _) (.pure _)

theorem ints_afterHeader (fh : FileHeader) : IntProg cfg (afterHeader cfg fh) :=
  .bind (.lift _) fun _ => .bind (.lift _) fun _ => .bind (.setOffset _) fun _ => ints_loop _ _ _ _ _

/-! ### Version and flags are not used -/

theorem parseType_version (fh : FileHeader) (v w : UInt8) (th : Header) :
    parseType cfg { fh with version := v, flags := w } th = parseType cfg fh th := rfl

theorem loop_version (fh : FileHeader) (v w : UInt8) (stop fuel : Nat) (tid : UInt32) (ti : TypeInformation) :
    parseLoop cfg { fh with version := v, flags := w } stop fuel tid ti = parseLoop cfg fh stop fuel tid ti := by
  induction fuel generalizing tid ti with
  | zero => rfl
  | succ fuel ih =>
    unfold parseLoop
    have : Header.new cfg { fh with version := v, flags := w } = Header.new cfg fh := rfl
    simp only [parseType_version, this, ih]

theorem afterHeader_version (fh : FileHeader) (v w : UInt8) :
    afterHeader cfg { fh with version := v, flags := w } = afterHeader cfg fh := by
  unfold afterHeader
  simp only [loop_version]

/-! ### Sources with the same integers -/

variable {R R' : Readable} {e e' : Endianness}

/-- Two readers at the same place. -/
structure Twins (R R' : Readable) (e e' : Endianness) (r r' : Reader) : Prop where
  readable : r.readable = R
  readable' : r'.readable = R'
  endianness : r.endianness = e
  endianness' : r'.endianness = e'
  offset : r'.offset = r.offset
  trace : r'.trace = r.trace

def AgreeInts (R R' : Readable) (e e' : Endianness) (new old : List ReadEvent) : Prop :=
  ∀ later ev earlier, new = later ++ ev :: earlier →
    SameInt e e' ev.len (R.read (earlier ++ old) ev.offset ev.len) (R'.read (earlier ++ old) ev.offset ev.len)

theorem AgreeInts.append {new new' old : List ReadEvent} (h : AgreeInts R R' e e' (new' ++ new) old) :
    AgreeInts R R' e e' new old ∧ AgreeInts R R' e e' new' (new ++ old) := by
  constructor
  · rintro later ev earlier rfl
    exact h (new' ++ later) ev earlier (by simp)
  · rintro later ev earlier rfl
    have := h later ev (earlier ++ new) (by simp)
    simpa using this

/-- Reading an integer. -/
theorem twins_int {α : Type} (n : Nat) (mk : Nat → α) {r r' : Reader} (hT : Twins R R' e e' r r')
    (hs : SameInt e e' n (R.read r.trace r.offset n) (R'.read r.trace r.offset n)) :
    let p : P α := (Reader.read cfg n >>= fun b => getEndianness >>= fun e => Pure.pure (mk (decodeNat e b n)))
    (p r).1 = (p r').1 ∧ Twins R R' e e' (p r).2 (p r').2 := by
  intro p
  obtain ⟨h1, h2, h3, h4, h5, h6⟩ := hT
  have hp : ∀ r : Reader, p r = match r.readable.read r.trace r.offset n with
      | .error k => (.err (.source k), { r with trace := ⟨r.offset, n, some k⟩ :: r.trace })
      | .ok b => match cfg.usizeAdd r.offset n with
        | .ok o => (.ok (mk (decodeNat r.endianness b n)), { r with offset := o, trace := ⟨r.offset, n, none⟩ :: r.trace })
        | .err e => (.err e, { r with trace := ⟨r.offset, n, none⟩ :: r.trace })
        | .panic => (.panic, { r with trace := ⟨r.offset, n, none⟩ :: r.trace })
        | .nofuel => (.nofuel, { r with trace := ⟨r.offset, n, none⟩ :: r.trace }) := by
    intro r
    change P.bind _ _ r = _
    unfold P.bind Reader.read
    cases r.readable.read r.trace r.offset n with
    | error k => rfl
    | ok b =>
      simp only []
      cases cfg.usizeAdd r.offset n with
      | ok o =>
        change (Res.ok (mk (decodeNat r.endianness (fun i => if i < n then b i else 0) n)), _) = _
        rw [decodeNat_buffer]
      | _ => rfl
  rw [hp, hp, h1, h2, h3, h4, h5, h6]
  cases ha : R.read r.trace r.offset n with
  | error k =>
    rw [ha] at hs
    cases ha' : R'.read r.trace r.offset n with
    | error k' =>
      rw [ha'] at hs; cases hs
      exact ⟨rfl, rfl, rfl, rfl, rfl, rfl, rfl⟩
    | ok b' => rw [ha'] at hs; exact hs.elim
  | ok b =>
    rw [ha] at hs
    cases ha' : R'.read r.trace r.offset n with
    | error k' => rw [ha'] at hs; exact hs.elim
    | ok b' =>
      rw [ha'] at hs
      have hd : decodeNat e b n = decodeNat e' b' n := by rw [decodeNat_eq, decodeNat_eq]; exact hs
      simp only []
      rw [hd]
      cases cfg.usizeAdd r.offset n <;> exact ⟨rfl, rfl, rfl, rfl, rfl, rfl, rfl⟩

theorem u8_eq : u8 cfg =
    (Reader.read cfg 1 >>= fun b => getEndianness >>= fun e => Pure.pure (UInt8.ofNat (decodeNat e b 1))) := by
  funext r
  change P.bind _ _ r = P.bind _ _ r
  unfold P.bind
  cases Reader.read cfg 1 r with
  | mk o r' =>
    cases o with
    | ok b =>
      change (Res.ok (b 0), r') = (Res.ok (UInt8.ofNat (decodeNat r'.endianness b 1)), r')
      have : UInt8.ofNat (decodeNat r'.endianness b 1) = b 0 := by
        rw [decodeNat_eq]
        have : (List.range 1).map b = [b 0] := rfl
        rw [this, intOf_one]; simp
      rw [this]
    | _ => rfl

theorem read_trace {n : Nat} {r : Reader} {new : List ReadEvent} (hnew : (Reader.read cfg n r).2.trace = new ++ r.trace) :
    ∃ fl, new = [⟨r.offset, n, fl⟩] := by
  unfold Reader.read at hnew
  cases hread : r.readable.read r.trace r.offset n with
  | error k =>
    rw [hread] at hnew
    exact ⟨some k, (List.append_cancel_right (as := [_]) hnew).symm⟩
  | ok b =>
    rw [hread] at hnew
    simp only [] at hnew
    refine ⟨none, (List.append_cancel_right (as := [_]) (bs := r.trace) (Eq.trans ?_ hnew)).symm⟩
    cases cfg.usizeAdd r.offset n <;> rfl

theorem int_trace {α : Type} (n : Nat) (mk : Nat → α) (r : Reader) :
    ((Reader.read cfg n >>= fun b => getEndianness >>= fun e => Pure.pure (mk (decodeNat e b n)) : P α) r).2.trace =
      (Reader.read cfg n r).2.trace := by
  change (P.bind _ _ r).2.trace = _
  unfold P.bind
  cases Reader.read cfg n r with
  | mk o r' => cases o <;> rfl

/-- Two runs on sources with the same integers. -/
theorem IntProg.same {α : Type} {p : P α} (h : IntProg cfg p) (r r' : Reader) (hT : Twins R R' e e' r r')
    (new : List ReadEvent) (hnew : (p r).2.trace = new ++ r.trace) (hagree : AgreeInts R R' e e' new r.trace) :
    (p r).1 = (p r').1 ∧ Twins R R' e e' (p r).2 (p r').2 := by
  induction h generalizing r r' new with
  | pure a => exact ⟨rfl, hT⟩
  | lift o => exact ⟨rfl, hT⟩
  | getOffset => exact ⟨congrArg Res.ok hT.offset.symm, hT⟩
  | setOffset o => exact ⟨rfl, hT.readable, hT.readable', hT.endianness, hT.endianness', rfl, hT.trace⟩
  | u8 =>
    rw [u8_eq] at hnew ⊢
    rw [int_trace] at hnew
    obtain ⟨fl, rfl⟩ := read_trace hnew
    exact twins_int 1 _ hT (hagree [] _ [] rfl)
  | int n _ mk =>
    rw [int_trace] at hnew
    obtain ⟨fl, rfl⟩ := read_trace hnew
    exact twins_int n _ hT (hagree [] _ [] rfl)
  | @bind α β p p' hp hp' ih ih' =>
    have hrun : ∀ r, (p >>= p') r = P.bind p p' r := fun _ => rfl
    rw [hrun] at hnew
    rw [hrun, hrun]
    unfold P.bind at hnew ⊢
    have hd := (hp.prog.discipline r)
    obtain ⟨new1, h1, -, -⟩ := hd.trace
    cases hpr : p r with
    | mk o r1 =>
      rw [hpr] at hnew h1
      simp only [] at h1
      cases hpr' : p r' with
      | mk o' r1' =>
        cases o with
        | ok a =>
          simp only [] at hnew
          obtain ⟨new2, h2, -, -⟩ := ((hp' a).prog.discipline r1).trace
          have hn : new = new2 ++ new1 := by
            rw [h2, h1, ← List.append_assoc] at hnew
            exact (List.append_cancel_right hnew).symm
          subst hn
          have hag := hagree.append
          have e1 := ih r r' hT new1 (by rw [hpr, h1]) hag.1
          rw [hpr, hpr'] at e1
          obtain ⟨e1, hT1⟩ := e1
          simp only [] at e1 hT1
          subst e1
          exact ih' a r1 r1' hT1 new2 h2 (by rw [h1]; exact hag.2)
        | err k =>
          simp only [] at hnew
          have e1 := ih r r' hT new (by rw [hpr, hnew]) hagree
          rw [hpr, hpr'] at e1
          obtain ⟨e1, hT1⟩ := e1
          simp only [] at e1 hT1
          subst e1
          exact ⟨rfl, hT1⟩
        | panic =>
          simp only [] at hnew
          have e1 := ih r r' hT new (by rw [hpr, hnew]) hagree
          rw [hpr, hpr'] at e1
          obtain ⟨e1, hT1⟩ := e1
          simp only [] at e1 hT1
          subst e1
          exact ⟨rfl, hT1⟩
        | nofuel =>
          simp only [] at hnew
          have e1 := ih r r' hT new (by rw [hpr, hnew]) hagree
          rw [hpr, hpr'] at e1
          obtain ⟨e1, hT1⟩ := e1
          simp only [] at e1 hT1
          subst e1
          exact ⟨rfl, hT1⟩
  | @restoring α p o hp ih =>
    have ht : ∀ r, (p.restoring o r).2.trace = (p r).2.trace := by
      intro r
      unfold P.restoring
      cases p r with
      | mk x r' => cases x <;> rfl
    have e1 := ih r r' hT new (by rw [← ht, hnew]) hagree
    unfold P.restoring
    cases hpr : p r with
    | mk x r1 =>
      cases hpr' : p r' with
      | mk x' r1' =>
        rw [hpr, hpr'] at e1
        obtain ⟨e1, hT1⟩ := e1
        simp only [] at e1 hT1
        subst e1
        cases x with
        | err k => exact ⟨rfl, hT1.readable, hT1.readable', hT1.endianness, hT1.endianness', rfl, hT1.trace⟩
        | _ => exact ⟨rfl, hT1⟩

/-- Two sources that announce the same sections and contain the same integers. -/
theorem new_twins {fh fh' : FileHeader} (h : Announces R e fh) (h' : Announces R' e' fh')
    (hsec : fh'.hdrLen = fh.hdrLen ∧ fh'.typeOff = fh.typeOff ∧ fh'.typeLen = fh.typeLen ∧
      fh'.strOff = fh.strOff ∧ fh'.strLen = fh.strLen) {new : List ReadEvent}
    (hnew : TypeInformation.newTrace cfg R = new ++ headerRequests 8)
    (hagree : AgreeInts R R' e e' new (headerRequests 8)) :
    TypeInformation.newT cfg R' = TypeInformation.newT cfg R ∧
    TypeInformation.newTrace cfg R' = TypeInformation.newTrace cfg R := by
  obtain ⟨r, h1, h2⟩ := header_announced (cfg := cfg) h
  obtain ⟨r', h1', h2'⟩ := header_announced (cfg := cfg) h'
  have hrun : TypeInformation.newP cfg (Reader.new R) = afterHeader cfg fh r := by
    rw [newP_eq]; change P.bind _ _ _ = _; unfold P.bind; rw [h1]
  have hrun' : TypeInformation.newP cfg (Reader.new R') = afterHeader cfg fh r' := by
    rw [newP_eq]; change P.bind _ _ _ = _; unfold P.bind; rw [h1']
    simp only []
    rw [← afterHeader_version fh fh'.version fh'.flags]
    obtain ⟨a1, a2, a3, a4, a5⟩ := hsec
    rw [← a1, ← a2, ← a3, ← a4, ← a5]
  have hT : Twins R R' e e' r r' := by
    refine ⟨h2.readable, h2'.readable, h2.endianness, h2'.endianness, ?_, h2'.trace.trans h2.trace.symm⟩
    rw [h2.last rfl, h2'.last rfl]
  unfold TypeInformation.newTrace at hnew
  rw [hrun] at hnew
  have := (ints_afterHeader (cfg := cfg) fh).same r r' hT new (by rw [hnew, h2.trace]) (by rw [h2.trace]; exact hagree)
  unfold TypeInformation.newT TypeInformation.newTrace
  rw [hrun, hrun']
  exact ⟨this.1.symm, this.2.trace⟩

end

end Btf

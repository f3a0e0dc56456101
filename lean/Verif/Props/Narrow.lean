import Verif.Props.Source
import Verif.Samples

/-!
# Property C78: the constructor on 32-bit targets
-/

namespace Btf.Props

open Btf Spec Reader

theorem usizeMod_w32 (b : Bool) : Cfg.usizeMod ⟨.w32, b⟩ = 2 ^ 32 := rfl
theorem usizeMod_w64 (b : Bool) : Cfg.usizeMod ⟨.w64, b⟩ = 2 ^ 64 := rfl

theorem stricter_narrow (b : Bool) : Stricter ⟨.w32, true⟩ ⟨.w64, b⟩ :=
  ⟨by rw [usizeMod_w32, usizeMod_w64]; decide, .inl rfl⟩

/-- After the header. -/
def afterHeader (cfg : Cfg) (fh : FileHeader) : P TypeInformation := do
  let start ← P.lift (okOr (u32CheckedAdd fh.hdrLen fh.typeOff) .typeSectionStart)
  let typeSectionEnd ←
    P.lift (okOr (cfg.usizeCheckedAdd start.toNat fh.typeLen.toNat) .typeSectionEnd)
  setOffset start.toNat
  parseLoop cfg fh typeSectionEnd (fh.typeLen.toNat + 1) 1 TypeInformation.empty

theorem afterHeader_some {cfg : Cfg} {fh : FileHeader} {start : UInt32} {stop : Nat} (r : Reader)
    (h : u32CheckedAdd fh.hdrLen fh.typeOff = some start)
    (h' : cfg.usizeCheckedAdd start.toNat fh.typeLen.toNat = some stop) :
    afterHeader cfg fh r =
      parseLoop cfg fh stop (fh.typeLen.toNat + 1) 1 TypeInformation.empty { r with offset := start.toNat } := by
  unfold afterHeader
  rw [h]
  change P.bind (P.lift (okOr (cfg.usizeCheckedAdd start.toNat fh.typeLen.toNat) .typeSectionEnd)) _ _ = _
  rw [h']
  rfl

theorem afterHeader_none {cfg : Cfg} {fh : FileHeader} {start : UInt32} (r : Reader)
    (h : u32CheckedAdd fh.hdrLen fh.typeOff = some start)
    (h' : cfg.usizeCheckedAdd start.toNat fh.typeLen.toNat = none) :
    afterHeader cfg fh r = (.err .typeSectionEnd, r) := by
  unfold afterHeader
  rw [h]
  change P.bind (P.lift (okOr (cfg.usizeCheckedAdd start.toNat fh.typeLen.toNat) .typeSectionEnd)) _ _ = _
  rw [h']
  rfl

theorem header_overflow {cfg : Cfg} {fh : FileHeader} {start : UInt32} {r : Reader}
    (h : u32CheckedAdd fh.hdrLen fh.typeOff = some start) (h' : u32CheckedAdd start fh.typeLen = none) :
    Header.new cfg fh r = (.err .typeSectionEnd, r) := by
  unfold Header.new
  rw [h]
  change P.bind (P.lift (okOr (u32CheckedAdd start fh.typeLen) .typeSectionEnd)) _ _ = _
  rw [h']
  rfl

theorem loop_overflow' {cfg : Cfg} {fh : FileHeader} {start : UInt32} {stop n : Nat} {tid : UInt32} {ti : TypeInformation}
    {r : Reader} (h : u32CheckedAdd fh.hdrLen fh.typeOff = some start) (h' : u32CheckedAdd start fh.typeLen = none)
    (hr : r.offset < stop) : parseLoop cfg fh stop (n + 1) tid ti r = (.err .typeSectionEnd, r) := by
  rw [parseLoop]
  change P.bind getOffset _ _ = _
  unfold P.bind getOffset
  simp only []
  rw [if_pos hr]
  change P.bind (Header.new cfg fh) _ _ = _
  unfold P.bind
  rw [header_overflow h h']

theorem checked_64 (b : Bool) (x y : UInt32) :
    Cfg.usizeCheckedAdd ⟨.w64, b⟩ x.toNat y.toNat = some (x.toNat + y.toNat) := by
  have h1 := x.toNat_lt
  have h2 := y.toNat_lt
  unfold Cfg.usizeCheckedAdd
  rw [if_pos (by rw [usizeMod_w64]; omega)]

theorem checked_32 (b : Bool) {x y : UInt32} (h : x.toNat + y.toNat < 2 ^ 32) :
    Cfg.usizeCheckedAdd ⟨.w32, b⟩ x.toNat y.toNat = some (x.toNat + y.toNat) := by
  unfold Cfg.usizeCheckedAdd
  rw [if_pos (by rw [usizeMod_w32]; exact h)]

theorem checked_32_none (b : Bool) {x y : UInt32} (h : ¬ x.toNat + y.toNat < 2 ^ 32) :
    Cfg.usizeCheckedAdd ⟨.w32, b⟩ x.toNat y.toNat = none := by
  unfold Cfg.usizeCheckedAdd
  rw [if_neg (by rw [usizeMod_w32]; exact h)]

theorem u32_none {x y : UInt32} (h : ¬ x.toNat + y.toNat < 2 ^ 32) : u32CheckedAdd x y = none := by
  unfold u32CheckedAdd; rw [if_neg h]

theorem loop_start {x y : UInt32} (h : ¬ x.toNat + y.toNat < 2 ^ 32) : x.toNat < x.toNat + y.toNat := by
  have := x.toNat_lt
  omega

/-- The same result and the same requests. -/
def SameRun {α : Type} (x y : Res LoadReason α × Reader) : Prop := x.1 = .panic ∨ (x.1 = y.1 ∧ x.2.trace = y.2.trace)

theorem SameRun.of {α : Type} {x y : Res LoadReason α × Reader} (h : x.1 = .panic ∨ x = y) : SameRun x y := by
  rcases h with h | h
  · exact .inl h
  · subst h; exact .inr ⟨rfl, rfl⟩

theorem afterHeader_narrow (b : Bool) (fh : FileHeader) (r : Reader) :
    SameRun (afterHeader ⟨.w32, true⟩ fh r) (afterHeader ⟨.w64, b⟩ fh r) := by
  have hc := stricter_narrow b
  cases hs : u32CheckedAdd fh.hdrLen fh.typeOff with
  | none =>
    have key : ∀ cfg, afterHeader cfg fh r = (.err .typeSectionStart, r) := by
      intro cfg; unfold afterHeader; rw [hs]; rfl
    rw [key, key]
    exact .inr ⟨rfl, rfl⟩
  | some start =>
    have h64 := checked_64 b start fh.typeLen
    by_cases h : start.toNat + fh.typeLen.toNat < 2 ^ 32
    · rw [afterHeader_some r hs (checked_32 true h), afterHeader_some r hs h64]
      exact SameRun.of (Prog.refines hc (prog_loop hc fh _ _ 1 TypeInformation.empty) _)
    · rw [afterHeader_none r hs (checked_32_none true h), afterHeader_some r hs h64,
        loop_overflow' hs (u32_none h) (r := { r with offset := start.toNat }) (loop_start h)]
      exact .inr ⟨rfl, rfl⟩

/-- C78: on a 32-bit target with overflow checks `new` panics, or makes the same requests and returns the same (the
same types, or the same error) as on a 64-bit target, whatever the source does. -/
theorem new_widths (b : Bool) (R : Readable) :
    TypeInformation.newT ⟨.w32, true⟩ R = .panic ∨
    (TypeInformation.newT ⟨.w32, true⟩ R = TypeInformation.newT ⟨.w64, b⟩ R ∧
     TypeInformation.newTrace ⟨.w32, true⟩ R = TypeInformation.newTrace ⟨.w64, b⟩ R) := by
  have hc := stricter_narrow b
  change (P.bind (FileHeader.new ⟨.w32, true⟩) (afterHeader ⟨.w32, true⟩) (Reader.new R)).1 = _ ∨
    ((P.bind (FileHeader.new ⟨.w32, true⟩) (afterHeader ⟨.w32, true⟩) (Reader.new R)).1 =
      (P.bind (FileHeader.new ⟨.w64, b⟩) (afterHeader ⟨.w64, b⟩) (Reader.new R)).1 ∧
     (P.bind (FileHeader.new ⟨.w32, true⟩) (afterHeader ⟨.w32, true⟩) (Reader.new R)).2.trace =
      (P.bind (FileHeader.new ⟨.w64, b⟩) (afterHeader ⟨.w64, b⟩) (Reader.new R)).2.trace)
  unfold P.bind
  rcases Prog.refines hc (prog_fileHeader hc) (Reader.new R) with h | h
  · left
    cases hp : FileHeader.new ⟨.w32, true⟩ (Reader.new R) with
    | mk o r => rw [hp] at h; cases h; rfl
  · rw [← h]
    cases FileHeader.new ⟨.w32, true⟩ (Reader.new R) with
    | mk o r =>
      cases o with
      | ok fh =>
        have := afterHeader_narrow b fh r
        exact this
      | _ => exact .inr ⟨rfl, rfl⟩


/-! ### Without overflow checks -/

/-- `TypeInformation::new` (src/btf/type_information.rs:435-488) where the loop is stopped after `n` records (in
`TypeInformation.newP` it is stopped after `type_len + 1`, which is never reached if offsets do not wrap around). -/
def newAtMost (cfg : Cfg) (n : Nat) (R : Readable) : Res LoadReason TypeInformation :=
  ((do
    let fh ← FileHeader.new cfg
    let start ← P.lift (okOr (u32CheckedAdd fh.hdrLen fh.typeOff) .typeSectionStart)
    let typeSectionEnd ←
      P.lift (okOr (cfg.usizeCheckedAdd start.toNat fh.typeLen.toNat) .typeSectionEnd)
    setOffset start.toNat
    parseLoop cfg fh typeSectionEnd n 1 TypeInformation.empty : P TypeInformation) (Reader.new R)).1

/-- A file of 4 GiB: this header, and then the word `0x02000000` again and again. -/
def endlessHeader : List UInt8 :=
  [0x9F, 0xEB, 0, 2, 0, 0, 0, 0x09, 0, 0, 0, 0xEB, 0xFF, 0xFF, 0xFF, 0x0B, 0, 0, 0, 2, 0, 0, 0, 2]

def endlessByte (i : Nat) : UInt8 :=
  if i < 24 then endlessHeader.getD i 0 else if i % 4 = 3 then 2 else 0

/-- Serves the first `2^32` bytes of the file. -/
def endless : Readable where
  read _ offset len := if offset + len ≤ 2 ^ 32 then .ok (fun i => endlessByte (offset + i)) else .error ⟨.EOF, []⟩

def endlessFh : FileHeader := ⟨0, 2, 0x09000000, 0xEB000000, 0x0BFFFFFF, 0x02000000, 0x02000000⟩

def rel32 : Cfg := ⟨.w32, false⟩

theorem endless_fh : ∃ tr, FileHeader.new rel32 (Reader.new endless) = (.ok endlessFh, ⟨endless, 24, .little, tr⟩) := ⟨_, rfl⟩

def endlessWord (o : Nat) : UInt32 := UInt32.ofNat (leNat (fun i => if i < 4 then endlessByte (o + i) else 0) 4)

theorem endless_read {o : Nat} (h : o < 2 ^ 32) (h4 : o % 4 = 0) (tr : List ReadEvent) :
    ∃ tr', u32 rel32 ⟨endless, o, .little, tr⟩ =
      (.ok (endlessWord o), ⟨endless, (o + 4) % 2 ^ 32, .little, tr'⟩) := by
  refine ⟨⟨o, 4, none⟩ :: tr, ?_⟩
  have hr : Reader.read rel32 4 ⟨endless, o, .little, tr⟩ =
      (.ok (fun i => if i < 4 then endlessByte (o + i) else 0), ⟨endless, (o + 4) % 2 ^ 32, .little, ⟨o, 4, none⟩ :: tr⟩) := by
    have hread : endless.read tr o 4 = .ok (fun i => endlessByte (o + i)) := by
      unfold endless
      simp only []
      rw [if_pos (by omega)]
    have hadd : (rel32.usizeAdd o 4 : Res LoadReason Nat) = .ok ((o + 4) % 2 ^ 32) := by
      unfold Cfg.usizeAdd Cfg.wrapOr
      rw [show rel32.usizeMod = 2 ^ 32 from rfl, show rel32.overflowChecks = false from rfl]
      by_cases h : o + 4 < 2 ^ 32
      · rw [if_pos h, Nat.mod_eq_of_lt h]
      · rw [if_neg h]; rfl
    unfold Reader.read
    simp only []
    rw [hread, hadd]
  change P.bind (Reader.read rel32 4) _ _ = _
  unfold P.bind
  rw [hr]
  rfl

theorem endless_info {o : Nat} (h4 : o % 4 = 0) :
    Kind.new ((endlessWord o &&& 0x1F000000) >>> 24) ∈ [Res.ok Kind.Ptr, .ok .Const, .ok .Volatile, .ok .Restrict] := by
  by_cases h : o < 24
  · have : o = 0 ∨ o = 4 ∨ o = 8 ∨ o = 12 ∨ o = 16 ∨ o = 20 := by omega
    rcases this with rfl | rfl | rfl | rfl | rfl | rfl <;> decide +kernel
  · have hb : ∀ i < 4, endlessByte (o + i) = if i = 3 then 2 else 0 := by
      intro i hi
      unfold endlessByte
      rw [if_neg (by omega)]
      by_cases h3 : i = 3
      · rw [if_pos h3, if_pos (by omega)]
      · rw [if_neg h3, if_neg (by omega)]
    have : endlessWord o = 0x02000000 := by
      unfold endlessWord leNat leNat leNat leNat leNat
      rw [hb 0 (by decide), hb 1 (by decide), hb 2 (by decide), hb 3 (by decide)]
      decide
    rw [this]
    decide

theorem bind_run {α β : Type} {p : P α} {f : α → P β} {r r' : Reader} {a : α} (h : p r = (.ok a, r')) :
    (p >>= f) r = f a r' := by
  change P.bind p f r = _
  unfold P.bind
  rw [h]

/-- One record: nothing stops the parser, and it is again at a multiple of 4. -/
theorem endless_header {o : Nat} (h : o < 2 ^ 32) (h4 : o % 4 = 0) (tr : List ReadEvent) :
    ∃ th o' tr', Header.new rel32 endlessFh ⟨endless, o, .little, tr⟩ = (.ok th, ⟨endless, o', .little, tr'⟩) ∧
      o' < 2 ^ 32 ∧ o' % 4 = 0 ∧ (th.kind = .Ptr ∨ th.kind = .Const ∨ th.kind = .Volatile ∨ th.kind = .Restrict) := by
  obtain ⟨tr1, e1⟩ := endless_read h h4 tr
  obtain ⟨tr2, e2⟩ := endless_read (o := (o + 4) % 2 ^ 32) (by omega) (by omega) tr1
  obtain ⟨tr3, e3⟩ := endless_read (o := ((o + 4) % 2 ^ 32 + 4) % 2 ^ 32) (by omega) (by omega) tr2
  have hk := endless_info (o := (o + 4) % 2 ^ 32) (by omega)
  have hadd : (rel32.usizeAdd o TYPE_HEADER_SIZE : Res LoadReason Nat) = .ok ((o + 12) % 2 ^ 32) := by
    unfold Cfg.usizeAdd Cfg.wrapOr TYPE_HEADER_SIZE
    rw [show rel32.usizeMod = 2 ^ 32 from rfl, show rel32.overflowChecks = false from rfl]
    by_cases h : o + 12 < 2 ^ 32
    · rw [if_pos h, Nat.mod_eq_of_lt h]
    · rw [if_neg h]; rfl
  have hs : u32CheckedAdd endlessFh.hdrLen endlessFh.typeOff = some 0xF4000000 := by decide
  have he : u32CheckedAdd 0xF4000000 endlessFh.typeLen = some 0xFFFFFFFF := by decide
  obtain ⟨k, hk, hk'⟩ : ∃ k, Kind.new ((endlessWord ((o + 4) % 2 ^ 32) &&& 0x1F000000) >>> 24) = .ok k ∧
      (k = .Ptr ∨ k = .Const ∨ k = .Volatile ∨ k = .Restrict) := by
    simp only [List.mem_cons, List.not_mem_nil, or_false] at hk
    rcases hk with h | h | h | h
    · exact ⟨_, h, .inl rfl⟩
    · exact ⟨_, h, .inr (.inl rfl)⟩
    · exact ⟨_, h, .inr (.inr (.inl rfl))⟩
    · exact ⟨_, h, .inr (.inr (.inr rfl))⟩
  refine ⟨⟨k, endlessWord o, (endlessWord ((o + 4) % 2 ^ 32) &&& 0xFFFF).toNat,
    (endlessWord ((o + 4) % 2 ^ 32) &&& 0x80000000) != 0, endlessWord (((o + 4) % 2 ^ 32 + 4) % 2 ^ 32)⟩,
    (((o + 4) % 2 ^ 32 + 4) % 2 ^ 32 + 4) % 2 ^ 32, tr3, ?_, by omega, by omega, hk'⟩
  have l1 : P.lift (okOr (u32CheckedAdd endlessFh.hdrLen endlessFh.typeOff) .typeSectionStart)
      ⟨endless, o, .little, tr⟩ = (.ok 0xF4000000, ⟨endless, o, .little, tr⟩) := by rw [hs]; rfl
  have l2 : P.lift (okOr (u32CheckedAdd 0xF4000000 endlessFh.typeLen) .typeSectionEnd)
      ⟨endless, o, .little, tr⟩ = (.ok 0xFFFFFFFF, ⟨endless, o, .little, tr⟩) := by rw [he]; rfl
  have l3 : P.lift (rel32.usizeAdd o TYPE_HEADER_SIZE) ⟨endless, o, .little, tr⟩ =
      (.ok ((o + 12) % 2 ^ 32), ⟨endless, o, .little, tr⟩) := by rw [hadd]; rfl
  have l4 : getOffset ⟨endless, o, .little, tr⟩ = (.ok o, ⟨endless, o, .little, tr⟩) := rfl
  have l5 : P.lift (Kind.new ((endlessWord ((o + 4) % 2 ^ 32) &&& 0x1F000000) >>> 24))
      ⟨endless, ((o + 4) % 2 ^ 32 + 4) % 2 ^ 32, .little, tr2⟩ =
      (.ok k, ⟨endless, ((o + 4) % 2 ^ 32 + 4) % 2 ^ 32, .little, tr2⟩) := by rw [hk]; rfl
  unfold Header.new
  rw [bind_run l1, bind_run l2, bind_run l4, bind_run l3, if_neg (by rw [show UInt32.toNat 0xFFFFFFFF = 2 ^ 32 - 1 from rfl]; omega),
    bind_run e1, bind_run e2, bind_run l5, bind_run e3]
  rfl

theorem endless_type {th : Header} (h : th.kind = .Ptr ∨ th.kind = .Const ∨ th.kind = .Volatile ∨ th.kind = .Restrict)
    (r : Reader) : ∃ v, parseType rel32 endlessFh th r = (.ok v, r) := by
  unfold parseType
  rcases h with h | h | h | h <;> rw [h] <;> simp only [] <;> unfold defineTypeNew checkExtra <;> rw [if_neg (not_not.2 h)] <;>
    exact ⟨_, rfl⟩

theorem endless_loop (n : Nat) : ∀ (tid : UInt32) (ti : TypeInformation) (o : Nat) (tr : List ReadEvent), o < 2 ^ 32 →
    o % 4 = 0 → (parseLoop rel32 endlessFh 0xFFFFFFFF n tid ti ⟨endless, o, .little, tr⟩).1 = .nofuel := by
  induction n with
  | zero => intros; rfl
  | succ n ih =>
    intro tid ti o tr h h4
    obtain ⟨th, o', tr', h1, h2, h3, hk⟩ := endless_header h h4 tr
    obtain ⟨v, hv⟩ := endless_type hk ⟨endless, o', .little, tr'⟩
    have hadd : ∃ tid', (rel32.u32Add tid 1 : Res LoadReason UInt32) = .ok tid' := by
      unfold Cfg.u32Add Cfg.wrapOr
      rw [show rel32.overflowChecks = false from rfl]
      by_cases h : tid.toNat + UInt32.toNat 1 < 2 ^ 32
      · rw [if_pos h]; exact ⟨_, rfl⟩
      · rw [if_neg h]; exact ⟨_, rfl⟩
    obtain ⟨tid', ht⟩ := hadd
    rw [parseLoop]
    change ((if o < 0xFFFFFFFF then _ else _ : P TypeInformation) _).1 = _
    rw [if_pos (by omega)]
    change (P.bind (Header.new rel32 endlessFh) _ _).1 = _
    unfold P.bind
    rw [h1]
    change (P.bind (parseType rel32 endlessFh th) _ _).1 = _
    unfold P.bind
    rw [hv]
    change (P.bind (P.lift (rel32.u32Add tid 1)) _ _).1 = _
    rw [ht]
    exact ih tid' _ o' tr' h2 h3

/-- C20 is false in builds without overflow checks, too: on a 32-bit target there is a file of 4 GiB on which `new`
never returns. The end of the type section is the end of the address space; the reader passes it, and starts again
at the beginning of the file. -/
theorem new_total_32_release_refuted (n : Nat) : newAtMost rel32 n endless = .nofuel := by
  obtain ⟨tr, h⟩ := endless_fh
  unfold newAtMost
  change (P.bind (FileHeader.new rel32) _ _).1 = _
  unfold P.bind
  rw [h]
  exact endless_loop n 1 _ 0xF4000000 tr (by decide) (by decide)


/-! ### Examples -/

/-- `new_widths`: both cases occur (`new_total_32_refuted` is a case of a panic). -/
example : TypeInformation.new ⟨.w32, true⟩ (Samples.buffer (Samples.leFile Samples.zooTypes Samples.zooStrings)) = .ok Samples.zoo ∧
    TypeInformation.new ⟨.w64, false⟩ (Samples.buffer (Samples.leFile Samples.zooTypes Samples.zooStrings)) = .ok Samples.zoo ∧
    newAtMost ⟨.w32, false⟩ 20 (Samples.buffer (Samples.leFile Samples.zooTypes Samples.zooStrings)) = .ok Samples.zoo := by
  decide +kernel

end Btf.Props

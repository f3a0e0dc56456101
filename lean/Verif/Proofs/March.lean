import Verif.Proofs.SafeNew
import Verif.Spec.Changing

/-!
# The type section is read from its beginning to its end, each byte once
-/

namespace Btf

open Spec Reader

/-- Requests (latest first) made by a reader that moves from `lo` to `hi`: each one is for a name (`S`), or begins where the
last one that was not for a name ended. -/
inductive Strides (S : ReadEvent → Prop) (lo : Nat) : Nat → List ReadEvent → Prop where
  | start : Strides S lo lo []
  | name {hi new ev} : S ev → Strides S lo hi new → Strides S lo hi (ev :: new)
  | word {new ev} : Strides S lo ev.offset new → Strides S lo (ev.offset + ev.len) (ev :: new)

section
variable {α β : Type} {S : ReadEvent → Prop} {cfg : Cfg} {fh : FileHeader}

theorem Strides.append {lo mid hi : Nat} {new new' : List ReadEvent} (h : Strides S lo mid new) (h' : Strides S mid hi new') :
    Strides S lo hi (new' ++ new) := by
  induction h' with
  | start => exact h
  | name hs _ ih => exact .name hs ih
  | word _ ih => exact .word ih

theorem Strides.le {lo hi : Nat} {new : List ReadEvent} (h : Strides S lo hi new) : lo ≤ hi := by
  induction h with
  | start => exact Nat.le_refl _
  | name _ _ ih => exact ih
  | word _ ih => omega

/-- Where the requests that are not for names are. -/
theorem Strides.range {lo hi : Nat} {new : List ReadEvent} (h : Strides S lo hi new) :
    ∀ ev ∈ new, S ev ∨ Within lo hi ev := by
  induction h with
  | start => intro ev h; cases h
  | name hs _ ih =>
    intro ev h
    rcases List.mem_cons.1 h with rfl | h
    · exact .inl hs
    · exact ih ev h
  | word h' ih =>
    intro ev h
    rcases List.mem_cons.1 h with rfl | h
    · exact .inr ⟨h'.le, Nat.le_refl _⟩
    · refine (ih ev h).imp id fun h => ⟨h.1, ?_⟩
      have := h.2; omega

/-- Two requests that are not for names do not overlap. -/
theorem Strides.apart {lo hi : Nat} {new : List ReadEvent} (h : Strides S lo hi new) :
    new.Pairwise fun later earlier => S later ∨ S earlier ∨ earlier.offset + earlier.len ≤ later.offset := by
  induction h with
  | start => exact .nil
  | name hs _ ih => exact .cons (fun _ _ => .inl hs) ih
  | word h ih =>
    refine .cons (fun ev hev => ?_) ih
    rcases h.range ev hev with h | h
    · exact .inr (.inl h)
    · exact .inr (.inr h.2)

/-- The requests of `p` are for names, or move the reader forward. -/
def Marches (cfg : Cfg) (S : ReadEvent → Prop) (p : P α) : Prop :=
  ∀ r, ∃ new, (p r).2.trace = new ++ r.trace ∧ ((∀ ev ∈ new, ev.offset + ev.len < cfg.usizeMod) →
    ∃ hi, Strides S r.offset hi new ∧ ∀ a, (p r).1 = .ok a → (p r).2.offset = hi)

theorem marches_still {p : P α} (h : ∀ r, (p r).2.trace = r.trace ∧ ∀ a, (p r).1 = .ok a → (p r).2.offset = r.offset) :
    Marches cfg S p := fun r =>
  ⟨[], by rw [(h r).1]; rfl, fun _ => ⟨_, .start, (h r).2⟩⟩

theorem marches_pure (a : α) : Marches cfg S (Pure.pure a : P α) := marches_still fun _ => ⟨rfl, fun _ _ => rfl⟩
theorem marches_fail (k : LoadReason) : Marches cfg S (P.fail k : P α) := marches_still fun _ => ⟨rfl, fun _ _ => rfl⟩
theorem marches_lift (o : Res LoadReason α) : Marches cfg S (P.lift o) := marches_still fun _ => ⟨rfl, fun _ _ => rfl⟩
theorem marches_getOffset : Marches cfg S getOffset := marches_still fun _ => ⟨rfl, fun _ _ => rfl⟩
theorem marches_getEndianness : Marches cfg S getEndianness := marches_still fun _ => ⟨rfl, fun _ _ => rfl⟩

theorem marches_bind {p : P α} {q : α → P β} (hp : Marches cfg S p) (hq : ∀ a, Marches cfg S (q a)) : Marches cfg S (p >>= q) := by
  intro r
  change ∃ new, (P.bind p q r).2.trace = _ ∧ (_ → ∃ hi, _ ∧ ∀ b, (P.bind p q r).1 = _ → (P.bind p q r).2.offset = _)
  unfold P.bind
  obtain ⟨new, h1, h2⟩ := hp r
  cases hpr : p r with
  | mk o r1 =>
    rw [hpr] at h1 h2
    simp only [] at h1 h2
    cases o with
    | ok a =>
      simp only []
      obtain ⟨new', h3, h4⟩ := hq a r1
      refine ⟨new' ++ new, by rw [h3, h1, List.append_assoc], fun hb => ?_⟩
      obtain ⟨mid, h5, h6⟩ := h2 fun ev hev => hb ev (List.mem_append_right _ hev)
      obtain ⟨hi, h7, h8⟩ := h4 fun ev hev => hb ev (List.mem_append_left _ hev)
      rw [h6 a rfl] at h7
      exact ⟨hi, h5.append h7, h8⟩
    | err k =>
      refine ⟨new, h1, fun hb => ?_⟩
      obtain ⟨hi, h5, -⟩ := h2 hb
      exact ⟨hi, h5, fun b hb => by cases hb⟩
    | panic =>
      refine ⟨new, h1, fun hb => ?_⟩
      obtain ⟨hi, h5, -⟩ := h2 hb
      exact ⟨hi, h5, fun b hb => by cases hb⟩
    | nofuel =>
      refine ⟨new, h1, fun hb => ?_⟩
      obtain ⟨hi, h5, -⟩ := h2 hb
      exact ⟨hi, h5, fun b hb => by cases hb⟩

theorem marches_ite {c : Prop} [Decidable c] {p q : P α} (h : c → Marches cfg S p) (h' : ¬ c → Marches cfg S q) :
    Marches cfg S (if c then p else q) := by
  split
  · exact h ‹_›
  · exact h' ‹_›

theorem marches_read (n : Nat) : Marches cfg S (Reader.read cfg n) := by
  intro r
  unfold Reader.read
  cases r.readable.read r.trace r.offset n with
  | error k => exact ⟨[_], rfl, fun _ => ⟨_, .word .start, fun a h => by cases h⟩⟩
  | ok b =>
    simp only []
    by_cases hfit : r.offset + n < cfg.usizeMod
    · rw [usizeAdd_lt hfit]
      exact ⟨[⟨r.offset, n, none⟩], rfl, fun _ => ⟨_, .word .start, fun a h => rfl⟩⟩
    · refine ⟨[⟨r.offset, n, none⟩], ?_, fun h => absurd (h _ (List.mem_singleton.2 rfl)) hfit⟩
      cases cfg.usizeAdd r.offset n <;> rfl

theorem marches_u32 : Marches cfg S (u32 cfg) :=
  marches_bind (marches_read 4) fun _ => marches_bind marches_getEndianness fun _ => marches_pure _
theorem marches_u64 : Marches cfg S (u64 cfg) :=
  marches_bind (marches_read 8) fun _ => marches_bind marches_getEndianness fun _ => marches_pure _
theorem marches_i32 : Marches cfg S (i32 cfg) := marches_bind marches_u32 fun _ => marches_pure _
theorem marches_i64 : Marches cfg S (i64 cfg) := marches_bind marches_u64 fun _ => marches_pure _

theorem marches_names {p : P α} (h : ∀ pos, Safe S pos p fun _ n => n = pos) : Marches cfg S p := by
  intro r
  obtain ⟨⟨new, h1, h2⟩, h3⟩ := (h r.offset).run r rfl
  refine ⟨new, h1, fun hb => ⟨r.offset, ?_, fun a ha => ?_⟩⟩
  · clear h1 hb
    induction new with
    | nil => exact .start
    | cons ev new ih => exact .name (h2 ev (by simp)) (ih fun x hx => h2 x (by simp [hx]))
  · rcases h3 with ⟨_, _, h⟩ | ⟨k, hk, -⟩
    · exact h
    · rw [hk] at ha; cases ha

theorem marches_parseString (hf : Fits cfg fh) (off : UInt32) : Marches cfg (ForName fh) (parseString cfg fh off) :=
  marches_names fun _ => safe_parseString hf (fun _ h h' => ⟨h, h'⟩) off

theorem marches_parseName (hf : Fits cfg fh) (off : UInt32) : Marches cfg (ForName fh) (parseName cfg fh off) :=
  marches_names fun _ => (safe_parseName hf (fun _ h h' => ⟨h, h'⟩) off).mono fun _ _ h => h.2

theorem marches_repeat {item : P α} (h : Marches cfg S item) (n : Nat) : Marches cfg S (repeatP item n) := by
  induction n with
  | zero => exact marches_pure _
  | succ n ih => exact marches_bind h fun _ => marches_bind ih fun _ => marches_pure _

theorem marches_header : Marches cfg S (Header.new cfg fh) := by
  unfold Header.new
  refine marches_bind (marches_lift _) fun _ => marches_bind (marches_lift _) fun _ => marches_bind marches_getOffset fun _ =>
    marches_bind (marches_lift _) fun _ => marches_ite (fun _ => marches_fail _) fun _ => ?_
  exact marches_bind marches_u32 fun _ => marches_bind marches_u32 fun _ => marches_bind (marches_lift _) fun _ =>
    marches_bind marches_u32 fun _ => marches_pure _

theorem marches_define {D : Type} {data : P D} {mk : Header → D → TypeVariant} {K : Kind} {th : Header}
    (h : Marches cfg S data) : Marches cfg S (defineTypeNew cfg fh K th data mk) := by
  refine marches_bind ?_ fun _ => marches_bind h fun _ => marches_pure _
  unfold checkExtra
  refine marches_ite (fun _ => marches_fail _) fun _ => marches_bind (marches_lift _) fun _ => marches_ite (fun _ => ?_) fun _ => marches_pure _
  refine marches_bind (marches_lift _) fun _ => marches_bind (marches_lift _) fun _ => marches_bind marches_getOffset fun _ =>
    marches_ite (fun _ => marches_fail _) fun _ => marches_bind (marches_lift _) fun _ => marches_ite (fun _ => marches_fail _) fun _ =>
    marches_pure _

theorem marches_parseType (hf : Fits cfg fh) (th : Header) : Marches cfg (ForName fh) (parseType cfg fh th) := by
  have hname := fun off => marches_parseName (cfg := cfg) hf off
  have hstr := fun off => marches_parseString (cfg := cfg) hf off
  have hu := marches_u32 (cfg := cfg) (S := ForName fh)
  have hmember : ∀ kf, Marches cfg (ForName fh) (Member.parse cfg fh kf) := fun kf =>
    marches_bind hu fun _ => marches_bind hu fun _ => marches_bind hu fun _ => marches_bind (hname _) fun _ =>
      marches_bind (marches_lift _) fun _ => marches_pure _
  have henum : ∀ s, Marches cfg (ForName fh) (NamedValue32.parse cfg fh s) := fun s =>
    marches_bind hu fun _ => marches_bind (hstr _) fun _ => by
      cases s
      · exact marches_bind hu fun _ => marches_pure _
      · exact marches_bind marches_i32 fun _ => marches_pure _
  have henum64 : ∀ s, Marches cfg (ForName fh) (NamedValue64.parse cfg fh s) := fun s =>
    marches_bind hu fun _ => marches_bind (hstr _) fun _ => by
      cases s
      · exact marches_bind marches_u64 fun _ => marches_pure _
      · exact marches_bind marches_i64 fun _ => marches_pure _
  have hvar : Marches cfg (ForName fh) (Variable.parse cfg) :=
    marches_bind hu fun _ => marches_bind hu fun _ => marches_bind hu fun _ => marches_pure _
  have hparam : Marches cfg (ForName fh) (Parameter.parse cfg fh) :=
    marches_bind hu fun _ => marches_bind hu fun _ => marches_bind (hname _) fun _ => marches_pure _
  unfold parseType
  split
  all_goals refine marches_define ?_
  · exact marches_bind hu fun _ => marches_bind (hname _) fun _ => marches_pure _
  · exact marches_bind (hname _) fun _ => marches_pure _
  · exact marches_bind (marches_repeat (henum _) _) fun _ => marches_bind (hname _) fun _ => marches_pure _
  · exact marches_pure _
  · exact marches_pure _
  · exact marches_pure _
  · exact marches_bind hu fun _ => marches_bind hu fun _ => marches_bind hu fun _ => marches_pure _
  · exact marches_bind (marches_repeat hparam _) fun _ => marches_pure _
  · exact marches_bind (marches_repeat (hmember _) _) fun _ => marches_bind (hname _) fun _ => marches_pure _
  · exact marches_bind (marches_repeat (hmember _) _) fun _ => marches_bind (hname _) fun _ => marches_pure _
  · exact marches_bind (hname _) fun _ => marches_pure _
  · exact marches_bind hu fun _ => marches_bind (hname _) fun _ => marches_pure _
  · exact marches_bind (marches_repeat (henum64 _) _) fun _ => marches_bind (hname _) fun _ => marches_pure _
  · exact marches_bind (hname _) fun _ => marches_pure _
  · exact marches_bind (hname _) fun _ => marches_pure _
  · exact marches_pure _
  · exact marches_bind (marches_repeat hvar _) fun _ => marches_bind (hname _) fun _ => marches_pure _
  · exact marches_bind (hname _) fun _ => marches_pure _
  · exact marches_bind hu fun _ => marches_bind (hname _) fun _ => marches_pure _

theorem marches_loop (hf : Fits cfg fh) (stop fuel : Nat) : ∀ tid ti, Marches cfg (ForName fh) (parseLoop cfg fh stop fuel tid ti) := by
  induction fuel with
  | zero => intro tid ti r; exact ⟨[], rfl, fun _ => ⟨_, .start, fun a h => by cases h⟩⟩
  | succ fuel ih =>
    intro tid ti
    unfold parseLoop
    refine marches_bind marches_getOffset fun _ => marches_ite (fun _ => ?_) fun _ => marches_pure _
    exact marches_bind marches_header fun _ => marches_bind (marches_parseType hf _) fun _ => marches_bind (marches_lift _) fun _ => ih _ _

end

end Btf

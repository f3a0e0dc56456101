import Verif.Proofs.FileNew
import Verif.Spec.Flaws

/-!
# A file with a flaw cannot be decoded
-/

namespace Btf

open Spec

section
variable {f : List UInt8} {e : Endianness} {fh : FileHeader} {pos : Nat}

theorem word_le {w : UInt32} (h : Word f e pos w) : pos + 4 ≤ f.length := h.1

theorem word_exists (h : pos + 4 ≤ f.length) : ∃ w, Word f e pos w := by
  have hl : ((f.drop pos).take 4).length = 4 := by rw [List.length_take_of_le]; simp; omega
  have := intOf_lt e ((f.drop pos).take 4)
  rw [hl] at this
  exact ⟨UInt32.ofNat (intOf e ((f.drop pos).take 4)), h, by rw [ofNat_toNat_lt (by simpa using this)]⟩

theorem headerAt_unique {th th' : Header} (h : HeaderAt f e pos th) (h' : HeaderAt f e pos th') : th = th' := by
  obtain ⟨h1, h2, i, h3, h4, h5, h6⟩ := h
  obtain ⟨h1', h2', i', h3', h4', h5', h6'⟩ := h'
  have := word_unique h3 h3'; subst this
  cases th; cases th'
  simp only [] at h1 h2 h4 h5 h6 h1' h2' h4' h5' h6'
  congr 1
  · exact kindCode_inj (h4.trans h4'.symm)
  · exact word_unique h1 h1'
  · rw [h5, h5']
  · rw [Bool.eq_iff_iff, h6, h6']
  · exact word_unique h2 h2'

theorem stringFlaw_not {off : UInt32} {k : LoadReason} {s : Str} (h : StringFlaw f fh off k) : ¬ StringAt f fh off s := by
  rintro ⟨h1, bs, h2, h3, h4, -⟩
  have hz : f[strStart fh + off.toNat + bs.length]? = some 0 := by
    have := congrArg (fun l => l[bs.length]?) h4
    simp only [List.getElem?_take, List.getElem?_drop] at this
    rw [if_pos (by omega)] at this
    rw [this]; simp
  cases h with
  | sectionStart h => unfold strEnd at h1; omega
  | sectionEnd _ h => omega
  | overflow _ h => omega
  | outside _ h h' => omega
  | unterminated _ hp _ h =>
    obtain ⟨b, hb, hb0⟩ := h (strStart fh + off.toNat + bs.length) (by omega) (by omega)
    rw [hz] at hb; cases hb; exact hb0 rfl
  | truncated _ _ _ h => exact h _ (by omega) hz

theorem items_end {α : Type} {item : Nat → α → Prop} {size n : Nat} {xs : List α} (h : Items item size pos xs)
    (hl : xs.length = n) (hpos : pos ≤ f.length) (hitem : ∀ p x, item p x → p + size ≤ f.length) :
    pos + size * n ≤ f.length := by
  subst hl
  rcases Nat.eq_zero_or_pos xs.length with h0 | h0
  · rw [h0]; simpa using hpos
  · have := hitem _ _ (h (xs.length - 1) (by omega))
    obtain ⟨m, hm⟩ : ∃ m, xs.length = m + 1 := ⟨xs.length - 1, by omega⟩
    rw [hm] at this ⊢
    rw [Nat.add_sub_cancel] at this
    rw [Nat.mul_add, Nat.mul_comm size m]; omega

theorem wide_le {dl : Dialect} {v : Nat} (h : WideAt dl f e pos v) : pos + 8 ≤ f.length := by
  cases dl with
  | documented => obtain ⟨lo, hi, -, h, -⟩ := h; have := h.1; omega
  | crate => exact h.1

theorem body_end {dl : Dialect} {th : Header} {v : TypeVariant} (hpos : pos ≤ f.length) (h : Body dl f e fh th pos v) :
    pos + bodySize th.kind th.vlen ≤ f.length := by
  have member : ∀ kf p x, MemberAt f e fh kf p x → p + 12 ≤ f.length := by
    rintro kf p x ⟨-, -, -, raw, h, -⟩; have := h.1; omega
  cases v with
  | void => exact h.elim
  | int h d => obtain ⟨-, hk, w, hw, -⟩ := h; rw [hk]; exact hw.1
  | typedef h d => obtain ⟨-, hk, -⟩ := h; rw [hk]; exact hpos
  | enum h d =>
    obtain ⟨-, hk, -, -, -, hl, hi⟩ := h; rw [hk]
    exact items_end hi hl hpos (by rintro p x ⟨off, v, -, -, h, -⟩; have := h.1; omega)
  | ptr h d => obtain ⟨-, hk, -⟩ := h; rw [hk]; exact hpos
  | const h d => obtain ⟨-, hk, -⟩ := h; rw [hk]; exact hpos
  | volatile h d => obtain ⟨-, hk, -⟩ := h; rw [hk]; exact hpos
  | array h d =>
    obtain ⟨-, hk, -, -, h⟩ := h; rw [hk]
    have := h.1; simp only [bodySize]; omega
  | funcProto h d =>
    obtain ⟨-, hk, -, hl, hi⟩ := h; rw [hk]
    exact items_end hi hl hpos (by rintro p x ⟨-, -, h⟩; have := h.1; omega)
  | struct h d =>
    obtain ⟨-, hk, -, -, hl, hi⟩ := h; rw [hk]
    exact items_end hi hl hpos (member _)
  | union h d =>
    obtain ⟨-, hk, -, -, hl, hi⟩ := h; rw [hk]
    exact items_end hi hl hpos (member _)
  | fwd h d => obtain ⟨-, hk, -⟩ := h; rw [hk]; exact hpos
  | var h d => obtain ⟨-, hk, -, -, hw, -⟩ := h; rw [hk]; exact hw.1
  | enum64 h d =>
    obtain ⟨-, hk, -, -, -, hl, hi⟩ := h; rw [hk]
    exact items_end hi hl hpos (by rintro p x ⟨off, v, -, -, h, -⟩; have := wide_le h; omega)
  | func h d => obtain ⟨-, hk, -⟩ := h; rw [hk]; exact hpos
  | float h d => obtain ⟨-, hk, -⟩ := h; rw [hk]; exact hpos
  | restrict h d => obtain ⟨-, hk, -⟩ := h; rw [hk]; exact hpos
  | dataSec h d =>
    obtain ⟨-, hk, -, -, hl, hi⟩ := h; rw [hk]
    exact items_end hi hl hpos (by rintro p x ⟨-, -, h⟩; have := h.1; omega)
  | typeTag h d => obtain ⟨-, hk, -⟩ := h; rw [hk]; exact hpos
  | declTag h d => obtain ⟨-, hk, -, -, hw⟩ := h; rw [hk]; exact hw.1

theorem nameAt_string {off : UInt32} {n : Option Str} (h : NameAt f fh off n) (h0 : off ≠ 0) : ∃ s, StringAt f fh off s := by
  cases n with
  | none => exact absurd h h0
  | some s => exact ⟨s, h.2⟩

/-- The record's own name. -/
theorem body_name {dl : Dialect} {th : Header} {v : TypeVariant} (h : Body dl f e fh th pos v) (hn : named th.kind = true) :
    ∃ n, NameAt f fh th.nameOffset n := by
  cases v with
  | void => exact h.elim
  | int h d => obtain ⟨-, hk, w, hw, h, -⟩ := h; exact ⟨_, h⟩
  | typedef h d => exact ⟨_, h.2.2.1⟩
  | enum h d => exact ⟨_, h.2.2.1⟩
  | ptr h d => rw [h.2.1] at hn; cases hn
  | const h d => rw [h.2.1] at hn; cases hn
  | volatile h d => rw [h.2.1] at hn; cases hn
  | array h d => rw [h.2.1] at hn; cases hn
  | funcProto h d => rw [h.2.1] at hn; cases hn
  | struct h d => exact ⟨_, h.2.2.1⟩
  | union h d => exact ⟨_, h.2.2.1⟩
  | fwd h d => exact ⟨_, h.2.2.1⟩
  | var h d => exact ⟨_, h.2.2.1⟩
  | enum64 h d => exact ⟨_, h.2.2.1⟩
  | func h d => exact ⟨_, h.2.2.1⟩
  | float h d => exact ⟨_, h.2.2.1⟩
  | restrict h d => rw [h.2.1] at hn; cases hn
  | dataSec h d => exact ⟨_, h.2.2.1⟩
  | typeTag h d => exact ⟨_, h.2.2.1⟩
  | declTag h d => exact ⟨_, h.2.2.1⟩

theorem body_members {dl : Dialect} {th : Header} {v : TypeVariant} (h : Body dl f e fh th pos v)
    (hk : th.kind = .Struct ∨ th.kind = .Union) :
    ∃ ms : List Member, ms.length = th.vlen ∧ Items (MemberAt f e fh th.kindFlag) 12 pos ms := by
  cases v with
  | void => exact h.elim
  | struct h d => exact ⟨_, h.2.2.2.2.1, h.2.2.2.2.2⟩
  | union h d => exact ⟨_, h.2.2.2.2.1, h.2.2.2.2.2⟩
  | _ => rw [h.2.1] at hk; rcases hk with hk | hk <;> cases hk

theorem body_parameters {dl : Dialect} {th : Header} {v : TypeVariant} (h : Body dl f e fh th pos v)
    (hk : th.kind = .FuncProto) :
    ∃ ms : List Parameter, ms.length = th.vlen ∧ Items (ParameterAt f e fh) 8 pos ms := by
  cases v with
  | void => exact h.elim
  | funcProto h d => exact ⟨_, h.2.2.2.1, h.2.2.2.2⟩
  | _ => rw [h.2.1] at hk; cases hk

theorem body_enumerators {dl : Dialect} {th : Header} {v : TypeVariant} (h : Body dl f e fh th pos v)
    (hk : th.kind = .Enum ∨ th.kind = .Enum64) (i : Nat) (hi : i < th.vlen) :
    ∃ off s, Word f e (pos + i * itemSize th.kind) off ∧ StringAt f fh off s := by
  cases v with
  | void => exact h.elim
  | enum h d =>
    obtain ⟨-, hk, -, -, -, hl, hit⟩ := h
    obtain ⟨off, v, h1, h2, -⟩ := hit i (by omega)
    rw [hk]; exact ⟨off, _, h1, h2⟩
  | enum64 h d =>
    obtain ⟨-, hk, -, -, -, hl, hit⟩ := h
    obtain ⟨off, v, h1, h2, -⟩ := hit i (by omega)
    rw [hk]; exact ⟨off, _, h1, h2⟩
  | _ => rw [h.2.1] at hk; rcases hk with hk | hk <;> cases hk

/-- All strings of a decoded record can be decoded. -/
theorem body_string {dl : Dialect} {th : Header} {v : TypeVariant} {off : UInt32} (h : Body dl f e fh th pos v)
    (hr : StringRef f e th pos off) : ∃ s, StringAt f fh off s := by
  cases hr with
  | name hn ho h0 =>
    obtain ⟨n, hn⟩ := body_name h hn
    rw [← ho] at hn
    exact nameAt_string hn h0
  | item i hk hi hw h0 =>
    rcases hk with hk | hk | hk
    · obtain ⟨ms, hl, hit⟩ := body_members h (.inl hk)
      obtain ⟨h1, h2, -⟩ := hit i (by omega)
      rw [hk] at hw
      rw [word_unique h1 hw] at h2
      exact nameAt_string h2 h0
    · obtain ⟨ms, hl, hit⟩ := body_members h (.inr hk)
      obtain ⟨h1, h2, -⟩ := hit i (by omega)
      rw [hk] at hw
      rw [word_unique h1 hw] at h2
      exact nameAt_string h2 h0
    · obtain ⟨ms, hl, hit⟩ := body_parameters h hk
      obtain ⟨h1, h2, -⟩ := hit i (by omega)
      rw [hk] at hw
      rw [word_unique h1 hw] at h2
      exact nameAt_string h2 h0
  | enumerator i hk hi hw =>
    obtain ⟨off', s, h1, h2⟩ := body_enumerators h hk i hi
    rw [word_unique h1 hw] at h2
    exact ⟨s, h2⟩

theorem aligned_of_memberOffset {raw : UInt32} {o : Offset} (h : MemberOffset false raw o) : 8 ∣ raw.toNat := by
  obtain ⟨h1, h2⟩ := h
  cases o with
  | byteOffset b => exact ⟨b.toNat, by rw [← h1]; rfl⟩
  | bitOffsetAndSize b w => cases h2

/-- A record with a flaw cannot be decoded. -/
theorem recordFlaw_not {k : LoadReason} {v : TypeVariant} {n : Nat} (h : RecordFlaw f e fh pos k) :
    ¬ RecordAt .crate f e fh pos v n := by
  rintro ⟨th, hh, hb, hle, -⟩
  have hlen : pos + 12 ≤ f.length := by have := hh.2.1.1; omega
  cases h with
  | header h => omega
  | headerTruncated _ h => omega
  | kind _ hw hv hk =>
    obtain ⟨-, -, info, h1, h2, -⟩ := hh
    rw [word_unique hw h1] at hv
    exact hk _ (h2.trans hv.symm)
  | body _ hh' h => cases headerAt_unique hh hh'; omega
  | bodyTruncated _ hh' h =>
    cases headerAt_unique hh hh'
    have := body_end (by omega) hb
    omega
  | string _ hh' hr hf =>
    cases headerAt_unique hh hh'
    obtain ⟨s, hs⟩ := body_string hb hr
    exact stringFlaw_not hf hs
  | misaligned _ hh' hk hkf hi hw ha =>
    cases headerAt_unique hh hh'
    obtain ⟨ms, hl, hit⟩ := body_members hb hk
    obtain ⟨-, -, -, raw, h1, h2⟩ := hit _ (hl.symm ▸ hi)
    rw [word_unique h1 hw, hkf] at h2
    exact ha (aligned_of_memberOffset h2)

/-- Two readings of a section agree as far as both go. -/
theorem records_prefix (hE : typeEnd fh < 2 ^ 32) {vs vs' : List TypeVariant} {pos n n' : Nat}
    (hs : typeStart fh ≤ pos) (h : Records .crate f e fh pos vs n) (h' : Records .crate f e fh pos vs' n') :
    (∃ rest, Records .crate f e fh n rest n' ∧ vs' = vs ++ rest) ∨
    (∃ rest, Records .crate f e fh n' rest n ∧ vs = vs' ++ rest) := by
  induction h generalizing vs' with
  | nil => exact .inl ⟨_, h', rfl⟩
  | cons h1 h2 ih =>
    cases h' with
    | nil => exact .inr ⟨_, .cons h1 h2, rfl⟩
    | cons h1' h2' =>
      obtain ⟨rfl, rfl⟩ := record_unique hE hs h1 h1'
      have := record_next h1
      rcases ih (by omega) h2' with ⟨rest, h3, rfl⟩ | ⟨rest, h3, rfl⟩
      · exact .inl ⟨rest, h3, rfl⟩
      · exact .inr ⟨rest, h3, rfl⟩

theorem records_next {dl : Dialect} {vs : List TypeVariant} {pos n : Nat} (h : Records dl f e fh pos vs n) :
    pos + 12 * vs.length ≤ n := by
  induction h with
  | nil => simp
  | cons h1 _ ih => have := record_next h1; rw [List.length_cons]; omega

/-- Where a section with a wrong record stops being readable. -/
theorem records_stuck (hE : typeEnd fh < 2 ^ 32) {vs vs' : List TypeVariant} {pos n n' : Nat} {k : LoadReason}
    (hs : typeStart fh ≤ pos) (h : Records .crate f e fh pos vs n) (hk : RecordFlaw f e fh n k)
    (h' : Records .crate f e fh pos vs' n') : n' ≤ n ∧ (n' = n → vs' = vs) := by
  rcases records_prefix hE hs h h' with ⟨rest, h3, h4⟩ | ⟨rest, h3, h4⟩
  · cases h3 with
    | nil => exact ⟨Nat.le_refl _, fun _ => by rw [h4, List.append_nil]⟩
    | cons h5 _ => exact absurd h5 (recordFlaw_not hk)
  · have := records_next h3
    refine ⟨by omega, fun hnn => ?_⟩
    have : rest = [] := List.eq_nil_of_length_eq_zero (by omega)
    rw [h4, this, List.append_nil]

theorem preamble_length (h : Preamble f e fh) : 24 ≤ f.length := h.strLen.1

/-- A file with a flaw cannot be decoded. -/
theorem fileFlaw_not {k : LoadReason} {vs : List TypeVariant} (h : FileFlaw f k) : ¬ Decodes .crate f vs := by
  rintro ⟨e, fh, n, hp, hE, hr, hn⟩
  simp only [] at hn
  have := preamble_length hp
  cases h with
  | truncated h => omega
  | magic h => exact h e hp.magic
  | sectionStart hp' h =>
    obtain ⟨rfl, rfl⟩ := preamble_unique hp hp'
    unfold typeEnd at hE
    omega
  | sectionEnd hp' _ h =>
    obtain ⟨rfl, rfl⟩ := preamble_unique hp hp'
    omega
  | record hp' _ hr' hlt hk =>
    obtain ⟨rfl, rfl⟩ := preamble_unique hp hp'
    have := (records_stuck hE (Nat.le_refl _) hr' hk hr).1
    omega

end

end Btf

import Verif.Model.Debug
import Verif.Proofs.MessageText

/-!
# Printed text can be read back
-/

namespace Btf

/-- The bytes that end a value: `,`, space, `)`, `]`, `}`, `:` and newline. -/
def stopByte (b : UInt8) : Bool := b == 44 || b == 32 || b == 41 || b == 93 || b == 125 || b == 58 || b == 10

/-- The text is empty or starts with one of these. -/
def Stop : Str → Prop
  | [] => True
  | b :: _ => stopByte b = true

/-- The text starts with something else. -/
def Solid : Str → Prop
  | [] => False
  | b :: _ => stopByte b = false

/-- Two texts that do not continue each other. -/
def Apart (x y : Str) : Prop := ∀ r s, Stop r → Stop s → x ++ r = y ++ s → x = y ∧ r = s

/-- The values can be read back. -/
def Printer {α : Type} (p : α → Str) : Prop := ∀ a b r s, Stop r → Stop s → p a ++ r = p b ++ s → a = b ∧ r = s

theorem Printer.apart {α : Type} {p : α → Str} (h : Printer p) (a b : α) : Apart (p a) (p b) := by
  intro r s hr hs he
  obtain ⟨rfl, rfl⟩ := h a b r s hr hs he
  exact ⟨rfl, rfl⟩

theorem Printer.inj {α : Type} {p : α → Str} (h : Printer p) {a b : α} (he : p a = p b) : a = b :=
  (h a b [] [] trivial trivial (by rw [he])).1

theorem Printer.of_apart {α : Type} {p : α → Str} (h : ∀ a b, Apart (p a) (p b)) (hi : ∀ a b, p a = p b → a = b) :
    Printer p := by
  intro a b r s hr hs he
  obtain ⟨h1, h2⟩ := h a b r s hr hs he
  exact ⟨hi a b h1, h2⟩

theorem Printer.comp {α β : Type} {p : β → Str} (h : Printer p) {f : α → β} (hf : ∀ a b, f a = f b → a = b) :
    Printer (fun a => p (f a)) := by
  intro a b r s hr hs he
  obtain ⟨h1, h2⟩ := h _ _ r s hr hs he
  exact ⟨hf _ _ h1, h2⟩

theorem solid_append {x : Str} (h : Solid x) (y : Str) : Solid (x ++ y) := by
  cases x with
  | nil => exact absurd h (by simp [Solid])
  | cons b x => exact h

/-! ### Words -/

/-- A text without stop bytes. -/
def Plain (x : Str) : Prop := ∀ b ∈ x, stopByte b = false

theorem word_apart {x y : Str} (hx : Plain x) (hy : Plain y) : Apart x y := by
  induction x generalizing y with
  | nil =>
    intro r s hr hs he
    cases y with
    | nil => exact ⟨rfl, he⟩
    | cons b y =>
      simp only [List.nil_append] at he
      subst he
      exact absurd hr (by simp [Stop, hy b (by simp)])
  | cons a x ih =>
    intro r s hr hs he
    cases y with
    | nil =>
      simp only [List.nil_append] at he
      subst he
      exact absurd hs (by simp [Stop, hx a (by simp)])
    | cons b y =>
      simp only [List.cons_append, List.cons.injEq] at he
      obtain ⟨rfl, he⟩ := he
      obtain ⟨rfl, rfl⟩ := ih (fun z hz => hx z (by simp [hz])) (fun z hz => hy z (by simp [hz])) r s hr hs he
      exact ⟨rfl, rfl⟩

theorem decimal_byte {n : Nat} : ∀ b ∈ Reason.decimal n, 48 ≤ b.toNat ∧ b.toNat ≤ 57 := by
  intro b hb
  unfold Reason.decimal str at hb
  rw [List.mem_flatMap] at hb
  obtain ⟨c, hc, hb⟩ := hb
  have hd : c.isDigit = true := Nat.isDigit_of_mem_toDigits (b := 10) (n := n) (by decide) (by decide) (by
    have : (toString n).toList = Nat.toDigits 10 n := Nat.toList_repr
    rwa [this] at hc)
  simp only [Char.isDigit, Bool.and_eq_true, decide_eq_true_eq] at hd
  obtain ⟨h1, h2⟩ := hd
  have h1' : 48 ≤ c.val.toNat := h1
  have h2' : c.val.toNat ≤ 57 := h2
  unfold String.utf8EncodeChar at hb
  simp only [] at hb
  rw [if_pos (by omega)] at hb
  simp at hb
  subst hb
  have e : c.toNat = c.val.toNat := rfl
  simp only [UInt8.toNat_ofNat']
  omega

theorem digit_not_stop : ∀ b : UInt8, 48 ≤ b.toNat ∧ b.toNat ≤ 57 → stopByte b = false ∧ b ≠ 45 := by
  intro b h
  simp only [stopByte, Bool.or_eq_false_iff, beq_eq_false_iff_ne, ne_eq]
  refine ⟨⟨⟨⟨⟨⟨⟨?_, ?_⟩, ?_⟩, ?_⟩, ?_⟩, ?_⟩, ?_⟩, ?_⟩ <;> rintro rfl <;> revert h <;> decide

theorem decimal_word (n : Nat) : Plain (debugNat n) := fun b hb => (digit_not_stop b (decimal_byte b hb)).1

theorem decimal_ne_nil (n : Nat) : debugNat n ≠ [] := by
  intro h
  have h0 : toString n = "" := str_inj h
  have : (toString n).toList = Nat.toDigits 10 n := Nat.toList_repr
  rw [h0] at this
  have := congrArg List.length this
  simp [Nat.length_toDigits_pos] at this
  exact absurd this.symm (Nat.ne_of_gt (Nat.length_toDigits_pos))

theorem word_solid {x : Str} (h : Plain x) (hn : x ≠ []) : Solid x := by
  cases x with
  | nil => exact absurd rfl hn
  | cons b x => exact h b (by simp)

theorem debugNat_printer : Printer debugNat :=
  .of_apart (fun _ _ => word_apart (decimal_word _) (decimal_word _)) fun _ _ => decimal_inj

theorem u32_printer : Printer fun n : UInt32 => debugNat n.toNat := debugNat_printer.comp fun _ _ => UInt32.toNat_inj.1

theorem u64_printer : Printer fun n : UInt64 => debugNat n.toNat := debugNat_printer.comp fun _ _ => UInt64.toNat_inj.1

theorem debugSigned_word (n : Int) : Plain (debugSigned n) := by
  unfold debugSigned
  split
  · intro b hb
    simp only [List.cons_append, List.nil_append, List.mem_cons] at hb
    rcases hb with rfl | hb
    · rfl
    · exact decimal_word _ b hb
  · exact decimal_word _

theorem debugSigned_inj {m n : Int} (h : debugSigned m = debugSigned n) : m = n := by
  have hd : ∀ k, ∀ x, debugNat k ≠ 45 :: x := by
    intro k x hk
    exact (digit_not_stop 45 (decimal_byte (n := k) 45 (by unfold debugNat at hk; rw [hk]; simp))).2 rfl
  unfold debugSigned at h
  split at h <;> split at h
  · have := decimal_inj (List.append_cancel_left h); omega
  · exact absurd h.symm (hd _ _)
  · exact absurd h (hd _ _)
  · have := decimal_inj h; omega

theorem debugSigned_printer : Printer debugSigned :=
  .of_apart (fun _ _ => word_apart (debugSigned_word _) (debugSigned_word _)) fun _ _ => debugSigned_inj

theorem debugBool_printer : Printer debugBool := by
  apply Printer.of_apart
  · have : ∀ a, Plain (debugBool a) := by unfold Plain; decide +kernel
    exact fun a b => word_apart (this a) (this b)
  · decide +kernel

theorem kind_word (k : Kind) : Plain k.debug := by
  unfold Plain; cases k <;> decide +kernel

theorem kind_inj (a b : Kind) (h : a.debug = b.debug) : a = b := by
  cases a <;> cases b <;> first | rfl | exact absurd h (by decide +kernel)

theorem kind_printer : Printer Kind.debug := .of_apart (fun _ _ => word_apart (kind_word _) (kind_word _)) kind_inj

theorem linkage_printer : Printer LinkageType.debug := by
  apply Printer.of_apart
  · have : ∀ a : LinkageType, Plain a.debug := by unfold Plain; intro a; cases a <;> decide +kernel
    exact fun a b => word_apart (this a) (this b)
  · intro a b h
    cases a <;> cases b <;> first | rfl | exact absurd h (by decide +kernel)

/-! ### Names -/

/-- The bytes of a code point given by `codePoints`. -/
def codeBytes (c : Nat) : Str :=
  if c < 128 then [UInt8.ofNat c] else if c < 256 then [UInt8.ofNat (0xC0 + c / 64), UInt8.ofNat (0x80 + c % 64)]
  else [UInt8.ofNat (c - 256)]

theorem codeBytes_two : ∀ b c : UInt8, (b = 0xC2 ∨ b = 0xC3) ∧ 0x80 ≤ c ∧ c < 0xC0 →
    codeBytes ((b.toNat - 0xC0) * 64 + (c.toNat - 0x80)) = [b, c] := by
  intro b c ⟨hb, h1, h2⟩
  have h1 : 0x80 ≤ c.toNat := h1
  have h2 : c.toNat < 0xC0 := h2
  have hc : c = UInt8.ofNat (128 + (c.toNat - 128)) := by
    apply UInt8.toNat_inj.1
    rw [UInt8.toNat_ofNat']
    omega
  have hn : c.toNat - 128 < 64 := by omega
  generalize c.toNat - 128 = n at hc hn
  subst hc
  have all : ∀ n < 64, codeBytes ((194 - 192) * 64 + n) = [194, UInt8.ofNat (128 + n)] ∧
      codeBytes ((195 - 192) * 64 + n) = [195, UInt8.ofNat (128 + n)] := by decide +kernel
  have e1 : (0xC2 : UInt8).toNat = 194 := by decide +kernel
  have e2 : (0xC3 : UInt8).toNat = 195 := by decide +kernel
  rcases hb with rfl | rfl
  · rw [e1]; exact (all n hn).1
  · rw [e2]; exact (all n hn).2

theorem codeBytes_codePoints : ∀ s : Str, (codePoints s).flatMap codeBytes = s ∧ ∀ c ∈ codePoints s, c < 512
  | [] => by simp [codePoints]
  | b :: rest => by
    have hb := b.toNat_lt
    unfold codePoints
    split
    · next h =>
      have h : b.toNat < 128 := h
      obtain ⟨ih1, ih2⟩ := codeBytes_codePoints rest
      refine ⟨?_, ?_⟩
      · simp only [List.flatMap_cons, ih1, codeBytes, if_pos h]; simp
      · intro c hc
        rcases List.mem_cons.1 hc with rfl | hc
        · omega
        · exact ih2 c hc
    · next h =>
      have one : codeBytes (256 + b.toNat) = [b] := by
        unfold codeBytes; rw [if_neg (by omega), if_neg (by omega)]; simp
      split
      · simp only [List.flatMap_cons, one]
        refine ⟨by simp, ?_⟩
        intro c hc
        simp at hc; subst hc
        have := b.toNat_lt; omega
      · next c rest' =>
        split
        · next h' =>
          obtain ⟨ih1, ih2⟩ := codeBytes_codePoints rest'
          refine ⟨?_, ?_⟩
          · rw [List.flatMap_cons, ih1, codeBytes_two b c h']; rfl
          · intro x hx
            rcases List.mem_cons.1 hx with hx | hx
            · have hc := c.toNat_lt
              have h2 : c.toNat < 0xC0 := h'.2.2
              have hb : b.toNat ≤ 195 := by
                rcases h'.1 with hb | hb <;> rw [hb] <;> decide +kernel
              omega
            · exact ih2 x hx
        · obtain ⟨ih1, ih2⟩ := codeBytes_codePoints (c :: rest')
          refine ⟨?_, ?_⟩
          · simp only [List.flatMap_cons, ih1, one]; rfl
          · intro x hx
            rcases List.mem_cons.1 hx with rfl | hx
            · have := b.toNat_lt; omega
            · exact ih2 x hx

theorem codePoints_inj {s t : Str} (h : codePoints s = codePoints t) : s = t := by
  rw [← (codeBytes_codePoints s).1, h, (codeBytes_codePoints t).1]

/-- The shapes of escaped characters. -/
def escapeShape : Str → Bool
  | [] => false
  | [b] => decide (b.toNat < 128) && b != 92 && b != 34
  | b :: c :: rest =>
    if b == 92 then
      if c == 117 then rest.getLast? == some 125 && rest.dropLast.all (· != 125)
      else rest.isEmpty
    else decide (128 ≤ b.toNat) && rest.isEmpty

/-- The value of a hexadecimal digit. -/
def hexValue (b : UInt8) : Nat := if b.toNat < 58 then b.toNat - 48 else b.toNat - 87

/-- The escaped character. -/
def unescape : Str → Nat
  | [] => 0
  | [b] => b.toNat
  | b :: c :: rest =>
    if b == 92 then
      if c == 117 then rest.tail.dropLast.foldl (fun n d => n * 16 + hexValue d) 0
      else if c == 48 then 0 else if c == 116 then 9 else if c == 110 then 10 else if c == 114 then 13 else c.toNat
    else (b.toNat - 0xC0) * 64 + (c.toNat - 0x80)

theorem escape_checked : ∀ c < 512, escapeShape (escapeDebug c) = true ∧ unescape (escapeDebug c) = c := by
  decide +kernel

theorem shape_split {x y r s : Str} (hx : escapeShape x = true) (hy : escapeShape y = true) (h : x ++ r = y ++ s) :
    x = y ∧ r = s := by
  match x, y with
  | [], _ => simp [escapeShape] at hx
  | _ :: _, [] => simp [escapeShape] at hy
  | [a], [b] => simpa using h
  | [a], b :: c :: y =>
    exfalso
    simp only [List.cons_append, List.nil_append, List.cons.injEq] at h
    obtain ⟨rfl, -⟩ := h
    simp only [escapeShape, Bool.and_eq_true, decide_eq_true_eq, bne_iff_ne, ne_eq] at hx hy
    rw [if_neg (by simpa using hx.1.2)] at hy
    simp at hy; omega
  | b :: c :: x, [a] =>
    exfalso
    simp only [List.cons_append, List.nil_append, List.cons.injEq] at h
    obtain ⟨rfl, -⟩ := h
    simp only [escapeShape, Bool.and_eq_true, decide_eq_true_eq, bne_iff_ne, ne_eq] at hx hy
    rw [if_neg (by simpa using hy.1.2)] at hx
    simp at hx; omega
  | b :: c :: x, b' :: c' :: y =>
    simp only [List.cons_append, List.cons.injEq] at h
    obtain ⟨rfl, rfl, h⟩ := h
    have tails : ∀ z, escapeShape (b :: c :: z) = true → z = [] ∨ (b = 92 ∧ c = 117 ∧ ∃ m : Str, z = m ++ [125] ∧ ∀ w ∈ m, w ≠ 125) := by
      intro z hz
      simp only [escapeShape] at hz
      split at hz
      · next hb =>
        split at hz
        · next hc =>
          right
          simp only [Bool.and_eq_true, beq_iff_eq, List.all_eq_true, bne_iff_ne, ne_eq] at hz hb hc
          refine ⟨hb, hc, z.dropLast, ?_, hz.2⟩
          obtain ⟨m, hm⟩ := List.getLast?_eq_some_iff.1 hz.1
          rw [hm]; simp
        · left; simpa using hz
      · left
        simp only [Bool.and_eq_true] at hz
        simpa using hz.2
    have none92 : b = 92 → c = 117 → ∀ z, escapeShape (b :: c :: z) = true → z ≠ [] := by
      rintro rfl rfl z hz rfl
      simp [escapeShape] at hz
    rcases tails x hx with rfl | ⟨hb, hc, m, rfl, hm⟩
    · rcases tails y hy with rfl | ⟨hb, hc, m, rfl, hm⟩
      · exact ⟨rfl, h⟩
      · exact absurd rfl (none92 hb hc _ hx)
    · rcases tails y hy with rfl | ⟨_, _, m', rfl, hm'⟩
      · exact absurd rfl (none92 hb hc _ hy)
      · simp only [List.append_assoc, List.cons_append, List.nil_append] at h
        obtain ⟨rfl, rfl⟩ := append_stop hm hm' h
        exact ⟨rfl, rfl⟩

theorem shape_quote {x r s : Str} (hx : escapeShape x = true) : x ++ r ≠ 34 :: s := by
  intro h
  match x with
  | [] => simp [escapeShape] at hx
  | [b] =>
    simp only [List.cons_append, List.cons.injEq] at h
    obtain ⟨rfl, -⟩ := h
    simp [escapeShape] at hx
  | b :: c :: x =>
    simp only [List.cons_append, List.cons.injEq] at h
    obtain ⟨rfl, -⟩ := h
    simp [escapeShape] at hx

theorem escaped_split {cs ds : List Nat} {r s : Str} (hc : ∀ c ∈ cs, c < 512) (hd : ∀ d ∈ ds, d < 512)
    (h : cs.flatMap escapeDebug ++ 34 :: r = ds.flatMap escapeDebug ++ 34 :: s) : cs = ds ∧ r = s := by
  induction cs generalizing ds with
  | nil =>
    cases ds with
    | nil => injection h with _ h; exact ⟨rfl, h⟩
    | cons d ds =>
      rw [List.flatMap_cons, List.append_assoc] at h
      exact absurd h.symm (shape_quote (escape_checked d (hd d (by simp))).1)
  | cons c cs ih =>
    cases ds with
    | nil =>
      rw [List.flatMap_cons, List.append_assoc] at h
      exact absurd h (shape_quote (escape_checked c (hc c (by simp))).1)
    | cons d ds =>
      rw [List.flatMap_cons, List.flatMap_cons, List.append_assoc, List.append_assoc] at h
      have c1 := escape_checked c (hc c (by simp))
      have d1 := escape_checked d (hd d (by simp))
      obtain ⟨h1, h2⟩ := shape_split c1.1 d1.1 h
      have : c = d := by rw [← c1.2, ← d1.2, h1]
      subst this
      obtain ⟨rfl, rfl⟩ := ih (fun z hz => hc z (by simp [hz])) (fun z hz => hd z (by simp [hz])) h2
      exact ⟨rfl, rfl⟩

theorem debugString_printer : Printer debugString := by
  intro a b r s _ _ h
  simp only [debugString, List.append_assoc, List.cons_append, List.nil_append, List.cons.injEq, true_and] at h
  obtain ⟨h1, h2⟩ := escaped_split (codeBytes_codePoints a).2 (codeBytes_codePoints b).2 h
  exact ⟨codePoints_inj h1, h2⟩

theorem debugName_printer : Printer debugName := by
  have none_some : ∀ x r s, debugName (some x) ++ r ≠ debugName none ++ s := by
    intro x r s h
    simp only [debugName, List.append_assoc] at h
    rw [show str "Some(" = 83 :: str "ome(" by decide +kernel, show str "None" = 78 :: str "one" by decide +kernel] at h
    simp at h
  intro a b r s hr hs h
  cases a with
  | none =>
    cases b with
    | none => exact ⟨rfl, List.append_cancel_left h⟩
    | some b => exact absurd h.symm (none_some _ _ _)
  | some a =>
    cases b with
    | none => exact absurd h (none_some _ _ _)
    | some b =>
      simp only [debugName, List.append_assoc] at h
      have stop : ∀ r, Stop (str ")" ++ r) := fun _ => by
        show stopByte _ = true
        decide +kernel
      obtain ⟨rfl, h2⟩ := debugString_printer a b _ _ (stop r) (stop s) (List.append_cancel_left h)
      exact ⟨rfl, List.append_cancel_left h2⟩

/-! ### Lists, structs and tuples -/

/-- The text is empty or starts with a stop byte other than the comma. -/
def End : Str → Prop
  | [] => True
  | b :: _ => stopByte b = true ∧ b ≠ 44

theorem End.stop {r : Str} (h : End r) : Stop r := by
  cases r with
  | nil => trivial
  | cons b r => exact h.1

theorem comma_ne {r s : Str} (h : End s) : str ", " ++ r ≠ s := by
  rintro rfl
  exact absurd rfl (show End (44 :: (32 :: r)) from h).2

theorem commas_tail {xs ys : List Str} {r s : Str} (ha : ∀ p ∈ xs.zip ys, Apart p.1 p.2) (hr : End r) (hs : End s)
    (h : xs.flatMap (fun y => str ", " ++ y) ++ r = ys.flatMap (fun y => str ", " ++ y) ++ s) : xs = ys ∧ r = s := by
  have stop : ∀ (l : List Str) {r : Str}, End r → Stop (l.flatMap (fun y => str ", " ++ y) ++ r) := by
    intro l r hr
    cases l with
    | nil => exact hr.stop
    | cons x l => show stopByte 44 = true; rfl
  induction xs generalizing ys with
  | nil =>
    cases ys with
    | nil => exact ⟨rfl, h⟩
    | cons y ys =>
      rw [List.flatMap_cons, List.append_assoc, List.append_assoc] at h
      exact absurd h.symm (comma_ne hr)
  | cons x xs ih =>
    cases ys with
    | nil =>
      rw [List.flatMap_cons, List.append_assoc, List.append_assoc] at h
      exact absurd h (comma_ne hs)
    | cons y ys =>
      rw [List.flatMap_cons, List.flatMap_cons, List.append_assoc, List.append_assoc, List.append_assoc, List.append_assoc] at h
      obtain ⟨he, h'⟩ := ha (x, y) (by simp) _ _ (stop _ hr) (stop _ hs) (List.append_cancel_left h)
      have he : x = y := he
      subst he
      obtain ⟨rfl, rfl⟩ := ih (fun p hp => ha p (by simp [hp])) h'
      exact ⟨rfl, rfl⟩

theorem commas_apart {xs ys : List Str} {r s : Str} (ha : ∀ p ∈ xs.zip ys, Apart p.1 p.2) (hx : ∀ x ∈ xs, Solid x)
    (hy : ∀ y ∈ ys, Solid y) (hr : End r) (hs : End s) (h : commas xs ++ r = commas ys ++ s) : xs = ys ∧ r = s := by
  have solid_end : ∀ {x t r : Str}, Solid x → End r → x ++ t ≠ r := by
    rintro x t r hx hr rfl
    cases x with
    | nil => exact hx
    | cons b x =>
      have h1 : stopByte b = false := hx
      have h2 : stopByte b = true := hr.1
      rw [h1] at h2; cases h2
  cases xs with
  | nil =>
    cases ys with
    | nil => exact ⟨rfl, h⟩
    | cons y ys =>
      simp only [commas, List.append_assoc] at h
      exact absurd h.symm (solid_end (hy y (by simp)) hr)
  | cons x xs =>
    cases ys with
    | nil =>
      simp only [commas, List.append_assoc] at h
      exact absurd h (solid_end (hx x (by simp)) hs)
    | cons y ys =>
      have stop : ∀ (l : List Str) {r : Str}, End r → Stop (l.flatMap (fun y => str ", " ++ y) ++ r) := by
        intro l r hr
        cases l with
        | nil => exact hr.stop
        | cons x l => show stopByte 44 = true; rfl
      simp only [commas, List.append_assoc] at h
      obtain ⟨he, h'⟩ := ha (x, y) (by simp) _ _ (stop _ hr) (stop _ hs) h
      have he : x = y := he
      subst he
      obtain ⟨rfl, rfl⟩ := commas_tail (fun p hp => ha p (by simp [hp])) hr hs h'
      exact ⟨rfl, rfl⟩

theorem map_printer_inj {α : Type} {p : α → Str} (hp : Printer p) : ∀ {l m : List α}, l.map p = m.map p → l = m
  | [], [], _ => rfl
  | [], _ :: _, h => by simp at h
  | _ :: _, [], h => by simp at h
  | a :: l, b :: m, h => by
    simp only [List.map_cons, List.cons.injEq] at h
    rw [hp.inj h.1, map_printer_inj hp h.2]

theorem zip_map_apart {α : Type} {p : α → Str} (hp : Printer p) (l m : List α) :
    ∀ q ∈ (l.map p).zip (m.map p), Apart q.1 q.2 := by
  intro q hq
  have h1 := List.of_mem_zip hq
  obtain ⟨a, -, ha⟩ := List.mem_map.1 h1.1
  obtain ⟨b, -, hb⟩ := List.mem_map.1 h1.2
  rw [← ha, ← hb]
  exact hp.apart a b

theorem debugList_printer {α : Type} {p : α → Str} (hp : Printer p) (hs : ∀ a, Solid (p a)) :
    Printer (debugList p) := by
  intro l m r s _ _ h
  simp only [debugList, List.append_assoc] at h
  have e : ∀ r, End (str "]" ++ r) := fun r => by
    show stopByte _ = true ∧ _
    decide +kernel
  have sol : ∀ l : List α, ∀ x ∈ l.map p, Solid x := by
    intro l x hx
    obtain ⟨a, -, rfl⟩ := List.mem_map.1 hx
    exact hs a
  obtain ⟨h1, h2⟩ := commas_apart (zip_map_apart hp l m) (sol l) (sol m) (e r) (e s) (List.append_cancel_left h)
  exact ⟨map_printer_inj hp h1, List.append_cancel_left h2⟩

theorem debugTuple_split {name : String} {xs ys : List Str} {r s : Str} (ha : ∀ p ∈ xs.zip ys, Apart p.1 p.2)
    (hx : ∀ x ∈ xs, Solid x) (hy : ∀ y ∈ ys, Solid y)
    (h : debugTuple name xs ++ r = debugTuple name ys ++ s) : xs = ys ∧ r = s := by
  simp only [debugTuple, List.append_assoc] at h
  have e : ∀ r, End (str ")" ++ r) := fun r => by
    show stopByte _ = true ∧ _
    decide +kernel
  obtain ⟨h1, h2⟩ := commas_apart ha hx hy (e r) (e s) (List.append_cancel_left (List.append_cancel_left h))
  exact ⟨h1, List.append_cancel_left h2⟩

/-- Fields of two structs: the name, and the texts of the values. -/
theorem debugStruct_split {name : String} (l : List (String × Str × Str)) {r s : Str}
    (hn : ∀ t ∈ l, Solid (str t.1)) (ha : ∀ t ∈ l, Apart t.2.1 t.2.2)
    (h : debugStruct name (l.map fun t => (t.1, t.2.1)) ++ r = debugStruct name (l.map fun t => (t.1, t.2.2)) ++ s) :
    (∀ t ∈ l, t.2.1 = t.2.2) ∧ r = s := by
  simp only [debugStruct, List.append_assoc, List.map_map] at h
  have e : ∀ r, End (str " }" ++ r) := fun r => by
    show stopByte _ = true ∧ _
    decide +kernel
  have key := commas_apart (xs := l.map fun t => str t.1 ++ (str ": " ++ t.2.1)) (ys := l.map fun t => str t.1 ++ (str ": " ++ t.2.2))
    (r := str " }" ++ r) (s := str " }" ++ s) ?_ ?_ ?_ (e r) (e s) ?_
  · refine ⟨fun t ht => ?_, List.append_cancel_left key.2⟩
    have := List.map_inj_left.1 key.1 t ht
    exact List.append_cancel_left (List.append_cancel_left this)
  · intro p hp
    rw [List.zip_map', List.mem_map] at hp
    obtain ⟨t, ht, rfl⟩ := hp
    intro r s hr hs he
    simp only [List.append_assoc] at he
    obtain ⟨h1, h2⟩ := ha t ht r s hr hs (List.append_cancel_left (List.append_cancel_left he))
    exact ⟨by rw [h1], h2⟩
  · intro x hx
    obtain ⟨t, ht, rfl⟩ := List.mem_map.1 hx
    exact solid_append (hn t ht) _
  · intro x hx
    obtain ⟨t, ht, rfl⟩ := List.mem_map.1 hx
    exact solid_append (hn t ht) _
  · exact List.append_cancel_left (List.append_cancel_left h)

end Btf

import Verif.Spec.LoadMessage
import Verif.Spec.Shape
import Verif.Proofs.MessageText

/-!
# Hexadecimal numbers, and the texts of the errors of `TypeInformation::new`
-/

namespace Btf

open Spec

theorem str_ofList_append (a b : List Char) : str (String.ofList (a ++ b)) = str (String.ofList a) ++ str (String.ofList b) := by
  simp [str]

theorem str_digit {d : Nat} (h : d < 16) : str (String.ofList [(Nat.digitChar d).toUpper]) = [hexDigit d] := by
  have : ∀ d < 16, str (String.ofList [(Nat.digitChar d).toUpper]) = [hexDigit d] := by decide +kernel
  exact this d h

theorem hexLoop_zeros : ∀ (fuel w : Nat), w ≤ fuel → hexLoop fuel w 0 = str (String.ofList (List.replicate w '0'))
  | 0, w, h => by
    obtain rfl : w = 0 := by omega
    rfl
  | fuel + 1, 0, _ => rfl
  | fuel + 1, w + 1, h => by
    rw [hexLoop, if_neg (by simp), Nat.add_sub_cancel, Nat.zero_div, hexLoop_zeros fuel w (by omega)]
    rw [show List.replicate (w + 1) '0' = List.replicate w '0' ++ ['0'] from List.replicate_succ', str_ofList_append]
    rfl

theorem hexLoop_eq : ∀ (fuel w n : Nat), w ≤ fuel → n < 16 ^ fuel → 0 < w ∨ 0 < n →
    hexLoop fuel w n = str (hexText w n) := by
  intro fuel
  induction fuel with
  | zero => intro w n hw hn h; simp at hn; omega
  | succ fuel ih =>
    intro w n hw hn h
    rw [hexLoop, if_neg (by omega)]
    by_cases h16 : n < 16
    · rw [Nat.div_eq_of_lt h16, Nat.mod_eq_of_lt h16, hexLoop_zeros fuel (w - 1) (by omega)]
      unfold hexText
      rw [Nat.toDigits_of_lt_base h16]
      simp only [List.map_cons, List.map_nil, List.length_cons, List.length_nil]
      rw [str_ofList_append, str_digit h16]
    · have hlt : n / 16 < 16 ^ fuel := by
        rw [Nat.div_lt_iff_lt_mul (by decide)]; rw [Nat.pow_succ] at hn; exact hn
      rw [ih (w - 1) (n / 16) (by omega) hlt (.inr (by omega))]
      unfold hexText
      rw [Nat.toDigits_of_base_le (by decide) (show 16 ≤ n by omega)]
      simp only [List.map_append, List.map_cons, List.map_nil, List.length_append, List.length_map, List.length_cons, List.length_nil]
      rw [← List.append_assoc, str_ofList_append _ [_], str_digit (Nat.mod_lt _ (by decide))]
      rw [show w - ((Nat.toDigits 16 (n / 16)).length + (0 + 1)) = w - 1 - (Nat.toDigits 16 (n / 16)).length by omega]

theorem hex_eq {w n : Nat} (hw : 0 < w) (hw' : w ≤ 8) (hn : n < 2 ^ 32) : hex w n = str (hexText w n) :=
  hexLoop_eq 8 w n hw' (by omega) (.inl hw)

/-! ### The number can be read off the text -/

/-- The value of hexadecimal digits. -/
def unhex (s : Str) : Nat := s.foldl (fun acc b => 16 * acc + (if b.toNat < 58 then b.toNat - 48 else b.toNat - 55)) 0

theorem unhex_digit {d : Nat} (h : d < 16) : (if (hexDigit d).toNat < 58 then (hexDigit d).toNat - 48 else (hexDigit d).toNat - 55) = d := by
  have : ∀ d < 16, (if (hexDigit d).toNat < 58 then (hexDigit d).toNat - 48 else (hexDigit d).toNat - 55) = d := by decide
  exact this d h

theorem unhex_hexLoop : ∀ (fuel w n : Nat), n < 16 ^ fuel → unhex (hexLoop fuel w n) = n := by
  intro fuel
  induction fuel with
  | zero => intro w n hn; obtain rfl : n = 0 := by simpa using hn
            rfl
  | succ fuel ih =>
    intro w n hn
    rw [hexLoop]
    split
    · rename_i h; rw [h.2]; rfl
    · have hlt : n / 16 < 16 ^ fuel := by
        rw [Nat.div_lt_iff_lt_mul (by decide)]; rw [Nat.pow_succ] at hn; exact hn
      have := ih (w - 1) (n / 16) hlt
      unfold unhex at this ⊢
      rw [List.foldl_append, this]
      simp only [List.foldl_cons, List.foldl_nil]
      rw [unhex_digit (Nat.mod_lt _ (by decide))]
      omega

theorem hex_inj {w m n : Nat} (hm : m < 2 ^ 32) (hn : n < 2 ^ 32) (h : hex w m = hex w n) : m = n := by
  rw [← unhex_hexLoop 8 w m (by omega), ← unhex_hexLoop 8 w n (by omega)]
  exact congrArg unhex h

theorem loadText_error {q : LoadReason} {k : ErrorKind} {x : String} (h : LoadText q k x) : q.error = ⟨k, str x⟩ := by
  have h16 : ∀ v : UInt16, v.toNat < 2 ^ 32 := fun v => by have := v.toNat_lt; omega
  have h32 : ∀ v : UInt32, v.toNat < 2 ^ 32 := fun v => v.toNat_lt
  have mk : ∀ {k : ErrorKind} {a b : Str}, a = b → (⟨k, a⟩ : Error) = ⟨k, b⟩ := fun h => by rw [h]
  cases h with
  | magic => refine mk ?_; rw [LoadReason.message, str_append, hex_eq (by decide) (by decide) (h16 _)]
  | kind => refine mk ?_; rw [LoadReason.message, str_append, hex_eq (by decide) (by decide) (h32 _)]
  | stringOutside => refine mk ?_; rw [LoadReason.message, str_append, hex_eq (by decide) (by decide) (h32 _)]
  | unterminated => refine mk ?_; rw [LoadReason.message, str_append, str_append, hex_eq (by decide) (by decide) (h32 _)]
  | typeStart => exact mk rfl
  | typeEnd => exact mk rfl
  | record => exact mk rfl
  | stringStart => exact mk rfl
  | stringEnd => exact mk rfl
  | stringOverflow => exact mk rfl
  | unaligned => exact mk rfl

/-- The first 16 bytes tell the messages apart. -/
def tag : LoadReason → String
  | .source _ => ""
  | .invalidMagic _ => "Invalid magic nu"
  | .typeSectionStart => "Type section sta"
  | .typeSectionEnd => "Type section end"
  | .typeSectionOffset => "Invalid type sec"
  | .invalidKind _ => "Invalid BTF kind"
  | .wrongKind _ _ => "Invalid type kin"
  | .stringSectionStart => "String section s"
  | .stringSectionEnd => "String section e"
  | .stringOverflow => "String offset ov"
  | .stringOffset _ => "Invalid string o"
  | .unterminated _ => "String at offset"
  | .unaligned => "Unaligned bit of"

theorem take_prefix {a b : String} {c : Str} (h : (str a).take 16 = str b ∧ 16 ≤ (str a).length) : (str a ++ c).take 16 = str b := by
  rw [List.take_append_of_le_length h.2, h.1]

theorem message_take (q : LoadReason) (h : ∀ e, q ≠ .source e) : q.message.take 16 = str (tag q) := by
  cases q with
  | source e => exact absurd rfl (h e)
  | invalidMagic v => exact take_prefix (by rw [tag]; decide +kernel)
  | invalidKind v => exact take_prefix (by rw [tag]; decide +kernel)
  | wrongKind a b =>
    simp only [LoadReason.message, List.append_assoc]
    exact take_prefix (by rw [tag]; decide +kernel)
  | stringOffset v => exact take_prefix (by rw [tag]; decide +kernel)
  | unterminated v =>
    simp only [LoadReason.message, List.append_assoc]
    exact take_prefix (by rw [tag]; decide +kernel)
  | typeSectionStart => decide +kernel
  | typeSectionEnd => decide +kernel
  | typeSectionOffset => decide +kernel
  | stringSectionStart => decide +kernel
  | stringSectionEnd => decide +kernel
  | stringOverflow => decide +kernel
  | unaligned => decide +kernel

theorem tag_eq {q q' : LoadReason} (hq : ∀ e, q ≠ .source e) (hq' : ∀ e, q' ≠ .source e) (h : q.message = q'.message) :
    tag q = tag q' := by
  have := congrArg (List.take 16) h
  rw [message_take q hq, message_take q' hq'] at this
  exact str_inj this

/-- Different reasons have different messages. -/
theorem loadMessage_inj {q q' : LoadReason} (hq : ContentReason q ∨ ∃ v, q = .invalidMagic v)
    (hq' : ContentReason q' ∨ ∃ v, q' = .invalidMagic v) (h : q.message = q'.message) : q = q' := by
  have hs : ∀ {q : LoadReason}, (ContentReason q ∨ ∃ v, q = .invalidMagic v) → ∀ e, q ≠ .source e := by
    rintro q (h | ⟨v, rfl⟩) e he
    · subst he; exact h
    · cases he
  have hw : ∀ {q : LoadReason}, (ContentReason q ∨ ∃ v, q = .invalidMagic v) → ∀ a b, q ≠ .wrongKind a b := by
    rintro q (h | ⟨v, rfl⟩) a b he
    · subst he; exact h
    · cases he
  have ht := tag_eq (hs hq) (hs hq') h
  have h16 : ∀ v : UInt16, v.toNat < 2 ^ 32 := fun v => by have := v.toNat_lt; omega
  have h32 : ∀ v : UInt32, v.toNat < 2 ^ 32 := fun v => v.toNat_lt
  cases q with
  | source e => exact absurd rfl (hs hq e)
  | wrongKind a b => exact absurd rfl (hw hq a b)
  | invalidMagic v =>
    cases q' with
    | invalidMagic v' =>
      rw [UInt16.toNat_inj.1 (hex_inj (h16 _) (h16 _) (List.append_cancel_left h))]
    | _ => exact absurd ht (by simp [tag])
  | invalidKind v =>
    cases q' with
    | invalidKind v' =>
      rw [UInt32.toNat_inj.1 (hex_inj (h32 _) (h32 _) (List.append_cancel_left h))]
    | _ => exact absurd ht (by simp [tag])
  | stringOffset v =>
    cases q' with
    | stringOffset v' =>
      rw [UInt32.toNat_inj.1 (hex_inj (h32 _) (h32 _) (List.append_cancel_left h))]
    | _ => exact absurd ht (by simp [tag])
  | unterminated v =>
    cases q' with
    | unterminated v' =>
      rw [UInt32.toNat_inj.1 (hex_inj (h32 _) (h32 _) (List.append_cancel_left (List.append_cancel_right h)))]
    | _ => exact absurd ht (by simp [tag])
  | typeSectionStart => cases q' <;> first | rfl | exact absurd ht (by simp [tag])
  | typeSectionEnd => cases q' <;> first | rfl | exact absurd ht (by simp [tag])
  | typeSectionOffset => cases q' <;> first | rfl | exact absurd ht (by simp [tag])
  | stringSectionStart => cases q' <;> first | rfl | exact absurd ht (by simp [tag])
  | stringSectionEnd => cases q' <;> first | rfl | exact absurd ht (by simp [tag])
  | stringOverflow => cases q' <;> first | rfl | exact absurd ht (by simp [tag])
  | unaligned => cases q' <;> first | rfl | exact absurd ht (by simp [tag])

end Btf

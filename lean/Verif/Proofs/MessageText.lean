import Verif.Spec.Message
import Verif.Proofs.Ints
import Std.Data.String.ToNat

/-!
# Different reasons have different texts
-/

namespace Btf

open Spec Reason

theorem str_append (a b : String) : str (a ++ b) = str a ++ str b := by
  unfold str; rw [String.toList_append, List.flatMap_append]

theorem str_inj {a b : String} (h : str a = str b) : a = b := by
  rw [← String.toByteArray_inj]
  have e : ∀ s : String, s.toByteArray = (str s).toByteArray := by
    intro s
    unfold str
    conv => lhs; rw [← String.ofList_toList (s := s)]
    rw [String.toByteArray_ofList]; rfl
  rw [e, e, h]

theorem decimal_inj {m n : Nat} (h : Reason.decimal m = Reason.decimal n) : m = n :=
  Nat.repr_injective (str_inj h)

theorem decimal_digits {n : Nat} : ∀ b ∈ Reason.decimal n, b ≠ 32 := by
  intro b hb
  unfold Reason.decimal str at hb
  rw [List.mem_flatMap] at hb
  obtain ⟨c, hc, hb⟩ := hb
  have hd : c.isDigit = true := Nat.isDigit_of_mem_toDigits (b := 10) (n := n) (by decide) (by decide) (by
    have : (toString n).toList = Nat.toDigits 10 n := Nat.toList_repr
    rwa [this] at hc)
  simp only [Char.isDigit, Bool.and_eq_true, decide_eq_true_eq] at hd
  obtain ⟨h1, h2⟩ := hd
  have h1' : 48 ≤ c.val.toNat := h1
  have h2' : c.val.toNat ≤ 57 := h2
  unfold String.utf8EncodeChar at hb
  simp only [] at hb
  rw [if_pos (by omega)] at hb
  simp at hb
  subst hb
  intro h
  have := congrArg UInt8.toNat h
  simp at this
  have e : c.toNat = c.val.toNat := rfl
  omega

theorem append_stop {a a' b b' : Str} {x : UInt8} (ha : ∀ y ∈ a, y ≠ x) (ha' : ∀ y ∈ a', y ≠ x)
    (h : a ++ x :: b = a' ++ x :: b') : a = a' ∧ b = b' := by
  induction a generalizing a' with
  | nil =>
    cases a' with
    | nil => injection h with _ h; exact ⟨rfl, h⟩
    | cons y a' => injection h with h _; exact absurd h.symm (ha' y (by simp))
  | cons y a ih =>
    cases a' with
    | nil => injection h with h _; exact absurd h (ha y (by simp))
    | cons y' a' =>
      injection h with h h'
      obtain ⟨rfl, rfl⟩ := ih (fun z hz => ha z (by simp [hz])) (fun z hz => ha' z (by simp [hz])) h'
      exact ⟨by rw [h], rfl⟩

/-- Which reason a text is for: the length, the first and the last byte tell, for the texts without parameters. -/
def classify (s : Str) : Nat :=
  if s.take 18 = str "Invalid character " then 0
  else if s.take 8 = str "Member '" then 1
  else if s.take 6 = str "Index " then 2
  else if s.take 5 = str "Type " ∧ (s.reverse.take 4).reverse = str "size" then 3
  else s.length * 65536 + (s.head?.getD 0).toNat * 256 + (s.getLast?.getD 0).toNat

/-- The same for reasons. -/
def classOf : Reason → Nat
  | .invalidCharacter _ => 0
  | .memberNotFound _ => 1
  | .indexOutOfBounds _ _ => 2
  | .notSized _ => 3
  | .expectedName => 1525031
  | .unclosedIndex => 1463668
  | .emptyIndex => 738680
  | .invalidIndexValue true => 3688829
  | .invalidIndexValue false => 3754365
  | .invalidTypeId => 1001828
  | .voidDereference => 3101800
  | .arrayOffsetOverflow => 1917303
  | .ptrNotIndexable => 4346990
  | .typeNotIndexable => 1397861
  | .notStructOrUnion => 1922158
  | .byteOffsetOverflow => 1917559
  | .bitOffsetMultiplication => 2245239
  | .bitOffsetAddition => 1852023
  | .bitfield => 2900324
  | .notAPointer => 1397874
  | .listHeadNotFound => 5002340
  | .listHeadInvalid => 5723236
  | .listHeadNotStruct => 6313061

theorem take_append_exact {a b : Str} {k : Nat} (h : a.length = k) : (a ++ b).take k = a := by
  subst h; exact List.take_left

theorem take_ne {s t : Str} {k : Nat} (h : s.head? ≠ t.head?) (hk : k ≠ 0) : s.take k ≠ t := by
  rintro rfl
  cases k with
  | zero => exact hk rfl
  | succ k => cases s <;> simp at h

theorem head_append {a b : Str} (h : a ≠ []) : (a ++ b).head? = a.head? := by
  cases a with
  | nil => exact absurd rfl h
  | cons x a => rfl

theorem classify_message (debug : TypeVariant → Str) (r : Reason) : classify (r.message debug) = classOf r := by
  have fixed : ∀ r, (message debug r = message (fun _ => []) r) → classify (message (fun _ => []) r) = classOf r →
      classify (message debug r) = classOf r := by
    intro r hs h
    rw [hs]
    exact h
  cases r with
  | invalidCharacter i =>
    rw [message, classify]
    rw [show str "Invalid character at index " = str "Invalid character " ++ str "at index " by decide +kernel,
      List.append_assoc, take_append_exact (a := str "Invalid character ") (by decide +kernel), if_pos rfl]
    rfl
  | memberNotFound n =>
    have h1 : (str "Member '" ++ (n ++ str "' not found")).head? = (str "Member '").head? := head_append (by decide +kernel)
    have h2 : (str "Member '" ++ (n ++ str "' not found")).take 18 ≠ str "Invalid character " :=
      take_ne (by rw [h1]; decide +kernel) (by decide)
    rw [message, classify, List.append_assoc, if_neg h2, take_append_exact (a := str "Member '") (by decide +kernel), if_pos rfl]
    rfl
  | indexOutOfBounds i n =>
    generalize ht : Reason.decimal i ++ (str " is out of bounds for array of size " ++ Reason.decimal n.toNat) = t
    have h1 : (str "Index " ++ t).head? = (str "Index ").head? := head_append (by decide +kernel)
    have h2 : (str "Index " ++ t).take 18 ≠ str "Invalid character " := by
      intro h
      have := congrArg (List.take 6) h
      rw [List.take_take, show min 6 18 = 6 from rfl, take_append_exact (a := str "Index ") (by decide +kernel)] at this
      exact absurd this (by decide +kernel)
    have h3 : (str "Index " ++ t).take 8 ≠ str "Member '" := take_ne (by rw [h1]; decide +kernel) (by decide)
    rw [message, classify, List.append_assoc, List.append_assoc, ht, if_neg h2, if_neg h3,
      take_append_exact (a := str "Index ") (by decide +kernel), if_pos rfl]
    rfl
  | notSized v =>
    have h1 : (str "Type " ++ (debug v ++ str " has no size")).head? = (str "Type ").head? := head_append (by decide +kernel)
    have h2 : (str "Type " ++ (debug v ++ str " has no size")).take 18 ≠ str "Invalid character " :=
      take_ne (by rw [h1]; decide +kernel) (by decide)
    have h3 : (str "Type " ++ (debug v ++ str " has no size")).take 8 ≠ str "Member '" :=
      take_ne (by rw [h1]; decide +kernel) (by decide)
    have h4 : (str "Type " ++ (debug v ++ str " has no size")).take 6 ≠ str "Index " :=
      take_ne (by rw [h1]; decide +kernel) (by decide)
    have h5 : (str "Type " ++ (debug v ++ str " has no size")).take 5 = str "Type " :=
      take_append_exact (by decide +kernel)
    have h6 : ((str "Type " ++ (debug v ++ str " has no size")).reverse.take 4).reverse = str "size" := by
      rw [show str " has no size" = str " has no " ++ str "size" by decide +kernel, ← List.append_assoc, ← List.append_assoc,
        List.reverse_append, take_append_exact (a := (str "size").reverse) (by decide +kernel), List.reverse_reverse]
    rw [message, classify, List.append_assoc, if_neg h2, if_neg h3, if_neg h4, if_pos ⟨h5, h6⟩]
    rfl
  | invalidIndexValue b => cases b <;> exact fixed _ (by simp only [message]) (by decide +kernel)
  | _ => exact fixed _ (by simp only [message]) (by decide +kernel)

/-- The inverse, for texts without parameters. -/
def ofClass : Nat → Option Reason
  | 1525031 => some .expectedName
  | 1463668 => some .unclosedIndex
  | 738680 => some .emptyIndex
  | 3688829 => some (.invalidIndexValue true)
  | 3754365 => some (.invalidIndexValue false)
  | 1001828 => some .invalidTypeId
  | 3101800 => some .voidDereference
  | 1917303 => some .arrayOffsetOverflow
  | 4346990 => some .ptrNotIndexable
  | 1397861 => some .typeNotIndexable
  | 1922158 => some .notStructOrUnion
  | 1917559 => some .byteOffsetOverflow
  | 2245239 => some .bitOffsetMultiplication
  | 1852023 => some .bitOffsetAddition
  | 2900324 => some .bitfield
  | 1397874 => some .notAPointer
  | 5002340 => some .listHeadNotFound
  | 5723236 => some .listHeadInvalid
  | 6313061 => some .listHeadNotStruct
  | _ => none

theorem ofClass_classOf {r : Reason} (h : 4 ≤ classOf r) : ofClass (classOf r) = some r := by
  cases r with
  | invalidIndexValue b => cases b <;> rfl
  | invalidCharacter _ => exact absurd h (by simp [classOf])
  | memberNotFound _ => exact absurd h (by simp [classOf])
  | indexOutOfBounds _ _ => exact absurd h (by simp [classOf])
  | notSized _ => exact absurd h (by simp [classOf])
  | _ => rfl

/-- Different reasons have different texts. -/
theorem message_inj_of {debug : TypeVariant → Str} {r r' : Reason} (h : message debug r = message debug r')
    (hd : ∀ v w, r = .notSized v → r' = .notSized w → debug v = debug w → v = w) : r = r' := by
  have hc : classOf r = classOf r' := by rw [← classify_message debug, ← classify_message debug, h]
  by_cases hlt : 4 ≤ classOf r
  · have h1 := ofClass_classOf hlt
    rw [hc] at hlt h1
    exact Option.some.inj (h1.symm.trans (ofClass_classOf hlt))
  · cases r with
    | invalidIndexValue b => cases b <;> simp [classOf] at hlt
    | invalidCharacter i =>
      cases r' with
      | invalidIndexValue b => cases b <;> simp [classOf] at hc
      | invalidCharacter j =>
        simp only [message] at h
        rw [decimal_inj (List.append_cancel_left h)]
      | _ => simp [classOf] at hc
    | memberNotFound n =>
      cases r' with
      | invalidIndexValue b => cases b <;> simp [classOf] at hc
      | memberNotFound m =>
        simp only [message] at h
        rw [List.append_cancel_left (List.append_cancel_right h)]
      | _ => simp [classOf] at hc
    | notSized v =>
      cases r' with
      | invalidIndexValue b => cases b <;> simp [classOf] at hc
      | notSized w =>
        simp only [message] at h
        rw [hd _ _ rfl rfl (List.append_cancel_left (List.append_cancel_right h))]
      | _ => simp [classOf] at hc
    | indexOutOfBounds i n =>
      cases r' with
      | invalidIndexValue b => cases b <;> simp [classOf] at hc
      | indexOutOfBounds j m =>
        simp only [message, List.append_assoc] at h
        replace h := List.append_cancel_left h
        rw [show str " is out of bounds for array of size " = 32 :: str "is out of bounds for array of size " by decide +kernel] at h
        obtain ⟨h1, h2⟩ := append_stop decimal_digits decimal_digits h
        rw [decimal_inj h1, UInt32.toNat_inj.1 (decimal_inj (List.append_cancel_left h2))]
      | _ => simp [classOf] at hc
    | _ => simp [classOf] at hlt

theorem message_inj {debug : TypeVariant → Str} (hd : ∀ a b, debug a = debug b → a = b) {r r' : Reason}
    (h : message debug r = message debug r') : r = r' := message_inj_of h fun v w _ _ => hd v w

theorem message_inj' {debug : TypeVariant → Str} {r r' : Reason} (h : message debug r = message debug r')
    (hr : ∀ v, r' ≠ .notSized v) : r = r' := message_inj_of h fun _ w _ h => absurd h (hr w)

end Btf

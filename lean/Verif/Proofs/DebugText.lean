import Verif.Proofs.DebugTypes
import Verif.Spec.Debug
import Verif.Proofs.FileStr

/-!
# The printed text is that of the specification
-/

namespace Btf

open Spec

open Lean Meta Simp in
/-- Evaluates `str` of a literal; the kernel checks the result. -/
simproc_decl strLit (Btf.str _) := fun e => do
  let .lit (.strVal s) := e.appArg! | return .continue
  let l := toExpr s.toUTF8.toList
  return .done { expr := l, proof? := some (mkExpectedPropHint (← mkEqRefl l) (← mkEq e l)) }

theorem str_nat (n : Nat) : str (toString n) = debugNat n := rfl

theorem str_u32 (n : UInt32) : str (toString n) = debugNat n.toNat := rfl

theorem str_u64 (n : UInt64) : str (toString n) = debugNat n.toNat := rfl

theorem str_bool (b : Bool) : str (toString b) = debugBool b := by cases b <;> rfl

theorem str_string (s : String) : str (toString s) = str s := rfl

theorem str_int (n : Int) : str (toString n) = debugSigned n := by
  cases n with
  | ofNat n => rfl
  | negSucc n =>
    show str ("-" ++ toString (n + 1)) = _
    rw [str_append, str_nat]
    unfold debugSigned
    rw [if_pos (Int.negSucc_lt_zero n)]
    rfl

theorem str_join (l : List String) : str (String.join l) = l.flatMap str := by
  unfold str
  rw [String.toList_join]
  induction l with
  | nil => rfl
  | cons x l ih => simp [List.flatMap_append, ih]

theorem str_commas (l : List String) : str (", ".intercalate l) = commas (l.map str) := by
  cases l with
  | nil => rfl
  | cons x l =>
    induction l generalizing x with
    | nil =>
      have : ", ".intercalate [x] = x := by
        apply String.toList_inj.1
        rw [String.toList_intercalate]
        simp
      rw [this]
      simp [commas]
    | cons y l ih =>
      have : ", ".intercalate (x :: y :: l) = x ++ (", " ++ ", ".intercalate (y :: l)) := by
        apply String.toList_inj.1
        rw [String.toList_append, String.toList_append, String.toList_intercalate, String.toList_intercalate]
        simp [List.intercalate]
      rw [this, str_append, str_append, ih y]
      simp [commas]

theorem codePoints_latin1 : ∀ bs : List UInt8, codePoints (latin1 bs) = bs.map UInt8.toNat
  | [] => rfl
  | b :: bs => by
    rw [latin1_cons, List.map_cons]
    have one : ∀ n < 128, String.utf8EncodeChar (Char.ofNat n) = [UInt8.ofNat n] ∧ (UInt8.ofNat n) < 0x80 ∧
        (UInt8.ofNat n).toNat = n := by decide +kernel
    have two : ∀ n < 128, String.utf8EncodeChar (Char.ofNat (128 + n)) =
        [UInt8.ofNat (0xC2 + n / 64), UInt8.ofNat (0x80 + n % 64)] ∧ ¬ (UInt8.ofNat (0xC2 + n / 64) < 0x80) ∧
        ((UInt8.ofNat (0xC2 + n / 64) = 0xC2 ∨ UInt8.ofNat (0xC2 + n / 64) = 0xC3) ∧ 0x80 ≤ UInt8.ofNat (0x80 + n % 64) ∧
          UInt8.ofNat (0x80 + n % 64) < 0xC0) ∧
        ((UInt8.ofNat (0xC2 + n / 64)).toNat - 0xC0) * 64 + ((UInt8.ofNat (0x80 + n % 64)).toNat - 0x80) = 128 + n := by
      decide +kernel
    have hb := b.toNat_lt
    by_cases h : b.toNat < 128
    · obtain ⟨h1, h2, h3⟩ := one _ h
      rw [h1, List.cons_append, List.nil_append]
      unfold codePoints
      simp only [if_pos h2, h3, codePoints_latin1 bs]
    · obtain ⟨h1, h2, h3, h4⟩ := two (b.toNat - 128) (by omega)
      have e : 128 + (b.toNat - 128) = b.toNat := by omega
      rw [e] at h1 h4
      rw [h1, List.cons_append, List.cons_append, List.nil_append]
      unfold codePoints
      simp only [if_neg h2, if_pos h3, h4, codePoints_latin1 bs]

theorem str_quoted (bs : List UInt8) : debugString (latin1 bs) = str (printedBytes bs) := by
  have one : ∀ n < 256, escapeDebug n = str (printedChar (Char.ofNat n)) := by decide +kernel
  unfold debugString printedBytes
  rw [codePoints_latin1, str_append, str_append, str_join]
  congr 2
  induction bs with
  | nil => rfl
  | cons b bs ih => rw [List.map_cons, List.map_cons, List.flatMap_cons, List.flatMap_cons, ih, one _ b.toNat_lt]

theorem text_string {s : Str} {x : String} (h : PrintsString s x) : debugString s = str x := by
  cases h; exact str_quoted _

theorem text_name {s : Option Str} {x : String} (h : PrintsName s x) : debugName s = str x := by
  cases h with
  | none => rfl
  | some h =>
    rw [debugName, text_string h]
    simp only [str_append, str_string]

theorem forall₂_text {α : Type} {p : α → Str} {q : α → String → Prop} (h : ∀ a x, q a x → p a = str x) :
    ∀ {l xs}, List.Forall₂ q l xs → l.map p = xs.map str
  | _, _, .nil => rfl
  | _, _, .cons h1 h2 => by rw [List.map_cons, List.map_cons, h _ _ h1, forall₂_text h h2]

theorem text_list {α : Type} {p : α → Str} {q : α → String → Prop} (h : ∀ a x, q a x → p a = str x) {l : List α} {x : String}
    (hl : PrintsList q l x) : debugList p l = str x := by
  cases hl with
  | list hl =>
    rw [debugList, forall₂_text h hl, ← str_commas]
    simp only [str_append, str_string]

theorem text_kind (k : Kind) : k.debug = str (printedKind k) := by cases k <;> rfl

/-- Writes both sides as sequences of bytes and of values. -/
macro "texts" : tactic => `(tactic|
  simp only [debugStruct, debugTuple, commas, List.map_cons, List.map_nil, str_append, str_string, str_u32, str_u64, str_nat,
    str_bool, str_int, strLit, List.flatMap_cons, List.flatMap_nil, List.append_assoc, List.cons_append, List.nil_append])

theorem text_offset (o : Offset) : o.debug = str (printedOffset o) := by
  cases o with
  | byteOffset b =>
    simp only [Offset.debug]
    show _ = str s!"ByteOffset({b})"
    texts
  | bitOffsetAndSize b w =>
    simp only [Offset.debug]
    show _ = str s!"BitOffsetAndSize({b}, {w})"
    texts

theorem text_header (h : Header) : h.debug = str (printedHeader h) := by
  unfold Header.debug printedHeader
  simp only [text_kind]
  texts

theorem text_member {m : Member} {x : String} (h : PrintsMember m x) : m.debug = str x := by
  cases h with
  | member h =>
    rw [Member.debug, text_name h, text_offset]
    texts

theorem text_parameter {m : Parameter} {x : String} (h : PrintsParameter m x) : m.debug = str x := by
  cases h with
  | parameter h =>
    rw [Parameter.debug, text_name h]
    texts

theorem text_variable {m : Variable} {x : String} (h : PrintsVariable m x) : m.debug = str x := by
  cases h
  rw [Variable.debug]
  texts

theorem text_value32 {m : NamedValue32} {x : String} (h : PrintsValue32 m x) : m.debug = str x := by
  cases h with
  | signed h => rw [NamedValue32.debug, text_string h, Integer32Value.debug]; texts
  | unsigned h => rw [NamedValue32.debug, text_string h, Integer32Value.debug]; texts

theorem text_value64 {m : NamedValue64} {x : String} (h : PrintsValue64 m x) : m.debug = str x := by
  cases h with
  | signed h => rw [NamedValue64.debug, text_string h, Integer64Value.debug]; texts
  | unsigned h => rw [NamedValue64.debug, text_string h, Integer64Value.debug]; texts

theorem debugType_text' {name : String} {h : Header} {data : Str} {x : String} (hx : data = str "Data { " ++ str x ++ str " }") :
    debugType name h data = str s!"{name}({name} \{ type_header: {printedHeader h}, data: Data \{ {x} } })" := by
  rw [debugType, text_header, hx]
  texts

/-- Types are printed as specified. -/
theorem text_type {v : TypeVariant} {x : String} (h : Prints v x) : v.debug = str x := by
  cases h with
  | void => rfl
  | type hv hd =>
    cases hd <;> cases hv <;> simp only [TypeVariant.debug]
    all_goals apply debugType_text'
    all_goals simp only [IntData.debug, TidData.debug, NamedTidData.debug, FuncData.debug, FloatData.debug, ArrayData.debug,
      StructData.debug, EnumData.debug, Enum64Data.debug, FuncProtoData.debug, VarData.debug, DataSecData.debug,
      DeclTagData.debug]
    case type.int.refl h => rw [text_name h]; texts
    case type.ptr.refl => texts
    case type.const.refl => texts
    case type.volatile.refl => texts
    case type.restrict.refl => texts
    case type.typedef.refl h => rw [text_name h]; texts
    case type.typeTag.refl h => rw [text_name h]; texts
    case type.fwd.refl h => rw [text_name h]; texts
    case type.func.refl h => rw [text_name h]; texts
    case type.float.refl h => rw [text_name h]; texts
    case type.array.refl => texts
    case type.struct.refl h hl => rw [text_name h, text_list (p := Member.debug) (fun _ _ => text_member) hl]; texts
    case type.union.refl h hl => rw [text_name h, text_list (p := Member.debug) (fun _ _ => text_member) hl]; texts
    case type.enum.refl h hl => rw [text_name h, text_list (p := NamedValue32.debug) (fun _ _ => text_value32) hl]; texts
    case type.enum64.refl h hl => rw [text_name h, text_list (p := NamedValue64.debug) (fun _ _ => text_value64) hl]; texts
    case type.funcProto.refl hl => rw [text_list (p := Parameter.debug) (fun _ _ => text_parameter) hl]; texts
    case type.varStatic.refl h => rw [text_name h, LinkageType.debug]; texts
    case type.varGlobal.refl h => rw [text_name h, LinkageType.debug]; texts
    case type.dataSec.refl h hl => rw [text_name h, text_list (p := Variable.debug) (fun _ _ => text_variable) hl]; texts
    case type.declTag.refl h => rw [text_name h]; texts

theorem text_types {l : List (UInt32 × TypeVariant)} {x : String} (h : PrintsTypes l x) : debugMap l = str x := by
  cases h with
  | types h =>
    rw [debugMap, str_append, str_append, str_commas, forall₂_text ?_ h]
    rintro ⟨t, v⟩ x ⟨y, hy, rfl⟩
    simp only [text_type hy]
    texts

end Btf

import Verif.Spec.Format
import Mathlib.Data.List.Forall2

/-!
# How types are printed

Written with Lean's own string interpolation, conversion of numbers and lists of characters.
-/

namespace Btf.Spec

open Btf

/-- A character of a name (of Latin-1) as it is printed: quotes, backslashes and the usual control characters with a
backslash, the other control characters, the no-break space and the soft hyphen by number, all others as they are. -/
def printedChar (c : Char) : String :=
  if c = Char.ofNat 0 then "\\0"
  else if c = '\t' then "\\t"
  else if c = '\n' then "\\n"
  else if c = '\r' then "\\r"
  else if c = '"' then "\\\""
  else if c = '\\' then "\\\\"
  else if c.toNat < 32 ∨ (127 ≤ c.toNat ∧ c.toNat ≤ 160) ∨ c.toNat = 173 then
    "\\u{" ++ String.ofList (Nat.toDigits 16 c.toNat) ++ "}"
  else c.toString

/-- The name made of the bytes `bs` in quotes. -/
def printedBytes (bs : List UInt8) : String :=
  "\"" ++ String.join (bs.map fun b => printedChar (Char.ofNat b.toNat)) ++ "\""

/-- A name as it is printed. -/
inductive PrintsString : Str → String → Prop where
  | bytes {bs} : PrintsString (latin1 bs) (printedBytes bs)

/-- An optional name as it is printed. -/
inductive PrintsName : Option Str → String → Prop where
  | none : PrintsName none "None"
  | some {s x} : PrintsString s x → PrintsName (some s) s!"Some({x})"

/-- A list as it is printed. -/
inductive PrintsList {α : Type} (item : α → String → Prop) : List α → String → Prop where
  | list {l xs} : List.Forall₂ item l xs → PrintsList item l s!"[{", ".intercalate xs}]"

/-- The kinds by name. -/
def printedKind : Kind → String
  | .Int => "Int" | .Ptr => "Ptr" | .Array => "Array" | .Struct => "Struct" | .Union => "Union" | .Enum => "Enum"
  | .Fwd => "Fwd" | .Typedef => "Typedef" | .Volatile => "Volatile" | .Const => "Const" | .Restrict => "Restrict"
  | .Func => "Func" | .FuncProto => "FuncProto" | .Var => "Var" | .DataSec => "DataSec" | .Float => "Float"
  | .DeclTag => "DeclTag" | .TypeTag => "TypeTag" | .Enum64 => "Enum64"

/-- A type header as it is printed. -/
def printedHeader (h : Header) : String :=
  s!"Header \{ kind: {printedKind h.kind}, name_offset: {h.nameOffset}, vlen: {h.vlen}, kind_flag: {h.kindFlag}, size_or_type: {h.sizeOrType} }"

/-- An offset as it is printed. -/
def printedOffset : Offset → String
  | .byteOffset b => s!"ByteOffset({b})"
  | .bitOffsetAndSize o w => s!"BitOffsetAndSize({o}, {w})"

inductive PrintsMember : Member → String → Prop where
  | member {o n t p x} : PrintsName n x →
      PrintsMember ⟨o, n, t, p⟩ s!"Member \{ name_offset: {o}, name: {x}, tid: {t}, offset: {printedOffset p} }"

inductive PrintsParameter : Parameter → String → Prop where
  | parameter {o n t x} : PrintsName n x → PrintsParameter ⟨o, n, t⟩ s!"Parameter \{ name_offset: {o}, name: {x}, tid: {t} }"

inductive PrintsVariable : Variable → String → Prop where
  | variable {i o s} : PrintsVariable ⟨i, o, s⟩ s!"Variable \{ var_decl_id: {i}, offset: {o}, var_size: {s} }"

inductive PrintsValue32 : NamedValue32 → String → Prop where
  | signed {n x v} : PrintsString n x → PrintsValue32 ⟨n, .signed v⟩ s!"NamedValue32 \{ name: {x}, value: Signed({v.toInt}) }"
  | unsigned {n x v} : PrintsString n x → PrintsValue32 ⟨n, .unsigned v⟩ s!"NamedValue32 \{ name: {x}, value: Unsigned({v}) }"

inductive PrintsValue64 : NamedValue64 → String → Prop where
  | signed {n x v} : PrintsString n x → PrintsValue64 ⟨n, .signed v⟩ s!"NamedValue64 \{ name: {x}, value: Signed({v.toInt}) }"
  | unsigned {n x v} : PrintsString n x → PrintsValue64 ⟨n, .unsigned v⟩ s!"NamedValue64 \{ name: {x}, value: Unsigned({v}) }"

/-- The part after the type header as it is printed. -/
inductive PrintsData : TypeVariant → String → Prop where
  | int {h n size sg ch bo off bits x} : PrintsName n x → PrintsData (.int h ⟨n, size, sg, ch, bo, off, bits⟩)
      s!"name: {x}, size: {size}, signed: {sg}, char: {ch}, boolean: {bo}, offset: {off}, bits: {bits}"
  | ptr {h t} : PrintsData (.ptr h ⟨t⟩) s!"tid: {t}"
  | const {h t} : PrintsData (.const h ⟨t⟩) s!"tid: {t}"
  | volatile {h t} : PrintsData (.volatile h ⟨t⟩) s!"tid: {t}"
  | restrict {h t} : PrintsData (.restrict h ⟨t⟩) s!"tid: {t}"
  | typedef {h n t x} : PrintsName n x → PrintsData (.typedef h ⟨n, t⟩) s!"name: {x}, tid: {t}"
  | typeTag {h n t x} : PrintsName n x → PrintsData (.typeTag h ⟨n, t⟩) s!"name: {x}, tid: {t}"
  | fwd {h n t x} : PrintsName n x → PrintsData (.fwd h ⟨n, t⟩) s!"name: {x}, tid: {t}"
  | func {h n t x} : PrintsName n x → PrintsData (.func h ⟨n, t⟩) s!"name: {x}, prototype_tid: {t}"
  | float {h n size x} : PrintsName n x → PrintsData (.float h ⟨n, size⟩) s!"name: {x}, size: {size}"
  | array {h e i c} : PrintsData (.array h ⟨e, i, c⟩) s!"element_tid: {e}, index_tid: {i}, element_count: {c}"
  | struct {h n size ms x xs} : PrintsName n x → PrintsList PrintsMember ms xs →
      PrintsData (.struct h ⟨n, size, ms⟩) s!"name: {x}, size: {size}, member_list: {xs}"
  | union {h n size ms x xs} : PrintsName n x → PrintsList PrintsMember ms xs →
      PrintsData (.union h ⟨n, size, ms⟩) s!"name: {x}, size: {size}, member_list: {xs}"
  | enum {h n size vs sg x xs} : PrintsName n x → PrintsList PrintsValue32 vs xs →
      PrintsData (.enum h ⟨n, size, vs, sg⟩) s!"name: {x}, size: {size}, named_value_list: {xs}, signed: {sg}"
  | enum64 {h n size vs sg x xs} : PrintsName n x → PrintsList PrintsValue64 vs xs →
      PrintsData (.enum64 h ⟨n, size, vs, sg⟩) s!"name: {x}, size: {size}, named_value_list: {xs}, signed: {sg}"
  | funcProto {h ps t xs} : PrintsList PrintsParameter ps xs →
      PrintsData (.funcProto h ⟨ps, t⟩) s!"parameter_list: {xs}, return_tid: {t}"
  | varStatic {h n t l x} : PrintsName n x →
      PrintsData (.var h ⟨n, t, l, .static⟩) s!"name: {x}, tid: {t}, linkage: {l}, linkage_type: Static"
  | varGlobal {h n t l x} : PrintsName n x →
      PrintsData (.var h ⟨n, t, l, .global⟩) s!"name: {x}, tid: {t}, linkage: {l}, linkage_type: Global"
  | dataSec {h n size vs x xs} : PrintsName n x → PrintsList PrintsVariable vs xs →
      PrintsData (.dataSec h ⟨n, size, vs⟩) s!"name: {x}, size: {size}, variable_list: {xs}"
  | declTag {h n t i x} : PrintsName n x → PrintsData (.declTag h ⟨n, t, i⟩) s!"name: {x}, tid: {t}, component_index: {i}"

/-- The name of the variant, and the type header. -/
def variantHead : TypeVariant → Option (String × Header)
  | .void => none
  | .int h _ => some ("Int", h)
  | .ptr h _ => some ("Ptr", h)
  | .array h _ => some ("Array", h)
  | .struct h _ => some ("Struct", h)
  | .union h _ => some ("Union", h)
  | .enum h _ => some ("Enum", h)
  | .fwd h _ => some ("Fwd", h)
  | .typedef h _ => some ("Typedef", h)
  | .volatile h _ => some ("Volatile", h)
  | .const h _ => some ("Const", h)
  | .restrict h _ => some ("Restrict", h)
  | .func h _ => some ("Func", h)
  | .funcProto h _ => some ("FuncProto", h)
  | .var h _ => some ("Var", h)
  | .dataSec h _ => some ("DataSec", h)
  | .float h _ => some ("Float", h)
  | .declTag h _ => some ("DeclTag", h)
  | .typeTag h _ => some ("TypeTag", h)
  | .enum64 h _ => some ("Enum64", h)

/-- A type as it is printed. -/
inductive Prints : TypeVariant → String → Prop where
  | void : Prints .void "Void"
  | type {v name h x} : variantHead v = some (name, h) → PrintsData v x →
      Prints v s!"{name}({name} \{ type_header: {printedHeader h}, data: Data \{ {x} } })"

/-- The map of the types as it is printed. -/
inductive PrintsTypes : List (UInt32 × TypeVariant) → String → Prop where
  | types {l xs} : List.Forall₂ (fun p x => ∃ y, Prints p.2 y ∧ x = s!"{p.1}: {y}") l xs →
      PrintsTypes l ("{" ++ ", ".intercalate xs ++ "}")

end Btf.Spec

import Verif.Proofs.Debug

/-!
# Printed types can be read back
-/

namespace Btf

theorem solid_str {x : String} (h : (str x).head?.map stopByte = some false) (y : Str) : Solid (str x ++ y) := by
  generalize str x = x at h
  cases x with
  | nil => simp at h
  | cons b x =>
    show stopByte b = false
    simpa using h

theorem debugStruct_solid {name : String} (h : (str name).head?.map stopByte = some false) (l : List (String × Str)) :
    Solid (debugStruct name l) := by
  unfold debugStruct
  rw [List.append_assoc, List.append_assoc]
  exact solid_str h _

theorem debugTuple_solid {name : String} (h : (str name).head?.map stopByte = some false) (l : List Str) :
    Solid (debugTuple name l) := by
  unfold debugTuple
  rw [List.append_assoc, List.append_assoc]
  exact solid_str h _

theorem names_solid {α : Type} (l : List (String × α)) (h : (l.map Prod.fst).all fun n => (str n).head?.map stopByte == some false) :
    ∀ t ∈ l, Solid (str t.1) := by
  intro t ht
  rw [List.all_eq_true] at h
  have := solid_str (x := t.1) (by simpa using h t.1 (List.mem_map_of_mem ht)) []
  rwa [List.append_nil] at this

/-- The name of a variant ends at the parenthesis. -/
theorem debugTuple_name {m n : String} {xs ys : List Str} {r s : Str} (hm : (str m).all (· != 40) = true)
    (hn : (str n).all (· != 40) = true) (h : debugTuple m xs ++ r = debugTuple n ys ++ s) : m = n := by
  simp only [debugTuple, List.append_assoc] at h
  have hm' : ∀ b ∈ str m, b ≠ 40 := by simpa using hm
  have hn' : ∀ b ∈ str n, b ≠ 40 := by simpa using hn
  rw [show str "(" = [40] by decide +kernel] at h
  exact str_inj (append_stop hm' hn' h).1

theorem nat_solid (n : Nat) : Solid (debugNat n) := word_solid (decimal_word n) (decimal_ne_nil n)

theorem signed_solid (n : Int) : Solid (debugSigned n) := by
  unfold debugSigned
  split
  · rfl
  · exact nat_solid _

theorem tuple1 {α : Type} {p : α → Str} (hp : Printer p) (hs : ∀ a, Solid (p a)) (name : String) :
    Printer fun a => debugTuple name [p a] := by
  intro a b r s _ _ h
  obtain ⟨h1, h2⟩ := debugTuple_split (xs := [p a]) (ys := [p b]) (by simpa using hp.apart a b) (by simpa using hs a)
    (by simpa using hs b) h
  exact ⟨hp.inj (by simpa using h1), h2⟩

theorem offset_printer : Printer Offset.debug := by
  intro a b r s hr hs h
  cases a with
  | byteOffset a =>
    cases b with
    | byteOffset b =>
      obtain ⟨rfl, rfl⟩ := tuple1 u32_printer (fun _ => nat_solid _) "ByteOffset" a b r s hr hs h
      exact ⟨rfl, rfl⟩
    | bitOffsetAndSize b c => exact absurd (debugTuple_name (by decide +kernel) (by decide +kernel) h) (by decide +kernel)
  | bitOffsetAndSize a c =>
    cases b with
    | byteOffset b => exact absurd (debugTuple_name (by decide +kernel) (by decide +kernel) h) (by decide +kernel)
    | bitOffsetAndSize b d =>
      obtain ⟨h1, rfl⟩ := debugTuple_split (xs := [debugNat a.toNat, debugNat c.toNat])
        (ys := [debugNat b.toNat, debugNat d.toNat])
        (by simpa using ⟨u32_printer.apart a b, u32_printer.apart c d⟩)
        (by simpa using ⟨nat_solid _, nat_solid _⟩) (by simpa using ⟨nat_solid _, nat_solid _⟩) h
      simp only [List.cons.injEq, and_true] at h1
      obtain rfl := u32_printer.inj h1.1
      obtain rfl := u32_printer.inj h1.2
      exact ⟨rfl, rfl⟩

theorem offset_solid (o : Offset) : Solid o.debug := by
  cases o <;> exact debugTuple_solid (by decide +kernel) _

theorem value32_printer : Printer Integer32Value.debug := by
  intro a b r s hr hs h
  cases a with
  | signed a =>
    cases b with
    | signed b =>
      obtain ⟨h1, rfl⟩ := tuple1 debugSigned_printer signed_solid "Signed" a.toInt b.toInt r s hr hs h
      exact ⟨by rw [Int32.toInt_inj.1 h1], rfl⟩
    | unsigned b => exact absurd (debugTuple_name (by decide +kernel) (by decide +kernel) h) (by decide +kernel)
  | unsigned a =>
    cases b with
    | signed b => exact absurd (debugTuple_name (by decide +kernel) (by decide +kernel) h) (by decide +kernel)
    | unsigned b =>
      obtain ⟨rfl, rfl⟩ := tuple1 u32_printer (fun _ => nat_solid _) "Unsigned" a b r s hr hs h
      exact ⟨rfl, rfl⟩

theorem value64_printer : Printer Integer64Value.debug := by
  intro a b r s hr hs h
  cases a with
  | signed a =>
    cases b with
    | signed b =>
      obtain ⟨h1, rfl⟩ := tuple1 debugSigned_printer signed_solid "Signed" a.toInt b.toInt r s hr hs h
      exact ⟨by rw [Int64.toInt_inj.1 h1], rfl⟩
    | unsigned b => exact absurd (debugTuple_name (by decide +kernel) (by decide +kernel) h) (by decide +kernel)
  | unsigned a =>
    cases b with
    | signed b => exact absurd (debugTuple_name (by decide +kernel) (by decide +kernel) h) (by decide +kernel)
    | unsigned b =>
      obtain ⟨rfl, rfl⟩ := tuple1 u64_printer (fun _ => nat_solid _) "Unsigned" a b r s hr hs h
      exact ⟨rfl, rfl⟩

/-! ### Structs -/

theorem Header_solid (a : Header) : Solid a.debug := debugStruct_solid (by decide +kernel) _

theorem Header_printer : Printer Header.debug := by
  intro a b r s _ _ h
  have key := debugStruct_split [("kind", a.kind.debug, b.kind.debug), ("name_offset", debugNat a.nameOffset.toNat, debugNat b.nameOffset.toNat), ("vlen", debugNat a.vlen, debugNat b.vlen), ("kind_flag", debugBool a.kindFlag, debugBool b.kindFlag), ("size_or_type", debugNat a.sizeOrType.toNat, debugNat b.sizeOrType.toNat)]
    (names_solid _ (by simp only [List.map_cons, List.map_nil]; decide +kernel))
    (by
      simp only [List.forall_mem_cons, List.not_mem_nil, false_implies, implies_true, and_true]
      exact ⟨kind_printer.apart _ _, u32_printer.apart _ _, debugNat_printer.apart _ _, debugBool_printer.apart _ _, u32_printer.apart _ _⟩) h
  simp only [List.forall_mem_cons, List.not_mem_nil, false_implies, implies_true, and_true] at key
  obtain ⟨⟨e0, e1, e2, e3, e4⟩, rfl⟩ := key
  have e0 := kind_printer.inj e0
  have e1 := u32_printer.inj e1
  have e2 := debugNat_printer.inj e2
  have e3 := debugBool_printer.inj e3
  have e4 := u32_printer.inj e4
  cases a; cases b
  simp only at e0 e1 e2 e3 e4
  simp only [e0, e1, e2, e3, e4, and_self]

theorem IntData_solid (a : IntData) : Solid a.debug := debugStruct_solid (by decide +kernel) _

theorem IntData_printer : Printer IntData.debug := by
  intro a b r s _ _ h
  have key := debugStruct_split [("name", debugName a.name, debugName b.name), ("size", debugNat a.size, debugNat b.size), ("signed", debugBool a.signed, debugBool b.signed), ("char", debugBool a.char, debugBool b.char), ("boolean", debugBool a.boolean, debugBool b.boolean), ("offset", debugNat a.offset, debugNat b.offset), ("bits", debugNat a.bits, debugNat b.bits)]
    (names_solid _ (by simp only [List.map_cons, List.map_nil]; decide +kernel))
    (by
      simp only [List.forall_mem_cons, List.not_mem_nil, false_implies, implies_true, and_true]
      exact ⟨debugName_printer.apart _ _, debugNat_printer.apart _ _, debugBool_printer.apart _ _, debugBool_printer.apart _ _, debugBool_printer.apart _ _, debugNat_printer.apart _ _, debugNat_printer.apart _ _⟩) h
  simp only [List.forall_mem_cons, List.not_mem_nil, false_implies, implies_true, and_true] at key
  obtain ⟨⟨e0, e1, e2, e3, e4, e5, e6⟩, rfl⟩ := key
  have e0 := debugName_printer.inj e0
  have e1 := debugNat_printer.inj e1
  have e2 := debugBool_printer.inj e2
  have e3 := debugBool_printer.inj e3
  have e4 := debugBool_printer.inj e4
  have e5 := debugNat_printer.inj e5
  have e6 := debugNat_printer.inj e6
  cases a; cases b
  simp only at e0 e1 e2 e3 e4 e5 e6
  simp only [e0, e1, e2, e3, e4, e5, e6, and_self]

theorem TidData_solid (a : TidData) : Solid a.debug := debugStruct_solid (by decide +kernel) _

theorem TidData_printer : Printer TidData.debug := by
  intro a b r s _ _ h
  have key := debugStruct_split [("tid", debugNat a.tid.toNat, debugNat b.tid.toNat)]
    (names_solid _ (by simp only [List.map_cons, List.map_nil]; decide +kernel))
    (by
      simp only [List.forall_mem_cons, List.not_mem_nil, false_implies, implies_true, and_true]
      exact u32_printer.apart _ _) h
  simp only [List.forall_mem_cons, List.not_mem_nil, false_implies, implies_true, and_true] at key
  obtain ⟨e0, rfl⟩ := key
  have e0 := u32_printer.inj e0
  cases a; cases b
  simp only at e0
  simp only [e0, and_self]

theorem NamedTidData_solid (a : NamedTidData) : Solid a.debug := debugStruct_solid (by decide +kernel) _

theorem NamedTidData_printer : Printer NamedTidData.debug := by
  intro a b r s _ _ h
  have key := debugStruct_split [("name", debugName a.name, debugName b.name), ("tid", debugNat a.tid.toNat, debugNat b.tid.toNat)]
    (names_solid _ (by simp only [List.map_cons, List.map_nil]; decide +kernel))
    (by
      simp only [List.forall_mem_cons, List.not_mem_nil, false_implies, implies_true, and_true]
      exact ⟨debugName_printer.apart _ _, u32_printer.apart _ _⟩) h
  simp only [List.forall_mem_cons, List.not_mem_nil, false_implies, implies_true, and_true] at key
  obtain ⟨⟨e0, e1⟩, rfl⟩ := key
  have e0 := debugName_printer.inj e0
  have e1 := u32_printer.inj e1
  cases a; cases b
  simp only at e0 e1
  simp only [e0, e1, and_self]

theorem FuncData_solid (a : FuncData) : Solid a.debug := debugStruct_solid (by decide +kernel) _

theorem FuncData_printer : Printer FuncData.debug := by
  intro a b r s _ _ h
  have key := debugStruct_split [("name", debugName a.name, debugName b.name), ("prototype_tid", debugNat a.prototypeTid.toNat, debugNat b.prototypeTid.toNat)]
    (names_solid _ (by simp only [List.map_cons, List.map_nil]; decide +kernel))
    (by
      simp only [List.forall_mem_cons, List.not_mem_nil, false_implies, implies_true, and_true]
      exact ⟨debugName_printer.apart _ _, u32_printer.apart _ _⟩) h
  simp only [List.forall_mem_cons, List.not_mem_nil, false_implies, implies_true, and_true] at key
  obtain ⟨⟨e0, e1⟩, rfl⟩ := key
  have e0 := debugName_printer.inj e0
  have e1 := u32_printer.inj e1
  cases a; cases b
  simp only at e0 e1
  simp only [e0, e1, and_self]

theorem FloatData_solid (a : FloatData) : Solid a.debug := debugStruct_solid (by decide +kernel) _

theorem FloatData_printer : Printer FloatData.debug := by
  intro a b r s _ _ h
  have key := debugStruct_split [("name", debugName a.name, debugName b.name), ("size", debugNat a.size, debugNat b.size)]
    (names_solid _ (by simp only [List.map_cons, List.map_nil]; decide +kernel))
    (by
      simp only [List.forall_mem_cons, List.not_mem_nil, false_implies, implies_true, and_true]
      exact ⟨debugName_printer.apart _ _, debugNat_printer.apart _ _⟩) h
  simp only [List.forall_mem_cons, List.not_mem_nil, false_implies, implies_true, and_true] at key
  obtain ⟨⟨e0, e1⟩, rfl⟩ := key
  have e0 := debugName_printer.inj e0
  have e1 := debugNat_printer.inj e1
  cases a; cases b
  simp only at e0 e1
  simp only [e0, e1, and_self]

theorem ArrayData_solid (a : ArrayData) : Solid a.debug := debugStruct_solid (by decide +kernel) _

theorem ArrayData_printer : Printer ArrayData.debug := by
  intro a b r s _ _ h
  have key := debugStruct_split [("element_tid", debugNat a.elementTid.toNat, debugNat b.elementTid.toNat), ("index_tid", debugNat a.indexTid.toNat, debugNat b.indexTid.toNat), ("element_count", debugNat a.elementCount.toNat, debugNat b.elementCount.toNat)]
    (names_solid _ (by simp only [List.map_cons, List.map_nil]; decide +kernel))
    (by
      simp only [List.forall_mem_cons, List.not_mem_nil, false_implies, implies_true, and_true]
      exact ⟨u32_printer.apart _ _, u32_printer.apart _ _, u32_printer.apart _ _⟩) h
  simp only [List.forall_mem_cons, List.not_mem_nil, false_implies, implies_true, and_true] at key
  obtain ⟨⟨e0, e1, e2⟩, rfl⟩ := key
  have e0 := u32_printer.inj e0
  have e1 := u32_printer.inj e1
  have e2 := u32_printer.inj e2
  cases a; cases b
  simp only at e0 e1 e2
  simp only [e0, e1, e2, and_self]

theorem Member_solid (a : Member) : Solid a.debug := debugStruct_solid (by decide +kernel) _

theorem Member_printer : Printer Member.debug := by
  intro a b r s _ _ h
  have key := debugStruct_split [("name_offset", debugNat a.nameOffset.toNat, debugNat b.nameOffset.toNat), ("name", debugName a.name, debugName b.name), ("tid", debugNat a.tid.toNat, debugNat b.tid.toNat), ("offset", a.offset.debug, b.offset.debug)]
    (names_solid _ (by simp only [List.map_cons, List.map_nil]; decide +kernel))
    (by
      simp only [List.forall_mem_cons, List.not_mem_nil, false_implies, implies_true, and_true]
      exact ⟨u32_printer.apart _ _, debugName_printer.apart _ _, u32_printer.apart _ _, offset_printer.apart _ _⟩) h
  simp only [List.forall_mem_cons, List.not_mem_nil, false_implies, implies_true, and_true] at key
  obtain ⟨⟨e0, e1, e2, e3⟩, rfl⟩ := key
  have e0 := u32_printer.inj e0
  have e1 := debugName_printer.inj e1
  have e2 := u32_printer.inj e2
  have e3 := offset_printer.inj e3
  cases a; cases b
  simp only at e0 e1 e2 e3
  simp only [e0, e1, e2, e3, and_self]

theorem StructData_solid (a : StructData) : Solid a.debug := debugStruct_solid (by decide +kernel) _

theorem StructData_printer : Printer StructData.debug := by
  intro a b r s _ _ h
  have key := debugStruct_split [("name", debugName a.name, debugName b.name), ("size", debugNat a.size, debugNat b.size), ("member_list", debugList Member.debug a.memberList, debugList Member.debug b.memberList)]
    (names_solid _ (by simp only [List.map_cons, List.map_nil]; decide +kernel))
    (by
      simp only [List.forall_mem_cons, List.not_mem_nil, false_implies, implies_true, and_true]
      exact ⟨debugName_printer.apart _ _, debugNat_printer.apart _ _, (debugList_printer Member_printer Member_solid).apart _ _⟩) h
  simp only [List.forall_mem_cons, List.not_mem_nil, false_implies, implies_true, and_true] at key
  obtain ⟨⟨e0, e1, e2⟩, rfl⟩ := key
  have e0 := debugName_printer.inj e0
  have e1 := debugNat_printer.inj e1
  have e2 := (debugList_printer Member_printer Member_solid).inj e2
  cases a; cases b
  simp only at e0 e1 e2
  simp only [e0, e1, e2, and_self]

theorem NamedValue32_solid (a : NamedValue32) : Solid a.debug := debugStruct_solid (by decide +kernel) _

theorem NamedValue32_printer : Printer NamedValue32.debug := by
  intro a b r s _ _ h
  have key := debugStruct_split [("name", debugString a.name, debugString b.name), ("value", a.value.debug, b.value.debug)]
    (names_solid _ (by simp only [List.map_cons, List.map_nil]; decide +kernel))
    (by
      simp only [List.forall_mem_cons, List.not_mem_nil, false_implies, implies_true, and_true]
      exact ⟨debugString_printer.apart _ _, value32_printer.apart _ _⟩) h
  simp only [List.forall_mem_cons, List.not_mem_nil, false_implies, implies_true, and_true] at key
  obtain ⟨⟨e0, e1⟩, rfl⟩ := key
  have e0 := debugString_printer.inj e0
  have e1 := value32_printer.inj e1
  cases a; cases b
  simp only at e0 e1
  simp only [e0, e1, and_self]

theorem EnumData_solid (a : EnumData) : Solid a.debug := debugStruct_solid (by decide +kernel) _

theorem EnumData_printer : Printer EnumData.debug := by
  intro a b r s _ _ h
  have key := debugStruct_split [("name", debugName a.name, debugName b.name), ("size", debugNat a.size, debugNat b.size), ("named_value_list", debugList NamedValue32.debug a.namedValueList, debugList NamedValue32.debug b.namedValueList), ("signed", debugBool a.signed, debugBool b.signed)]
    (names_solid _ (by simp only [List.map_cons, List.map_nil]; decide +kernel))
    (by
      simp only [List.forall_mem_cons, List.not_mem_nil, false_implies, implies_true, and_true]
      exact ⟨debugName_printer.apart _ _, debugNat_printer.apart _ _, (debugList_printer NamedValue32_printer NamedValue32_solid).apart _ _, debugBool_printer.apart _ _⟩) h
  simp only [List.forall_mem_cons, List.not_mem_nil, false_implies, implies_true, and_true] at key
  obtain ⟨⟨e0, e1, e2, e3⟩, rfl⟩ := key
  have e0 := debugName_printer.inj e0
  have e1 := debugNat_printer.inj e1
  have e2 := (debugList_printer NamedValue32_printer NamedValue32_solid).inj e2
  have e3 := debugBool_printer.inj e3
  cases a; cases b
  simp only at e0 e1 e2 e3
  simp only [e0, e1, e2, e3, and_self]

theorem NamedValue64_solid (a : NamedValue64) : Solid a.debug := debugStruct_solid (by decide +kernel) _

theorem NamedValue64_printer : Printer NamedValue64.debug := by
  intro a b r s _ _ h
  have key := debugStruct_split [("name", debugString a.name, debugString b.name), ("value", a.value.debug, b.value.debug)]
    (names_solid _ (by simp only [List.map_cons, List.map_nil]; decide +kernel))
    (by
      simp only [List.forall_mem_cons, List.not_mem_nil, false_implies, implies_true, and_true]
      exact ⟨debugString_printer.apart _ _, value64_printer.apart _ _⟩) h
  simp only [List.forall_mem_cons, List.not_mem_nil, false_implies, implies_true, and_true] at key
  obtain ⟨⟨e0, e1⟩, rfl⟩ := key
  have e0 := debugString_printer.inj e0
  have e1 := value64_printer.inj e1
  cases a; cases b
  simp only at e0 e1
  simp only [e0, e1, and_self]

theorem Enum64Data_solid (a : Enum64Data) : Solid a.debug := debugStruct_solid (by decide +kernel) _

theorem Enum64Data_printer : Printer Enum64Data.debug := by
  intro a b r s _ _ h
  have key := debugStruct_split [("name", debugName a.name, debugName b.name), ("size", debugNat a.size, debugNat b.size), ("named_value_list", debugList NamedValue64.debug a.namedValueList, debugList NamedValue64.debug b.namedValueList), ("signed", debugBool a.signed, debugBool b.signed)]
    (names_solid _ (by simp only [List.map_cons, List.map_nil]; decide +kernel))
    (by
      simp only [List.forall_mem_cons, List.not_mem_nil, false_implies, implies_true, and_true]
      exact ⟨debugName_printer.apart _ _, debugNat_printer.apart _ _, (debugList_printer NamedValue64_printer NamedValue64_solid).apart _ _, debugBool_printer.apart _ _⟩) h
  simp only [List.forall_mem_cons, List.not_mem_nil, false_implies, implies_true, and_true] at key
  obtain ⟨⟨e0, e1, e2, e3⟩, rfl⟩ := key
  have e0 := debugName_printer.inj e0
  have e1 := debugNat_printer.inj e1
  have e2 := (debugList_printer NamedValue64_printer NamedValue64_solid).inj e2
  have e3 := debugBool_printer.inj e3
  cases a; cases b
  simp only at e0 e1 e2 e3
  simp only [e0, e1, e2, e3, and_self]

theorem Parameter_solid (a : Parameter) : Solid a.debug := debugStruct_solid (by decide +kernel) _

theorem Parameter_printer : Printer Parameter.debug := by
  intro a b r s _ _ h
  have key := debugStruct_split [("name_offset", debugNat a.nameOffset.toNat, debugNat b.nameOffset.toNat), ("name", debugName a.name, debugName b.name), ("tid", debugNat a.tid.toNat, debugNat b.tid.toNat)]
    (names_solid _ (by simp only [List.map_cons, List.map_nil]; decide +kernel))
    (by
      simp only [List.forall_mem_cons, List.not_mem_nil, false_implies, implies_true, and_true]
      exact ⟨u32_printer.apart _ _, debugName_printer.apart _ _, u32_printer.apart _ _⟩) h
  simp only [List.forall_mem_cons, List.not_mem_nil, false_implies, implies_true, and_true] at key
  obtain ⟨⟨e0, e1, e2⟩, rfl⟩ := key
  have e0 := u32_printer.inj e0
  have e1 := debugName_printer.inj e1
  have e2 := u32_printer.inj e2
  cases a; cases b
  simp only at e0 e1 e2
  simp only [e0, e1, e2, and_self]

theorem FuncProtoData_solid (a : FuncProtoData) : Solid a.debug := debugStruct_solid (by decide +kernel) _

theorem FuncProtoData_printer : Printer FuncProtoData.debug := by
  intro a b r s _ _ h
  have key := debugStruct_split [("parameter_list", debugList Parameter.debug a.parameterList, debugList Parameter.debug b.parameterList), ("return_tid", debugNat a.returnTid.toNat, debugNat b.returnTid.toNat)]
    (names_solid _ (by simp only [List.map_cons, List.map_nil]; decide +kernel))
    (by
      simp only [List.forall_mem_cons, List.not_mem_nil, false_implies, implies_true, and_true]
      exact ⟨(debugList_printer Parameter_printer Parameter_solid).apart _ _, u32_printer.apart _ _⟩) h
  simp only [List.forall_mem_cons, List.not_mem_nil, false_implies, implies_true, and_true] at key
  obtain ⟨⟨e0, e1⟩, rfl⟩ := key
  have e0 := (debugList_printer Parameter_printer Parameter_solid).inj e0
  have e1 := u32_printer.inj e1
  cases a; cases b
  simp only at e0 e1
  simp only [e0, e1, and_self]

theorem VarData_solid (a : VarData) : Solid a.debug := debugStruct_solid (by decide +kernel) _

theorem VarData_printer : Printer VarData.debug := by
  intro a b r s _ _ h
  have key := debugStruct_split [("name", debugName a.name, debugName b.name), ("tid", debugNat a.tid.toNat, debugNat b.tid.toNat), ("linkage", debugNat a.linkage.toNat, debugNat b.linkage.toNat), ("linkage_type", a.linkageType.debug, b.linkageType.debug)]
    (names_solid _ (by simp only [List.map_cons, List.map_nil]; decide +kernel))
    (by
      simp only [List.forall_mem_cons, List.not_mem_nil, false_implies, implies_true, and_true]
      exact ⟨debugName_printer.apart _ _, u32_printer.apart _ _, u32_printer.apart _ _, linkage_printer.apart _ _⟩) h
  simp only [List.forall_mem_cons, List.not_mem_nil, false_implies, implies_true, and_true] at key
  obtain ⟨⟨e0, e1, e2, e3⟩, rfl⟩ := key
  have e0 := debugName_printer.inj e0
  have e1 := u32_printer.inj e1
  have e2 := u32_printer.inj e2
  have e3 := linkage_printer.inj e3
  cases a; cases b
  simp only at e0 e1 e2 e3
  simp only [e0, e1, e2, e3, and_self]

theorem Variable_solid (a : Variable) : Solid a.debug := debugStruct_solid (by decide +kernel) _

theorem Variable_printer : Printer Variable.debug := by
  intro a b r s _ _ h
  have key := debugStruct_split [("var_decl_id", debugNat a.varDeclId.toNat, debugNat b.varDeclId.toNat), ("offset", debugNat a.offset.toNat, debugNat b.offset.toNat), ("var_size", debugNat a.varSize.toNat, debugNat b.varSize.toNat)]
    (names_solid _ (by simp only [List.map_cons, List.map_nil]; decide +kernel))
    (by
      simp only [List.forall_mem_cons, List.not_mem_nil, false_implies, implies_true, and_true]
      exact ⟨u32_printer.apart _ _, u32_printer.apart _ _, u32_printer.apart _ _⟩) h
  simp only [List.forall_mem_cons, List.not_mem_nil, false_implies, implies_true, and_true] at key
  obtain ⟨⟨e0, e1, e2⟩, rfl⟩ := key
  have e0 := u32_printer.inj e0
  have e1 := u32_printer.inj e1
  have e2 := u32_printer.inj e2
  cases a; cases b
  simp only at e0 e1 e2
  simp only [e0, e1, e2, and_self]

theorem DataSecData_solid (a : DataSecData) : Solid a.debug := debugStruct_solid (by decide +kernel) _

theorem DataSecData_printer : Printer DataSecData.debug := by
  intro a b r s _ _ h
  have key := debugStruct_split [("name", debugName a.name, debugName b.name), ("size", debugNat a.size, debugNat b.size), ("variable_list", debugList Variable.debug a.variableList, debugList Variable.debug b.variableList)]
    (names_solid _ (by simp only [List.map_cons, List.map_nil]; decide +kernel))
    (by
      simp only [List.forall_mem_cons, List.not_mem_nil, false_implies, implies_true, and_true]
      exact ⟨debugName_printer.apart _ _, debugNat_printer.apart _ _, (debugList_printer Variable_printer Variable_solid).apart _ _⟩) h
  simp only [List.forall_mem_cons, List.not_mem_nil, false_implies, implies_true, and_true] at key
  obtain ⟨⟨e0, e1, e2⟩, rfl⟩ := key
  have e0 := debugName_printer.inj e0
  have e1 := debugNat_printer.inj e1
  have e2 := (debugList_printer Variable_printer Variable_solid).inj e2
  cases a; cases b
  simp only at e0 e1 e2
  simp only [e0, e1, e2, and_self]

theorem DeclTagData_solid (a : DeclTagData) : Solid a.debug := debugStruct_solid (by decide +kernel) _

theorem DeclTagData_printer : Printer DeclTagData.debug := by
  intro a b r s _ _ h
  have key := debugStruct_split [("name", debugName a.name, debugName b.name), ("tid", debugNat a.tid.toNat, debugNat b.tid.toNat), ("component_index", debugNat a.componentIndex.toNat, debugNat b.componentIndex.toNat)]
    (names_solid _ (by simp only [List.map_cons, List.map_nil]; decide +kernel))
    (by
      simp only [List.forall_mem_cons, List.not_mem_nil, false_implies, implies_true, and_true]
      exact ⟨debugName_printer.apart _ _, u32_printer.apart _ _, u32_printer.apart _ _⟩) h
  simp only [List.forall_mem_cons, List.not_mem_nil, false_implies, implies_true, and_true] at key
  obtain ⟨⟨e0, e1, e2⟩, rfl⟩ := key
  have e0 := debugName_printer.inj e0
  have e1 := u32_printer.inj e1
  have e2 := u32_printer.inj e2
  cases a; cases b
  simp only at e0 e1 e2
  simp only [e0, e1, e2, and_self]

/-! ### Types -/

theorem debugType_name {m n : String} {h h' : Header} {x y r s : Str} (hm : (str m).all (· != 40) = true)
    (hn : (str n).all (· != 40) = true) (he : debugType m h x ++ r = debugType n h' y ++ s) : m = n :=
  debugTuple_name hm hn he

theorem debugType_split {n : String} {h h' : Header} {x y r s : Str} (hn : (str n).head?.map stopByte = some false)
    (ha : Apart x y) (he : debugType n h x ++ r = debugType n h' y ++ s) : h = h' ∧ x = y ∧ r = s := by
  have ap : Apart (debugStruct n [("type_header", h.debug), ("data", x)])
      (debugStruct n [("type_header", h'.debug), ("data", y)]) := by
    intro r s _ _ h1
    have key := debugStruct_split [("type_header", h.debug, h'.debug), ("data", x, y)]
      (names_solid _ (by simp only [List.map_cons, List.map_nil]; decide +kernel))
      (by
        simp only [List.forall_mem_cons, List.not_mem_nil, false_implies, implies_true, and_true]
        exact ⟨Header_printer.apart _ _, ha⟩) h1
    simp only [List.forall_mem_cons, List.not_mem_nil, false_implies, implies_true, and_true] at key
    obtain ⟨⟨e1, e2⟩, rfl⟩ := key
    rw [e1, e2]
    exact ⟨rfl, rfl⟩
  obtain ⟨h1, rfl⟩ := debugTuple_split (xs := [debugStruct n [("type_header", h.debug), ("data", x)]])
    (ys := [debugStruct n [("type_header", h'.debug), ("data", y)]]) (by simpa using ap)
    (by simpa using debugStruct_solid hn _) (by simpa using debugStruct_solid hn _) he
  simp only [List.cons.injEq, and_true] at h1
  have key := debugStruct_split (r := []) (s := []) [("type_header", h.debug, h'.debug), ("data", x, y)]
    (names_solid _ (by simp only [List.map_cons, List.map_nil]; decide +kernel))
    (by
      simp only [List.forall_mem_cons, List.not_mem_nil, false_implies, implies_true, and_true]
      exact ⟨Header_printer.apart _ _, ha⟩) (by rw [List.append_nil, List.append_nil]; exact h1)
  simp only [List.forall_mem_cons, List.not_mem_nil, false_implies, implies_true, and_true] at key
  exact ⟨Header_printer.inj key.1, key.2, rfl⟩

/-- The name of the variant. -/
def variantName : TypeVariant → String
  | .void => "Void"
  | .int _ _ => "Int"
  | .typedef _ _ => "Typedef"
  | .enum _ _ => "Enum"
  | .ptr _ _ => "Ptr"
  | .const _ _ => "Const"
  | .volatile _ _ => "Volatile"
  | .array _ _ => "Array"
  | .funcProto _ _ => "FuncProto"
  | .struct _ _ => "Struct"
  | .union _ _ => "Union"
  | .fwd _ _ => "Fwd"
  | .var _ _ => "Var"
  | .enum64 _ _ => "Enum64"
  | .func _ _ => "Func"
  | .float _ _ => "Float"
  | .restrict _ _ => "Restrict"
  | .dataSec _ _ => "DataSec"
  | .typeTag _ _ => "TypeTag"
  | .declTag _ _ => "DeclTag"

theorem variant_shape (v : TypeVariant) : v = .void ∨ ∃ h x, v.debug = debugType (variantName v) h x := by
  cases v with
  | void => exact .inl rfl
  | _ h d => exact .inr ⟨h, _, rfl⟩

theorem variantName_fine (v : TypeVariant) : (str (variantName v)).all (· != 40) = true ∧
    (str (variantName v)).head?.map stopByte = some false ∧ 3 ≤ (str (variantName v)).length ∧
    ((str (variantName v)).take 3 = str "Voi" → v = .void) := by
  cases v with
  | void => exact ⟨by decide +kernel, by decide +kernel, by decide +kernel, fun _ => rfl⟩
  | _ h d =>
    simp only [variantName]
    exact ⟨by decide +kernel, by decide +kernel, by decide +kernel, fun h => absurd h (by decide +kernel)⟩

theorem variant_not_void {v : TypeVariant} (hv : v ≠ .void) {r s : Str} : v.debug ++ r ≠ TypeVariant.void.debug ++ s := by
  intro h
  obtain ⟨hh, x, hx⟩ := (variant_shape v).resolve_left hv
  obtain ⟨-, -, h3, h4⟩ := variantName_fine v
  rw [hx] at h
  simp only [debugType, debugTuple, TypeVariant.debug, List.append_assoc] at h
  have := congrArg (List.take 3) h
  rw [List.take_append_of_le_length h3, List.take_append_of_le_length (by decide +kernel)] at this
  exact hv (h4 (this.trans (by decide +kernel)))

theorem variant_solid (v : TypeVariant) : Solid v.debug := by
  rcases variant_shape v with rfl | ⟨h, x, hx⟩
  · have := solid_str (x := "Void") (by decide +kernel) []
    rwa [List.append_nil] at this
  · rw [hx]
    exact debugTuple_solid (variantName_fine v).2.1 _

theorem variant_same_name {v w : TypeVariant} (hv : v ≠ .void) (hw : w ≠ .void) {r s : Str}
    (h : v.debug ++ r = w.debug ++ s) : variantName v = variantName w := by
  obtain ⟨h1, x1, e1⟩ := (variant_shape v).resolve_left hv
  obtain ⟨h2, x2, e2⟩ := (variant_shape w).resolve_left hw
  rw [e1, e2] at h
  exact debugType_name (variantName_fine v).1 (variantName_fine w).1 h

theorem variant_printer : Printer TypeVariant.debug := by
  intro v w r s hr hs h
  by_cases hv : v = .void
  · by_cases hw : w = .void
    · rw [hv, hw] at h
      exact ⟨hv.trans hw.symm, List.append_cancel_left h⟩
    · rw [hv] at h
      exact absurd h.symm (variant_not_void hw)
  · by_cases hw : w = .void
    · rw [hw] at h
      exact absurd h (variant_not_void hv)
    · have hn := variant_same_name hv hw h
      cases v with
      | void => exact absurd rfl hv
      | int h1 d1 =>
        cases w with
        | int h2 d2 =>
          obtain ⟨rfl, e, rfl⟩ := debugType_split (by decide +kernel) (IntData_printer.apart d1 d2) h
          exact ⟨by rw [IntData_printer.inj e], rfl⟩
        | _ =>
          simp only [variantName] at hn
          exact absurd hn (by decide +kernel)
      | typedef h1 d1 =>
        cases w with
        | typedef h2 d2 =>
          obtain ⟨rfl, e, rfl⟩ := debugType_split (by decide +kernel) (NamedTidData_printer.apart d1 d2) h
          exact ⟨by rw [NamedTidData_printer.inj e], rfl⟩
        | _ =>
          simp only [variantName] at hn
          exact absurd hn (by decide +kernel)
      | enum h1 d1 =>
        cases w with
        | enum h2 d2 =>
          obtain ⟨rfl, e, rfl⟩ := debugType_split (by decide +kernel) (EnumData_printer.apart d1 d2) h
          exact ⟨by rw [EnumData_printer.inj e], rfl⟩
        | _ =>
          simp only [variantName] at hn
          exact absurd hn (by decide +kernel)
      | ptr h1 d1 =>
        cases w with
        | ptr h2 d2 =>
          obtain ⟨rfl, e, rfl⟩ := debugType_split (by decide +kernel) (TidData_printer.apart d1 d2) h
          exact ⟨by rw [TidData_printer.inj e], rfl⟩
        | _ =>
          simp only [variantName] at hn
          exact absurd hn (by decide +kernel)
      | const h1 d1 =>
        cases w with
        | const h2 d2 =>
          obtain ⟨rfl, e, rfl⟩ := debugType_split (by decide +kernel) (TidData_printer.apart d1 d2) h
          exact ⟨by rw [TidData_printer.inj e], rfl⟩
        | _ =>
          simp only [variantName] at hn
          exact absurd hn (by decide +kernel)
      | volatile h1 d1 =>
        cases w with
        | volatile h2 d2 =>
          obtain ⟨rfl, e, rfl⟩ := debugType_split (by decide +kernel) (TidData_printer.apart d1 d2) h
          exact ⟨by rw [TidData_printer.inj e], rfl⟩
        | _ =>
          simp only [variantName] at hn
          exact absurd hn (by decide +kernel)
      | array h1 d1 =>
        cases w with
        | array h2 d2 =>
          obtain ⟨rfl, e, rfl⟩ := debugType_split (by decide +kernel) (ArrayData_printer.apart d1 d2) h
          exact ⟨by rw [ArrayData_printer.inj e], rfl⟩
        | _ =>
          simp only [variantName] at hn
          exact absurd hn (by decide +kernel)
      | funcProto h1 d1 =>
        cases w with
        | funcProto h2 d2 =>
          obtain ⟨rfl, e, rfl⟩ := debugType_split (by decide +kernel) (FuncProtoData_printer.apart d1 d2) h
          exact ⟨by rw [FuncProtoData_printer.inj e], rfl⟩
        | _ =>
          simp only [variantName] at hn
          exact absurd hn (by decide +kernel)
      | struct h1 d1 =>
        cases w with
        | struct h2 d2 =>
          obtain ⟨rfl, e, rfl⟩ := debugType_split (by decide +kernel) (StructData_printer.apart d1 d2) h
          exact ⟨by rw [StructData_printer.inj e], rfl⟩
        | _ =>
          simp only [variantName] at hn
          exact absurd hn (by decide +kernel)
      | union h1 d1 =>
        cases w with
        | union h2 d2 =>
          obtain ⟨rfl, e, rfl⟩ := debugType_split (by decide +kernel) (StructData_printer.apart d1 d2) h
          exact ⟨by rw [StructData_printer.inj e], rfl⟩
        | _ =>
          simp only [variantName] at hn
          exact absurd hn (by decide +kernel)
      | fwd h1 d1 =>
        cases w with
        | fwd h2 d2 =>
          obtain ⟨rfl, e, rfl⟩ := debugType_split (by decide +kernel) (NamedTidData_printer.apart d1 d2) h
          exact ⟨by rw [NamedTidData_printer.inj e], rfl⟩
        | _ =>
          simp only [variantName] at hn
          exact absurd hn (by decide +kernel)
      | var h1 d1 =>
        cases w with
        | var h2 d2 =>
          obtain ⟨rfl, e, rfl⟩ := debugType_split (by decide +kernel) (VarData_printer.apart d1 d2) h
          exact ⟨by rw [VarData_printer.inj e], rfl⟩
        | _ =>
          simp only [variantName] at hn
          exact absurd hn (by decide +kernel)
      | enum64 h1 d1 =>
        cases w with
        | enum64 h2 d2 =>
          obtain ⟨rfl, e, rfl⟩ := debugType_split (by decide +kernel) (Enum64Data_printer.apart d1 d2) h
          exact ⟨by rw [Enum64Data_printer.inj e], rfl⟩
        | _ =>
          simp only [variantName] at hn
          exact absurd hn (by decide +kernel)
      | func h1 d1 =>
        cases w with
        | func h2 d2 =>
          obtain ⟨rfl, e, rfl⟩ := debugType_split (by decide +kernel) (FuncData_printer.apart d1 d2) h
          exact ⟨by rw [FuncData_printer.inj e], rfl⟩
        | _ =>
          simp only [variantName] at hn
          exact absurd hn (by decide +kernel)
      | float h1 d1 =>
        cases w with
        | float h2 d2 =>
          obtain ⟨rfl, e, rfl⟩ := debugType_split (by decide +kernel) (FloatData_printer.apart d1 d2) h
          exact ⟨by rw [FloatData_printer.inj e], rfl⟩
        | _ =>
          simp only [variantName] at hn
          exact absurd hn (by decide +kernel)
      | restrict h1 d1 =>
        cases w with
        | restrict h2 d2 =>
          obtain ⟨rfl, e, rfl⟩ := debugType_split (by decide +kernel) (TidData_printer.apart d1 d2) h
          exact ⟨by rw [TidData_printer.inj e], rfl⟩
        | _ =>
          simp only [variantName] at hn
          exact absurd hn (by decide +kernel)
      | dataSec h1 d1 =>
        cases w with
        | dataSec h2 d2 =>
          obtain ⟨rfl, e, rfl⟩ := debugType_split (by decide +kernel) (DataSecData_printer.apart d1 d2) h
          exact ⟨by rw [DataSecData_printer.inj e], rfl⟩
        | _ =>
          simp only [variantName] at hn
          exact absurd hn (by decide +kernel)
      | typeTag h1 d1 =>
        cases w with
        | typeTag h2 d2 =>
          obtain ⟨rfl, e, rfl⟩ := debugType_split (by decide +kernel) (NamedTidData_printer.apart d1 d2) h
          exact ⟨by rw [NamedTidData_printer.inj e], rfl⟩
        | _ =>
          simp only [variantName] at hn
          exact absurd hn (by decide +kernel)
      | declTag h1 d1 =>
        cases w with
        | declTag h2 d2 =>
          obtain ⟨rfl, e, rfl⟩ := debugType_split (by decide +kernel) (DeclTagData_printer.apart d1 d2) h
          exact ⟨by rw [DeclTagData_printer.inj e], rfl⟩
        | _ =>
          simp only [variantName] at hn
          exact absurd hn (by decide +kernel)

theorem entry_printer : Printer fun p : UInt32 × TypeVariant => debugNat p.1.toNat ++ str ": " ++ p.2.debug := by
  rintro ⟨t, v⟩ ⟨u, w⟩ r s hr hs h
  simp only [List.append_assoc] at h
  have stop : ∀ x, Stop (str ": " ++ x) := fun x => by
    show stopByte _ = true
    decide +kernel
  obtain ⟨rfl, h'⟩ := u32_printer t u _ _ (stop _) (stop _) h
  obtain ⟨rfl, rfl⟩ := variant_printer v w _ _ hr hs (List.append_cancel_left h')
  exact ⟨rfl, rfl⟩

theorem map_printer : Printer debugMap := by
  intro l m r s _ _ h
  simp only [debugMap, List.append_assoc] at h
  have e : ∀ r, End (str "}" ++ r) := fun r => by
    show stopByte _ = true ∧ _
    decide +kernel
  have sol : ∀ l : List (UInt32 × TypeVariant), ∀ x ∈ l.map (fun p => debugNat p.1.toNat ++ str ": " ++ p.2.debug), Solid x := by
    intro l x hx
    obtain ⟨a, -, rfl⟩ := List.mem_map.1 hx
    exact solid_append (solid_append (nat_solid _) _) _
  simp only [← List.append_assoc (debugNat _)] at h
  obtain ⟨h1, h2⟩ := commas_apart (zip_map_apart entry_printer l m) (sol l) (sol m) (e r) (e s) (List.append_cancel_left h)
  exact ⟨map_printer_inj entry_printer h1, List.append_cancel_left h2⟩

end Btf

import Verif.Model.TypeInfo

/-!
# Error messages of the queries: src/btf/type_information.rs:171-343, 395-431, 523-761, src/btf/offset.rs:29-84

The queries again, with the errors distinguished by the place where they are made, and the texts of the messages.
`Proofs/Message.lean` shows that apart from this they are the functions of `Model/Path.lean`, `Model/Offset.lean`
and `Model/TypeInfo.lean`. The errors of `TypeInformation::new` are in `Model/LoadReason.lean`.
-/

namespace Btf

/-- The places where the queries make an error (src/btf/type_information.rs:196-333, 395-431, 525-601,
src/btf/offset.rs:33-80). -/
inductive Reason where
  | invalidCharacter (index : Nat)
  | expectedName
  | unclosedIndex
  | emptyIndex
  | invalidIndexValue (overflow : Bool)
  | invalidTypeId
  | voidDereference
  | indexOutOfBounds (index : Nat) (arraySize : UInt32)
  | arrayOffsetOverflow
  | ptrNotIndexable
  | typeNotIndexable
  | notStructOrUnion
  | memberNotFound (name : Str)
  | byteOffsetOverflow
  | bitOffsetMultiplication
  | bitOffsetAddition
  | bitfield
  | notAPointer
  | listHeadNotFound
  | listHeadInvalid
  | listHeadNotStruct
  | notSized (t : TypeVariant)
  deriving DecidableEq

namespace Reason

/-- The `kind` given to `BTFError::new` (src/btf/type_information.rs:197-332, 399-426, 526-600,
src/btf/offset.rs:34-80). -/
def kind : Reason → ErrorKind
  | invalidCharacter _ => .InvalidTypePath
  | expectedName => .InvalidTypePath
  | unclosedIndex => .InvalidTypePath
  | emptyIndex => .InvalidTypePath
  | invalidIndexValue _ => .InvalidTypePath
  | invalidTypeId => .InvalidTypeID
  | voidDereference => .InvalidTypePath
  | indexOutOfBounds _ _ => .InvalidTypePath
  | arrayOffsetOverflow => .InvalidTypePath
  | ptrNotIndexable => .InvalidTypePath
  | typeNotIndexable => .InvalidTypePath
  | notStructOrUnion => .InvalidTypePath
  | memberNotFound _ => .InvalidTypePath
  | byteOffsetOverflow => .InvalidOffset
  | bitOffsetMultiplication => .InvalidOffset
  | bitOffsetAddition => .InvalidOffset
  | bitfield => .UnexpectedBitfield
  | notAPointer => .InvalidTypeID
  | listHeadNotFound => .InvalidTypeID
  | listHeadInvalid => .InvalidTypeID
  | listHeadNotStruct => .InvalidTypeID
  | notSized _ => .NotSized

/-- A number as written by `{}` (std, at src/btf/type_information.rs:198, 407). -/
def decimal (n : Nat) : Str := str (toString n)

/-- The `message` given to `BTFError::new` (src/btf/type_information.rs:198-333, 399-426, 527-601,
src/btf/offset.rs:34-80). `debug` is the derived `Debug` of `TypeVariant`, which is `TypeVariant.debug` in `Model/Debug.lean`. -/
def message (debug : TypeVariant → Str) : Reason → Str
  | invalidCharacter i => str "Invalid character at index " ++ decimal i
  | expectedName => str "Expected name after '.'"
  | unclosedIndex => str "Unclosed index bracket"
  | emptyIndex => str "Empty index"
  | invalidIndexValue true => str "Invalid index value: ParseIntError { kind: PosOverflow }"
  | invalidIndexValue false => str "Invalid index value: ParseIntError { kind: InvalidDigit }"
  | invalidTypeId => str "Invalid type id"
  | voidDereference => str "The void type can't be dereferenced with a path"
  | indexOutOfBounds i n => str "Index " ++ decimal i ++ str " is out of bounds for array of size " ++ decimal n.toNat
  | arrayOffsetOverflow => str "Array element offset overflow"
  | ptrNotIndexable => str "Type is a ptr, and dereferencing it would require a read operation"
  | typeNotIndexable => str "Type is not indexable"
  | notStructOrUnion => str "Type is not a struct or union"
  | memberNotFound name => str "Member '" ++ name ++ str "' not found"
  | byteOffsetOverflow => str "Byte offset addition overflow"
  | bitOffsetMultiplication => str "Bit offset multiplication overflow"
  | bitOffsetAddition => str "Bit offset addition overflow"
  | bitfield => str "Attempted to add a byte offset to a bitfield"
  | notAPointer => str "Type is not a pointer"
  | listHeadNotFound => str "The `struct list_head` type, used to extract the pointer size, was not found"
  | listHeadInvalid =>
    str "The extracted `struct list_head` type ID, used to extract the pointer size, was invalid"
  | listHeadNotStruct =>
    str "The extracted `struct list_head` type ID, used to extract the pointer size, is not a struct type"
  | notSized t => str "Type " ++ debug t ++ str " has no size"

end Reason

/-- `Outcome`, with reasons instead of kinds (src/btf/error.rs:57-68). -/
inductive Told (α : Type) where
  | ok (a : α)
  | err (r : Reason)
  | panic
  | nofuel
  deriving DecidableEq

/-- Only the kind (`Error::kind`, src/btf/error.rs:80-82). -/
def Told.outcome {α : Type} : Told α → Outcome α
  | ok a => .ok a
  | err r => .err r.kind
  | panic => .panic
  | nofuel => .nofuel

/-- `?` (src/btf/type_information.rs:657, 699, 706, 708, 734, 752). -/
def Told.bind {α β : Type} (x : Told α) (f : α → Told β) : Told β :=
  match x with
  | ok a => f a
  | err r => err r
  | panic => panic
  | nofuel => nofuel

/-- `opt.ok_or(err)` (src/btf/type_information.rs:548-562, 706, src/btf/offset.rs:33-73). -/
def Told.okOr {α : Type} (x : Option α) (r : Reason) : Told α :=
  match x with
  | some a => .ok a
  | none => .err r

namespace Offset

/-- `impl Add<u32> for Offset` (src/btf/offset.rs:29-42). -/
def addU32T (self : Offset) (rhs : UInt32) : Told Offset :=
  match self with
  | .byteOffset b => (Told.okOr (u32CheckedAdd b rhs) .byteOffsetOverflow).bind fun s => .ok (.byteOffset s)
  | .bitOffsetAndSize _ _ => .err .bitfield

/-- `impl Add<Offset> for Offset` (src/btf/offset.rs:51-84). -/
def addT (self rhs : Offset) : Told Offset :=
  match self, rhs with
  | .byteOffset l, .byteOffset r => (Told.okOr (u32CheckedAdd l r) .byteOffsetOverflow).bind fun s => .ok (.byteOffset s)
  | .byteOffset l, .bitOffsetAndSize rBit rSize =>
    (Told.okOr (u32CheckedMul l 8) .bitOffsetMultiplication).bind fun m =>
    (Told.okOr (u32CheckedAdd m rBit) .bitOffsetAddition).bind fun s => .ok (.bitOffsetAndSize s rSize)
  | _, _ => .err .bitfield

end Offset

/-- Which error `usize::from_str` makes (std, at src/btf/type_information.rs:327), in the order of `parseUsizeLoop`:
`InvalidDigit`, or (`true`) `PosOverflow`. -/
def parseUsizeError (cfg : Cfg) : Str → Nat → Bool
  | [], _ => false
  | b :: rest, acc =>
    if 0x30 ≤ b ∧ b ≤ 0x39 then
      if acc * 10 < cfg.usizeMod then
        if acc * 10 + (b.toNat - 0x30) < cfg.usizeMod then
          parseUsizeError cfg rest (acc * 10 + (b.toNat - 0x30))
        else true
      else true
    else false

namespace PathIter

/-- A character that is not allowed (src/btf/type_information.rs:195-199, 218-222, 239-243). -/
def invalidCharacter (it : PathIter) : Told (Option PathComponent) × PathIter :=
  (.err (.invalidCharacter it.position), { it with state := .error })

/-- `parse_name` (src/btf/type_information.rs:253-289). -/
def parseNameT (it : PathIter) : Told (Option PathComponent) × PathIter :=
  let start := it.position
  match scanName (it.path.drop start) start with
  | (pos, true) => (.err (.invalidCharacter pos), { it with position := pos, state := .error })
  | (pos, false) =>
    match strSlice it.path start pos with
    | .ok name =>
      let it' : PathIter :=
        match it.path[pos]? with
        | none => { it with position := pos, state := .done }
        | some c =>
          if c == chOpen then { it with position := pos + 1, state := .insideIndex }
          else if c == chDot then { it with position := pos + 1, state := .expectingName }
          else { it with position := pos }
      (.ok (some (.name name)), it')
    | _ => (.panic, it)

/-- `parse_index` (src/btf/type_information.rs:291-343). -/
def parseIndexT (cfg : Cfg) (it : PathIter) : Told (Option PathComponent) × PathIter :=
  let start := it.position
  match scanIndex (it.path.drop start) start with
  | (pos, true) => (.err (.invalidCharacter pos), { it with position := pos, state := .error })
  | (pos, false) =>
    if it.path[pos]? ≠ some chClose then
      (.err .unclosedIndex, { it with position := pos, state := .error })
    else
      match strSlice it.path start pos with
      | .ok indexStr =>
        if indexStr = [] then
          (.err .emptyIndex, { it with position := pos, state := .error })
        else
          match parseUsize cfg indexStr with
          | some index =>
            (.ok (some (.index index)), { it with position := pos + 1, state := .afterIndex })
          | none =>
            (.err (.invalidIndexValue (parseUsizeError cfg indexStr 0)), { it with position := pos, state := .error })
      | _ => (.panic, it)

/-- The `ExpectingName` arm of `next` (src/btf/type_information.rs:226-245). -/
def nextExpectingNameT (it : PathIter) : Told (Option PathComponent) × PathIter :=
  match it.path[it.position]? with
  | none => (.err .expectedName, { it with state := .error })
  | some c =>
    if isAlphabetic c || c == chUnderscore then parseNameT { it with state := .insideName }
    else invalidCharacter it

/-- `Iterator::next` (src/btf/type_information.rs:171-249). -/
def nextT (cfg : Cfg) (it : PathIter) : Told (Option PathComponent) × PathIter :=
  if it.state = .done ∨ it.state = .error then (.ok none, it)
  else
    match it.path[it.position]? with
    | none => (.ok none, { it with state := .done })
    | some c =>
      match it.state with
      | .start =>
        if c == chOpen then
          parseIndexT cfg { it with position := it.position + 1, state := .insideIndex }
        else if isAlphabetic c || c == chUnderscore then
          parseNameT { it with state := .insideName }
        else invalidCharacter it
      | .insideName => parseNameT it
      | .insideIndex => parseIndexT cfg it
      | .afterIndex =>
        if c == chOpen then
          parseIndexT cfg { it with position := it.position + 1, state := .insideIndex }
        else if c == chDot then
          if it.position + 1 < it.path.length then
            nextExpectingNameT { it with position := it.position + 1, state := .expectingName }
          else
            (.ok none, { it with position := it.position + 1, state := .done })
        else invalidCharacter it
      | .expectingName => nextExpectingNameT it
      | .done => (.ok none, it)
      | .error => (.ok none, it)

end PathIter

namespace TypeInformation

/-- `TypeInformation::pointee_tid` (src/btf/type_information.rs:523-544). -/
def pointeeTidT (ti : TypeInformation) : Nat → UInt32 → Told UInt32
  | 0, _ => .nofuel
  | fuel + 1, tid =>
    match ti.fromId tid with
    | none => .err .invalidTypeId
    | some (.typedef _ d) => pointeeTidT ti fuel d.tid
    | some (.const _ d) => pointeeTidT ti fuel d.tid
    | some (.volatile _ d) => pointeeTidT ti fuel d.tid
    | some (.restrict _ d) => pointeeTidT ti fuel d.tid
    | some (.ptr _ d) => .ok d.tid
    | some _ => .err .notAPointer

/-- The pointer case of `size_of` (src/btf/type_information.rs:554-574). -/
def pointerSizeT (ti : TypeInformation) : Told Nat :=
  (Told.okOr (ti.idOf (str "list_head")) .listHeadNotFound).bind fun listHeadTid =>
  (Told.okOr (ti.fromId listHeadTid) .listHeadInvalid).bind fun listHead =>
  match listHead with
  | .struct _ d => .ok (d.size / 2)
  | _ => .err .listHeadNotStruct

/-- A plain product (src/btf/type_information.rs:581): it panics or not. -/
def productT (cfg : Cfg) (a b : Nat) : Told Nat :=
  match (cfg.usizeMul a b : Res Reason Nat) with
  | .ok n => .ok n
  | _ => .panic

/-- `TypeInformation::size_of` (src/btf/type_information.rs:547-604). -/
def sizeOfT (cfg : Cfg) (ti : TypeInformation) : Nat → UInt32 → Told Nat
  | 0, _ => .nofuel
  | fuel + 1, tid =>
    match ti.fromId tid with
    | none => .err .invalidTypeId
    | some (.ptr _ _) => ti.pointerSizeT
    | some (.array _ d) =>
      (sizeOfT cfg ti fuel d.elementTid).bind fun elementSize => productT cfg elementSize d.elementCount.toNat
    | some (.float _ d) => .ok d.size
    | some (.int _ d) => .ok d.size
    | some (.enum _ d) => .ok d.size
    | some (.enum64 _ d) => .ok d.size
    | some (.struct _ d) => .ok d.size
    | some (.union _ d) => .ok d.size
    | some (.dataSec _ d) => .ok d.size
    | some (.var _ d) => sizeOfT cfg ti fuel d.tid
    | some (.typedef _ d) => sizeOfT cfg ti fuel d.tid
    | some (.const _ d) => sizeOfT cfg ti fuel d.tid
    | some (.volatile _ d) => sizeOfT cfg ti fuel d.tid
    | some (.restrict _ d) => sizeOfT cfg ti fuel d.tid
    | some (.typeTag _ d) => sizeOfT cfg ti fuel d.tid
    | some t => .err (.notSized t)

/-- The inner loop of `offset_of_impl` (src/btf/type_information.rs:661-682). -/
def resolveT (ti : TypeInformation) : Nat → UInt32 → Told TypeVariant
  | 0, _ => .nofuel
  | fuel + 1, tid =>
    match ti.fromId tid with
    | none => .err .invalidTypeId
    | some (.fwd _ d) => resolveT ti fuel d.tid
    | some (.typedef _ d) => resolveT ti fuel d.tid
    | some (.const _ d) => resolveT ti fuel d.tid
    | some (.volatile _ d) => resolveT ti fuel d.tid
    | some (.restrict _ d) => resolveT ti fuel d.tid
    | some t => .ok t

/-- The loop over the anonymous members (src/btf/type_information.rs:731-743). -/
def probeAnonymousT (probe : Offset → UInt32 → Told (UInt32 × Offset)) (offset : Offset) :
    List Member → Told (Option (UInt32 × Offset))
  | [] => .ok none
  | m :: rest =>
    match m.offset.addT offset with
    | .ok start =>
      match probe start m.tid with
      | .ok r => .ok (some r)
      | .err _ => probeAnonymousT probe offset rest
      | .panic => .panic
      | .nofuel => .nofuel
    | .err r => .err r
    | .panic => .panic
    | .nofuel => .nofuel

/-- The index arm of `offset_of_impl` (src/btf/type_information.rs:690-719). -/
def stepIndexT (cfg : Cfg) (ti : TypeInformation) (fuel : Nat) (offset : Offset) (t : TypeVariant) (index : Nat) :
    Told (UInt32 × Offset) :=
  match t with
  | .array _ d =>
    if index ≥ d.elementCount.toNat then .err (.indexOutOfBounds index d.elementCount)
    else
      (sizeOfT cfg ti fuel d.elementTid).bind fun elementSize =>
      (Told.okOr ((u64CheckedMul index elementSize).bind u32TryFrom) .arrayOffsetOverflow).bind fun indexSize =>
      (offset.addU32T indexSize).bind fun offset' => .ok (d.elementTid, offset')
  | .ptr _ _ => .err .ptrNotIndexable
  | _ => .err .typeNotIndexable

/-- `offset_of_impl` (src/btf/type_information.rs:644-761). -/
def offsetOfImplT (cfg : Cfg) (ti : TypeInformation) :
    Nat → Offset → UInt32 → PathIter → Told (UInt32 × Offset)
  | 0, _, _, _ => .nofuel
  | fuel + 1, offset, tid, path =>
    match path.nextT cfg with
    | (.err r, _) => .err r
    | (.panic, _) => .panic
    | (.nofuel, _) => .nofuel
    | (.ok none, _) => .ok (tid, offset)
    | (.ok (some component), path') =>
      (resolveT ti fuel tid).bind fun t =>
      if t = .void then .err .voidDereference
      else
        match component with
        | .index index =>
          (stepIndexT cfg ti fuel offset t index).bind fun r => offsetOfImplT cfg ti fuel r.2 r.1 path'
        | .name name =>
          match memberListOf t with
          | none => .err .notStructOrUnion
          | some members =>
            (probeAnonymousT (fun o u => offsetOfImplT cfg ti fuel o u path) offset
              (members.filter (fun m => m.name.isNone))).bind fun anon =>
            match anon with
            | some r => .ok r
            | none =>
              match members.find? (fun m => m.name = some name) with
              | some m => (offset.addT m.offset).bind fun offset' => offsetOfImplT cfg ti fuel offset' m.tid path'
              | none => .err (.memberNotFound name)

/-- `offset_of_uncached` (src/btf/type_information.rs:634-638). -/
def offsetOfT (cfg : Cfg) (ti : TypeInformation) (fuel : Nat) (tid : UInt32) (path : Str) : Told (UInt32 × Offset) :=
  offsetOfImplT cfg ti fuel (.byteOffset 0) tid (PathIter.new path)

end TypeInformation

end Btf

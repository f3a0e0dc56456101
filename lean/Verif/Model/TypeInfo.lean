import Verif.Model.Parse
import Verif.Model.Map
import Verif.Model.Path

/-!
# `TypeInformation`: src/btf/type_information.rs:346-762
-/

namespace Btf

open Reader

/-- `TypeInformation` (src/btf/type_information.rs:347-360), without the cache, which is modelled in
`Model/Cache.lean`. -/
structure TypeInformation where
  idToType : Map UInt32 TypeVariant
  nameToId : Map Str UInt32
  idToName : Map UInt32 Str
  deriving DecidableEq

/-- The three empty maps (src/btf/type_information.rs:462-464). -/
def TypeInformation.empty : TypeInformation :=
  { idToType := Map.empty, nameToId := Map.empty, idToName := Map.empty }

/-- The three inserts for one record (src/btf/type_information.rs:473-478). -/
def TypeInformation.register (ti : TypeInformation) (tid : UInt32) (t : TypeVariant) :
    TypeInformation :=
  match getTypeEnumValueName t with
  | some name =>
    { idToType := ti.idToType.insert tid t
      nameToId := ti.nameToId.insert name tid
      idToName := ti.idToName.insert tid name }
  | none => { ti with idToType := ti.idToType.insert tid t }

/-- The `while` loop of `TypeInformation::new` (src/btf/type_information.rs:466-479).
`tid_generator += 1` (line 471) is a plain `u32` addition. -/
def parseLoop (cfg : Cfg) (fh : FileHeader) (typeSectionEnd : Nat) :
    Nat → UInt32 → TypeInformation → P TypeInformation
  | 0, _, _ => fun r => (.nofuel, r)
  | fuel + 1, tidGenerator, ti => do
    let offset ← getOffset
    if offset < typeSectionEnd then do
      let typeHeader ← Header.new cfg fh
      let btfType ← parseType cfg fh typeHeader
      let nextTid ← P.lift (cfg.u32Add tidGenerator 1)
      parseLoop cfg fh typeSectionEnd fuel nextTid (ti.register tidGenerator btfType)
    else return ti

/-- `TypeInformation::new` (src/btf/type_information.rs:435-488). The loop is given
`type_len + 1` units of fuel; `Proofs` shows that it never runs out. -/
def TypeInformation.newP (cfg : Cfg) : P TypeInformation := do
  let fh ← FileHeader.new cfg
  let start ← P.lift (okOr (u32CheckedAdd fh.hdrLen fh.typeOff) .typeSectionStart)
  let typeSectionStart := start.toNat
  let typeSectionEnd ←
    P.lift (okOr (cfg.usizeCheckedAdd typeSectionStart fh.typeLen.toNat) .typeSectionEnd)
  setOffset typeSectionStart
  parseLoop cfg fh typeSectionEnd (fh.typeLen.toNat + 1) 1 TypeInformation.empty

/-- `TypeInformation::new` (src/btf/type_information.rs:435-488) as a function of the `Readable`. Errors are told apart
by the place where they are made. -/
def TypeInformation.newT (cfg : Cfg) (readable : Readable) : Res LoadReason TypeInformation :=
  (TypeInformation.newP cfg (Reader.new readable)).1

/-- `TypeInformation::new` (src/btf/type_information.rs:435-488): the error with its kind and its message. -/
def TypeInformation.newE (cfg : Cfg) (readable : Readable) : Res Error TypeInformation :=
  (TypeInformation.newT cfg readable).mapErr LoadReason.error

/-- `TypeInformation::new` (src/btf/type_information.rs:435-488), with only the kind of the error
(`Error::kind`, src/btf/error.rs:80-82). -/
def TypeInformation.new (cfg : Cfg) (readable : Readable) : Outcome TypeInformation :=
  (TypeInformation.newT cfg readable).mapErr LoadReason.kind

/-- The requests `TypeInformation::new` (src/btf/type_information.rs:435-488) makes, latest first (ghost). -/
def TypeInformation.newTrace (cfg : Cfg) (readable : Readable) : List ReadEvent :=
  (TypeInformation.newP cfg (Reader.new readable)).2.trace

namespace TypeInformation

/-- `TypeInformation::get` (src/btf/type_information.rs:491-493): the entries in iteration order. -/
def get (ti : TypeInformation) : List (UInt32 × TypeVariant) := ti.idToType.toList

/-- `TypeInformation::id_of` (src/btf/type_information.rs:496-502). -/
def idOf (ti : TypeInformation) (typeName : Str) : Option UInt32 :=
  if typeName = str "void" then some 0 else ti.nameToId.get typeName

/-- `TypeInformation::from_id` (src/btf/type_information.rs:505-511). -/
def fromId (ti : TypeInformation) (tid : UInt32) : Option TypeVariant :=
  if tid = 0 then some .void else ti.idToType.get tid

/-- `TypeInformation::name_of` (src/btf/type_information.rs:514-520). -/
def nameOf (ti : TypeInformation) (tid : UInt32) : Option Str :=
  if tid = 0 then some (str "void") else ti.idToName.get tid

/-- `TypeInformation::pointee_tid` (src/btf/type_information.rs:523-544), with a bound on the recursion
depth. -/
def pointeeTid (ti : TypeInformation) : Nat → UInt32 → Outcome UInt32
  | 0, _ => .nofuel
  | fuel + 1, tid =>
    match ti.fromId tid with
    | none => .err .InvalidTypeID
    | some (.typedef _ d) => pointeeTid ti fuel d.tid
    | some (.const _ d) => pointeeTid ti fuel d.tid
    | some (.volatile _ d) => pointeeTid ti fuel d.tid
    | some (.restrict _ d) => pointeeTid ti fuel d.tid
    | some (.ptr _ d) => .ok d.tid
    | some _ => .err .InvalidTypeID

/-- The pointer case of `size_of` (src/btf/type_information.rs:554-574). -/
def pointerSize (ti : TypeInformation) : Outcome Nat := do
  let listHeadTid ← okOr (ti.idOf (str "list_head")) .InvalidTypeID
  let listHead ← okOr (ti.fromId listHeadTid) .InvalidTypeID
  match listHead with
  | .struct _ d => .ok (d.size / 2)
  | _ => .err .InvalidTypeID

/-- `TypeInformation::size_of` (src/btf/type_information.rs:547-604), with a bound on the recursion
depth. The product of line 581 is a plain `usize` product. -/
def sizeOf (cfg : Cfg) (ti : TypeInformation) : Nat → UInt32 → Outcome Nat
  | 0, _ => .nofuel
  | fuel + 1, tid =>
    match ti.fromId tid with
    | none => .err .InvalidTypeID
    | some (.ptr _ _) => ti.pointerSize
    | some (.array _ d) => do
      let elementSize ← sizeOf cfg ti fuel d.elementTid
      cfg.usizeMul elementSize d.elementCount.toNat
    | some (.float _ d) => .ok d.size
    | some (.int _ d) => .ok d.size
    | some (.enum _ d) => .ok d.size
    | some (.enum64 _ d) => .ok d.size
    | some (.struct _ d) => .ok d.size
    | some (.union _ d) => .ok d.size
    | some (.dataSec _ d) => .ok d.size
    | some (.var _ d) => sizeOf cfg ti fuel d.tid
    | some (.typedef _ d) => sizeOf cfg ti fuel d.tid
    | some (.const _ d) => sizeOf cfg ti fuel d.tid
    | some (.volatile _ d) => sizeOf cfg ti fuel d.tid
    | some (.restrict _ d) => sizeOf cfg ti fuel d.tid
    | some (.typeTag _ d) => sizeOf cfg ti fuel d.tid
    | some .void => .err .NotSized
    | some (.funcProto _ _) => .err .NotSized
    | some (.fwd _ _) => .err .NotSized
    | some (.func _ _) => .err .NotSized
    | some (.declTag _ _) => .err .NotSized

/-- `OffsetError` (src/btf/type_information.rs:371-387). -/
inductive OffsetError where
  | invalidTypeId
  | voidDereference
  | indexOutOfBounds (index : Nat) (arraySize : UInt32)
  | arrayOffsetOverflow
  | ptrNotIndexable
  | typeNotIndexable
  | notStructOrUnion
  | memberNotFound (name : Str)
  | btf (e : ErrorKind)
  deriving DecidableEq, Repr

/-- `impl From<OffsetError> for BTFError` (src/btf/type_information.rs:395-431), kinds only. -/
def OffsetError.kind : OffsetError → ErrorKind
  | .invalidTypeId => .InvalidTypeID
  | .voidDereference => .InvalidTypePath
  | .indexOutOfBounds _ _ => .InvalidTypePath
  | .arrayOffsetOverflow => .InvalidTypePath
  | .ptrNotIndexable => .InvalidTypePath
  | .typeNotIndexable => .InvalidTypePath
  | .notStructOrUnion => .InvalidTypePath
  | .memberNotFound _ => .InvalidTypePath
  | .btf e => e

/-- `return Err(OffsetError::..)`, after the conversion done by `offset_of_uncached`
(src/btf/type_information.rs:636-637). -/
def offsetErr {α : Type} (e : OffsetError) : Outcome α := .err e.kind

/-- The inner loop of `offset_of_impl` that resolves indirections
(src/btf/type_information.rs:661-682), with a bound on the number of iterations. The loop also leaves
the final id in `tid`, which is overwritten before it is used again. -/
def resolve (ti : TypeInformation) : Nat → UInt32 → Outcome TypeVariant
  | 0, _ => .nofuel
  | fuel + 1, tid =>
    match ti.fromId tid with
    | none => offsetErr .invalidTypeId
    | some (.fwd _ d) => resolve ti fuel d.tid
    | some (.typedef _ d) => resolve ti fuel d.tid
    | some (.const _ d) => resolve ti fuel d.tid
    | some (.volatile _ d) => resolve ti fuel d.tid
    | some (.restrict _ d) => resolve ti fuel d.tid
    | some t => .ok t

/-- The loop over the anonymous members (src/btf/type_information.rs:731-743). `probe` is the recursive
call on the saved path. `some r` is the early `return Ok(r)`; the `?` of line 734 propagates. -/
def probeAnonymous (probe : Offset → UInt32 → Outcome (UInt32 × Offset)) (offset : Offset) :
    List Member → Outcome (Option (UInt32 × Offset))
  | [] => .ok none
  | m :: rest =>
    match m.offset.add offset with
    | .ok start =>
      match probe start m.tid with
      | .ok r => .ok (some r)
      | .err _ => probeAnonymous probe offset rest
      | .panic => .panic
      | .nofuel => .nofuel
    | .err e => offsetErr (.btf e)
    | .panic => .panic
    | .nofuel => .nofuel

/-- The index arm of `offset_of_impl` (src/btf/type_information.rs:690-719): the new type id and
offset. `fuel` bounds the recursion of `size_of`. -/
def stepIndex (cfg : Cfg) (ti : TypeInformation) (fuel : Nat) (offset : Offset) (t : TypeVariant)
    (index : Nat) : Outcome (UInt32 × Offset) :=
  match t with
  | .array _ d =>
    if index ≥ d.elementCount.toNat then offsetErr (.indexOutOfBounds index d.elementCount)
    else do
      let elementSize ← sizeOf cfg ti fuel d.elementTid
      let indexSize ←
        okOr ((u64CheckedMul index elementSize).bind u32TryFrom) (OffsetError.kind .arrayOffsetOverflow)
      let offset' ← offset.addU32 indexSize
      return (d.elementTid, offset')
  | .ptr _ _ => offsetErr .ptrNotIndexable
  | _ => offsetErr .typeNotIndexable

/-- The member list used by the name arm (src/btf/type_information.rs:722-728). -/
def memberListOf : TypeVariant → Option (List Member)
  | .struct _ d => some d.memberList
  | .union _ d => some d.memberList
  | _ => none

/-- `offset_of_impl` (src/btf/type_information.rs:644-761). Every iteration of the outer loop and every
recursive call (line 733) uses one unit of fuel; the same bound is given to the inner loop and to
`size_of`. -/
def offsetOfImpl (cfg : Cfg) (ti : TypeInformation) :
    Nat → Offset → UInt32 → PathIter → Outcome (UInt32 × Offset)
  | 0, _, _, _ => .nofuel
  | fuel + 1, offset, tid, path =>
    match path.next cfg with
    | (.err e, _) => offsetErr (.btf e)
    | (.panic, _) => .panic
    | (.nofuel, _) => .nofuel
    | (.ok none, _) => .ok (tid, offset)
    | (.ok (some component), path') => do
      let t ← resolve ti fuel tid
      if t = .void then offsetErr .voidDereference
      else
        match component with
        | .index index => do
          let (tid', offset') ← stepIndex cfg ti fuel offset t index
          offsetOfImpl cfg ti fuel offset' tid' path'
        | .name name =>
          match memberListOf t with
          | none => offsetErr .notStructOrUnion
          | some members => do
            let anon ← probeAnonymous (fun o u => offsetOfImpl cfg ti fuel o u path) offset
              (members.filter (fun m => m.name.isNone))
            match anon with
            | some r => .ok r
            | none =>
              match members.find? (fun m => m.name = some name) with
              | some m => do
                let offset' ← offset.add m.offset
                offsetOfImpl cfg ti fuel offset' m.tid path'
              | none => offsetErr (.memberNotFound name)

/-- `offset_of_uncached` (src/btf/type_information.rs:634-638); also `offset_of` without the `caching`
feature (lines 629-630). -/
def offsetOf (cfg : Cfg) (ti : TypeInformation) (fuel : Nat) (tid : UInt32) (path : Str) :
    Outcome (UInt32 × Offset) :=
  offsetOfImpl cfg ti fuel (.byteOffset 0) tid (PathIter.new path)

end TypeInformation

end Btf

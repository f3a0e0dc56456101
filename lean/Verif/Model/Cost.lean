import Verif.Model.TypeInfo

/-!
# The number of steps of `offset_of`: src/btf/type_information.rs:644-761

`offset_of_impl` again, with a counter that is increased whenever a path component is asked for, in the call
itself and in all its recursive calls. `Proofs/Cost.lean` shows that without the counter this is `offsetOfImpl`.
-/

namespace Btf.TypeInformation

/-- The loop over the anonymous members (src/btf/type_information.rs:731-743), and the steps of all the recursive
calls made. -/
def probeSteps (probe : Offset → UInt32 → Outcome (UInt32 × Offset) × Nat) (offset : Offset) :
    List Member → Outcome (Option (UInt32 × Offset)) × Nat
  | [] => (.ok none, 0)
  | m :: rest =>
    match m.offset.add offset with
    | .ok start =>
      match probe start m.tid with
      | (.ok r, k) => (.ok (some r), k)
      | (.err _, k) => let r := probeSteps probe offset rest; (r.1, k + r.2)
      | (.panic, k) => (.panic, k)
      | (.nofuel, k) => (.nofuel, k)
    | .err e => (offsetErr (.btf e), 0)
    | .panic => (.panic, 0)
    | .nofuel => (.nofuel, 0)

/-- `offset_of_impl` (src/btf/type_information.rs:644-761), and how often a path component was asked for
(line 655), including the recursive calls of line 733. -/
def implSteps (cfg : Cfg) (ti : TypeInformation) :
    Nat → Offset → UInt32 → PathIter → Outcome (UInt32 × Offset) × Nat
  | 0, _, _, _ => (.nofuel, 0)
  | fuel + 1, offset, tid, path =>
    match path.next cfg with
    | (.err e, _) => (offsetErr (.btf e), 1)
    | (.panic, _) => (.panic, 1)
    | (.nofuel, _) => (.nofuel, 1)
    | (.ok none, _) => (.ok (tid, offset), 1)
    | (.ok (some component), path') =>
      match resolve ti fuel tid with
      | .err e => (.err e, 1)
      | .panic => (.panic, 1)
      | .nofuel => (.nofuel, 1)
      | .ok t =>
        if t = .void then (offsetErr .voidDereference, 1)
        else
          match component with
          | .index index =>
            match stepIndex cfg ti fuel offset t index with
            | .err e => (.err e, 1)
            | .panic => (.panic, 1)
            | .nofuel => (.nofuel, 1)
            | .ok (tid', offset') =>
              let r := implSteps cfg ti fuel offset' tid' path'
              (r.1, 1 + r.2)
          | .name name =>
            match memberListOf t with
            | none => (offsetErr .notStructOrUnion, 1)
            | some members =>
              match probeSteps (fun o u => implSteps cfg ti fuel o u path) offset
                  (members.filter (fun m => m.name.isNone)) with
              | (.err e, k) => (.err e, 1 + k)
              | (.panic, k) => (.panic, 1 + k)
              | (.nofuel, k) => (.nofuel, 1 + k)
              | (.ok (some r), k) => (.ok r, 1 + k)
              | (.ok none, k) =>
                match members.find? (fun m => m.name = some name) with
                | none => (offsetErr (.memberNotFound name), 1 + k)
                | some m =>
                  match offset.add m.offset with
                  | .err e => (.err e, 1 + k)
                  | .panic => (.panic, 1 + k)
                  | .nofuel => (.nofuel, 1 + k)
                  | .ok offset' =>
                    let r := implSteps cfg ti fuel offset' m.tid path'
                    (r.1, 1 + k + r.2)

/-- `offset_of_uncached` (src/btf/type_information.rs:634-638) with its steps. -/
def offsetOfSteps (cfg : Cfg) (ti : TypeInformation) (fuel : Nat) (tid : UInt32) (path : Str) :
    Outcome (UInt32 × Offset) × Nat :=
  implSteps cfg ti fuel (.byteOffset 0) tid (PathIter.new path)

end Btf.TypeInformation

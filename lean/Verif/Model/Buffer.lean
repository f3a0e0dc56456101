import Verif.Model.Reader

/-!
# `ReadableBuffer`: src/utils/readable_buffer.rs
-/

namespace Btf

/-- `&slice[start..stop]` (std, at src/utils/readable_buffer.rs:42): panics if the range is not inside the slice. -/
def sliceRange (slice : List UInt8) (start stop : Nat) : Res Error (List UInt8) :=
  if start ≤ stop ∧ stop ≤ slice.length then .ok ((slice.drop start).take (stop - start)) else .panic

/-- `dst.copy_from_slice(src)` (std, at src/utils/readable_buffer.rs:43) for a destination of `len` bytes: panics if the lengths differ. -/
def copyFromSlice (len : Nat) (src : List UInt8) : Res Error (List UInt8) :=
  if src.length = len then .ok src else .panic

/-- `ReadableBuffer::read` (src/utils/readable_buffer.rs:21-54): the contents of the destination buffer of
`len` bytes afterwards. `offset as usize` (line 23) truncates on 32-bit targets. -/
def ReadableBuffer.read (cfg : Cfg) (buffer : List UInt8) (offset len : Nat) : Res Error (List UInt8) :=
  let start := offset % cfg.usizeMod
  if start = buffer.length then .err ⟨.EOF, str "There are no bytes left to read"⟩
  else do
    let stop ← okOr (cfg.usizeCheckedAdd start len) ⟨.InvalidOffset, str "Buffer offset addition overflow"⟩
    if stop ≤ buffer.length then do
      let source ← sliceRange buffer start stop
      copyFromSlice len source
    else .err ⟨.InvalidOffset, str "There are not enough bytes left to complete the read request"⟩

/-- `ReadableBuffer` as a `Readable` (src/utils/readable_buffer.rs:11-54). The last line is never reached (`Props.buffer_read`). -/
def readableBuffer (cfg : Cfg) (buffer : List UInt8) : Readable where
  read _ offset len :=
    match ReadableBuffer.read cfg buffer offset len with
    | .ok bytes => .ok (fun i => bytes.getD i 0)
    | .err e => .error e
    | _ => .error ⟨.IOError, []⟩

end Btf

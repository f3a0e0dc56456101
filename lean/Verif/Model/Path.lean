import Verif.Model.Basic

/-!
# The type path iterator: src/btf/type_information.rs:115-344
-/

namespace Btf

/-- `TypePathComponent` (src/btf/type_information.rs:117-123). A name is a `&str` slice of the path. -/
inductive PathComponent where
  | index (i : Nat)
  | name (s : Str)
  deriving DecidableEq, Repr

/-- `TypePathParserState` (src/btf/type_information.rs:127-148). -/
inductive PathState where
  | start
  | insideName
  | insideIndex
  | afterIndex
  | expectingName
  | error
  | done
  deriving DecidableEq, Repr

/-- `TypePathComponentIter` (src/btf/type_information.rs:152-156). -/
structure PathIter where
  path : Str
  position : Nat
  state : PathState
  deriving DecidableEq, Repr

/-- `(byte as char).is_alphabetic()` (std, at src/btf/type_information.rs:191, 235): ASCII letters, and the alphabetic code points in
U+0080..U+00FF (AA, B5, BA, C0-D6, D8-F6, F8-FF). -/
def isAlphabetic (b : UInt8) : Bool :=
  (0x41 ≤ b && b ≤ 0x5A) || (0x61 ≤ b && b ≤ 0x7A)
    || b == 0xAA || b == 0xB5 || b == 0xBA
    || (0xC0 ≤ b && b ≤ 0xD6) || (0xD8 ≤ b && b ≤ 0xF6) || 0xF8 ≤ b

/-- `(byte as char).is_numeric()` (std, at src/btf/type_information.rs:297): ASCII digits, and the numeric code points in
U+0080..U+00FF (B2, B3, B9, BC, BD, BE). -/
def isNumeric (b : UInt8) : Bool :=
  (0x30 ≤ b && b ≤ 0x39)
    || b == 0xB2 || b == 0xB3 || b == 0xB9 || b == 0xBC || b == 0xBD || b == 0xBE

/-- `(byte as char).is_alphanumeric()` (std, at src/btf/type_information.rs:259). -/
def isAlphanumeric (b : UInt8) : Bool := isAlphabetic b || isNumeric b

/-- `'['` as a byte (src/btf/type_information.rs:187, 209, 261, 279). -/
def chOpen : UInt8 := 0x5B
/-- `']'` as a byte (src/btf/type_information.rs:299, 310). -/
def chClose : UInt8 := 0x5D
/-- `'.'` as a byte (src/btf/type_information.rs:213, 261, 282). -/
def chDot : UInt8 := 0x2E
/-- `'_'` as a byte (src/btf/type_information.rs:191, 235, 259). -/
def chUnderscore : UInt8 := 0x5F

/-- `str::is_char_boundary` (std, used by the slices at src/btf/type_information.rs:272, 318): index 0, the length, or a byte that is not a UTF-8 continuation
byte (80-BF). -/
def isCharBoundary (s : Str) (i : Nat) : Bool :=
  i == 0 || i == s.length ||
    (match s[i]? with
     | some b => b < 0x80 || 0xC0 ≤ b
     | none => false)

/-- `&s[start..end]` on a `&str` (std, at src/btf/type_information.rs:272, 318): panics unless `start <= end`, `end <= len` and both are
character boundaries. -/
def strSlice (s : Str) (start stop : Nat) : Outcome Str :=
  if start ≤ stop ∧ stop ≤ s.length ∧ isCharBoundary s start = true ∧ isCharBoundary s stop = true then
    .ok ((s.drop start).take (stop - start))
  else .panic

/-- The digit loop of `usize::from_str` (std, at src/btf/type_information.rs:327), with overflow checks after each digit. A leading `+`,
which `from_str` would accept, cannot occur: `parse_index` only lets `is_numeric` bytes through. -/
def parseUsizeLoop (cfg : Cfg) : Str → Nat → Option Nat
  | [], acc => some acc
  | b :: rest, acc =>
    if 0x30 ≤ b ∧ b ≤ 0x39 then
      if acc * 10 < cfg.usizeMod then
        if acc * 10 + (b.toNat - 0x30) < cfg.usizeMod then
          parseUsizeLoop cfg rest (acc * 10 + (b.toNat - 0x30))
        else none
      else none
    else none

/-- `index_str.parse::<usize>()` (std, at src/btf/type_information.rs:327). -/
def parseUsize (cfg : Cfg) (s : Str) : Option Nat :=
  if s = [] then none else parseUsizeLoop cfg s 0

namespace PathIter

/-- `TypePathComponentIter::new` (src/btf/type_information.rs:159-165). -/
def new (path : Str) : PathIter := { path, position := 0, state := .start }

/-- The loop of `parse_name` (src/btf/type_information.rs:257-270) over the bytes from the current
position on: the position where it stops, and whether it stopped at an invalid character. (Positions
are below the string length, so `position += 1` cannot overflow.) -/
def scanName : Str → Nat → Nat × Bool
  | [], pos => (pos, false)
  | c :: rest, pos =>
    if isAlphanumeric c || c == chUnderscore then scanName rest (pos + 1)
    else if c == chOpen || c == chDot then (pos, false)
    else (pos, true)

/-- `parse_name` (src/btf/type_information.rs:253-289). `Some(Ok(c))` is `ok (some c)`, `Some(Err(e))`
is `err`, `None` is `ok none`. -/
def parseName (it : PathIter) : Outcome (Option PathComponent) × PathIter :=
  let start := it.position
  match scanName (it.path.drop start) start with
  | (pos, true) => (.err .InvalidTypePath, { it with position := pos, state := .error })
  | (pos, false) =>
    match strSlice it.path start pos with
    | .ok name =>
      let it' : PathIter :=
        match it.path[pos]? with
        | none => { it with position := pos, state := .done }
        | some c =>
          if c == chOpen then { it with position := pos + 1, state := .insideIndex }
          else if c == chDot then { it with position := pos + 1, state := .expectingName }
          else { it with position := pos }
      (.ok (some (.name name)), it')
    | .err e => (.err e, it)
    | .panic => (.panic, it)
    | .nofuel => (.nofuel, it)

/-- The loop of `parse_index` (src/btf/type_information.rs:295-308): as `scanName`. -/
def scanIndex : Str → Nat → Nat × Bool
  | [], pos => (pos, false)
  | c :: rest, pos =>
    if isNumeric c then scanIndex rest (pos + 1)
    else if c == chClose then (pos, false)
    else (pos, true)

/-- `parse_index` (src/btf/type_information.rs:291-343). -/
def parseIndex (cfg : Cfg) (it : PathIter) : Outcome (Option PathComponent) × PathIter :=
  let start := it.position
  match scanIndex (it.path.drop start) start with
  | (pos, true) => (.err .InvalidTypePath, { it with position := pos, state := .error })
  | (pos, false) =>
    if it.path[pos]? ≠ some chClose then
      (.err .InvalidTypePath, { it with position := pos, state := .error })
    else
      match strSlice it.path start pos with
      | .ok indexStr =>
        if indexStr = [] then
          (.err .InvalidTypePath, { it with position := pos, state := .error })
        else
          match parseUsize cfg indexStr with
          | some index =>
            (.ok (some (.index index)), { it with position := pos + 1, state := .afterIndex })
          | none => (.err .InvalidTypePath, { it with position := pos, state := .error })
      | .err e => (.err e, it)
      | .panic => (.panic, it)
      | .nofuel => (.nofuel, it)

/-- The `ExpectingName` arm of `next` (src/btf/type_information.rs:226-245), entered with
`position < bytes.len()`; the inner length check of lines 227-233 is the `none` case. -/
def nextExpectingName (it : PathIter) : Outcome (Option PathComponent) × PathIter :=
  match it.path[it.position]? with
  | none => (.err .InvalidTypePath, { it with state := .error })
  | some c =>
    if isAlphabetic c || c == chUnderscore then parseName { it with state := .insideName }
    else (.err .InvalidTypePath, { it with state := .error })

/-- `Iterator::next` (src/btf/type_information.rs:171-249). The recursive call `self.next()` at line
216 is made in state `ExpectingName`, so it is the length check of lines 179-182 followed by the
`ExpectingName` arm. -/
def next (cfg : Cfg) (it : PathIter) : Outcome (Option PathComponent) × PathIter :=
  if it.state = .done ∨ it.state = .error then (.ok none, it)
  else
    match it.path[it.position]? with
    | none => (.ok none, { it with state := .done })
    | some c =>
      match it.state with
      | .start =>
        if c == chOpen then
          parseIndex cfg { it with position := it.position + 1, state := .insideIndex }
        else if isAlphabetic c || c == chUnderscore then
          parseName { it with state := .insideName }
        else (.err .InvalidTypePath, { it with state := .error })
      | .insideName => parseName it
      | .insideIndex => parseIndex cfg it
      | .afterIndex =>
        if c == chOpen then
          parseIndex cfg { it with position := it.position + 1, state := .insideIndex }
        else if c == chDot then
          if it.position + 1 < it.path.length then
            nextExpectingName { it with position := it.position + 1, state := .expectingName }
          else
            (.ok none, { it with position := it.position + 1, state := .done })
        else (.err .InvalidTypePath, { it with state := .error })
      | .expectingName => nextExpectingName it
      | .done => (.ok none, it)
      | .error => (.ok none, it)

end PathIter

end Btf

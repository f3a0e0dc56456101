# btfparse: formal model and proofs — design

Source: `/repo` (Rust crate `btfparse` 1.3.9). Nothing in `/repo` is built or run; the model is a reading of
the source. Every definition under `lean/Verif/Model` cites the file and lines it models.
(This file is generated by `tools/gen_design.py` from `tools/design_head.md`, `MANIFEST.json`,
`properties.jsonl` and the output of `#print axioms`.)

## Layout

| directory | content |
|---|---|
| `lean/Verif/Model/` | executable model of the crate, function by function |
| `lean/Verif/Spec/`  | small independent specifications (BTF wire format, path grammar, C accesses, sizes, histories) that do not mention the model's functions |
| `lean/Verif/Proofs/`| helper lemmas |
| `lean/Verif/Props/` | the property theorems (one file per group), each with a non-vacuity `example`; `Witness*.lean` apply the theorems with hypotheses to concrete files and graphs |
| `lean/Verif/Samples*.lean` | concrete files and graphs used by the examples |
| `Tests.lean`, `RepoTests.lean` | all of the crate's own unit tests (but for the readers `i8` and `i16`, which the crate does not use), run on the model with the literals of the tests |
| `tools/port.py`, `tools/differential.py` | a second transcription of the crate, to Python, and a random differential test of the model against it (see "Trusted base") |
| `seeded/LOG.jsonl` | wrong programs the theorems were tried against |

## Trusted base

* Lean 4.33.0's kernel.
* The axioms `propext`, `Quot.sound`, `Classical.choice` (Lean's own); the last column of the table below gives
  those each property's theorems depend on. No axiom is added, nothing is admitted, and
  `native_decide`/`bv_decide`/compiled evaluation are not used. `decide +kernel` is used only for facts about
  concrete data (examples, refutations, tables of 256 byte values) and is checked by the kernel.
* That `lean/Verif/Model` says what the Rust source does. This is the only part that has to be compared with the
  code by eye; it is short (about 1500 lines) and follows the source function by function. Two tests (not proofs; no
  claim rests on them) look for slips: the crate's own unit tests are run on the model (`Tests.lean`, `RepoTests.lean`), and
  `tools/differential.py` compares the model with an independent transcription of the Rust text to Python (`tools/port.py`)
  on random and damaged files: outcome and text of the error of `new`, log of requests, `Debug` text of `get()`, and all queries
  with the texts of their errors, both pointer widths, with and without overflow checks (seeds 1–3: 3660 files, 489431
  questions, no difference).
* That `lean/Verif/Spec` and the statements in `lean/Verif/Props` say what the English properties say.
* Rust's language and standard library as used: integer arithmetic and casts, slices, `BTreeMap`, `HashMap`,
  `RwLock`, `str`/`char` methods on code points below 256, `usize::from_str`.

## Modelling decisions

* **Results.** `Outcome α = ok a | err kind | panic | nofuel`. A Rust `Result::Err` is `err` with its
  `ErrorKind`; the versions with the texts of the messages are `newE` for `new` and `Model/Message.lean` for the queries. A Rust panic is `panic`. `nofuel` means the
  model's recursion bound was hit; a computation *diverges* when it is `nofuel` for every bound, and
  *returns* `o` when some bound gives `o ≠ nofuel`. Fuel is never a bound in a theorem: theorems say
  "for some/every fuel".
* **Integers.** `u8/u16/u32/u64/i32/i64` are Lean's `UIntN/IntN`. `usize` is a `Nat` below `2^32` or
  `2^64` chosen by `Cfg.width`; unchecked `+`/`*`/`+=` on machine integers go through `Cfg.usizeAdd`,
  `Cfg.usizeMul`, `Cfg.u32Add`, which panic on overflow when `Cfg.overflowChecks` (debug) and wrap
  otherwise (release).
* **Readable.** A `Readable` is an arbitrary function of the whole history of earlier requests, so it
  covers any stateful, failing or adversarial implementation; a successful read always fills exactly
  the requested buffer. (A Rust implementation may return `Ok` without writing; since the crate zeroes the
  buffer first, this is the same as answering zeros. An implementation that itself panics or never returns is not
  modelled.) `Serves r file` is the special case of a fixed byte string.
* **Reader** is a state monad `P α = Reader → Outcome α × Reader` with a ghost trace of read requests.
* **Strings** (`String`, `&str`) are their UTF-8 bytes (`List UInt8`), as in Rust. `char::is_alphabetic`,
  `is_numeric`, `is_alphanumeric` are modelled on the code points 0..255 the code applies them to.
* **BTreeMap** is a sorted association list (`Model/Map.lean`).
* **Loops** become structural recursion (counted `for`) or fuel recursion (`while`/`loop`/recursion),
  with theorems that the fuel used suffices.
* **Caching** (`--features caching`): a transition system with any number of threads; one atomic step
  per lock acquisition, release and map access. `HashMap::insert` may panic while the write guard is held,
  which poisons the lock.

## What is modelled, what is not

| source | modelled |
|---|---|
| `src/btf/error.rs` | `ErrorKind`; texts of the messages in `Model/LoadReason.lean` (`new`) and `Model/Message.lean` (queries); `From<io::Error>` in `Model/Examples.lean` |
| `src/btf/readable.rs`, `src/utils/reader.rs`, `src/utils/readable_buffer.rs` | everything (`Model/Reader.lean`, `Model/Buffer.lean`) |
| `src/btf/file_header.rs`, `header.rs`, `kind.rs`, `string.rs`, `define_type.rs` (the constructor) | everything (`Model/Parse.lean`) |
| `src/btf/int.rs`, `typedef.rs`, `enum.rs`, `enum64.rs`, `ptr.rs`, `const.rs`, `volatile.rs`, `restrict.rs`, `array.rs`, `func.rs`, `func_proto.rs`, `struct_union.rs`, `fwd.rs`, `var.rs`, `float.rs`, `data_sec.rs`, `type_tag.rs`, `decl_tag.rs` | the data structures and constructors (`Model/Types.lean`, `Model/Parse.lean`); field accessors are the structure projections |
| `src/btf/offset.rs` | everything (`Model/Offset.lean`) |
| `src/btf/type_information.rs` | everything outside `#[cfg(test)]`: path iterator (`Model/Path.lean`), `new` and all queries (`Model/TypeInfo.lean`), the cache (`Model/Cache.lean`), error messages (`Model/LoadReason.lean`, `Model/Message.lean`) |
| `examples/*.rs` | everything (`Model/Examples.lean`), with the values printed instead of the text; `File::open` and `read_exact_at` are parameters |
| `#[derive(Debug)]` of all parsed data, `println!` in the examples | `Model/Debug.lean` (formats of the standard library, trusted); C87 |
| `#[derive(Debug)]` of `Error` and `ErrorKind`, the panics of the examples | `Model/Complaint.lean` (messages of `unwrap` trusted; quoting of arbitrary characters, `Debug` of `io::Error` and texts of overflows are parameters); C111 |
| other `#[derive(..)]` | `Clone` and `Copy` are the identity, `PartialEq` and `Eq` are equality of the model's data (as all fields are compared); `Ord` of the private path types is not used and not modelled |
| `Debug` of `std::path::Path` (examples), `#[cfg(test)]` modules | not modelled (the tests are run on the model, see Layout) |
| stack exhaustion by deep recursion, memory exhaustion | not modelled; recursion depth is bounded by theorems (C56), divergence is characterised (C57) |
| 16-bit targets | not modelled |

## Findings

Properties that are false of the code are kept in `properties.jsonl` in the form a user expects; their
theorems are a machine-checked counterexample (`_refuted`) and the strongest true part (`_partial`).

1. A path may end in `.` (after a name or an index) or in `[` (after a name); it is treated like the path without
   it. The branch reporting "Expected name after '.'" (type_information.rs:227-233) is dead code. (C24, C50, C63)
2. In big-endian files the two words of a 64-bit enumerator are exchanged with respect to `struct btf_enum64`
   (the code reads one 8-byte integer). (C02, C04, C66)
3. The bounds check of an array uses `vlen * 12`, and `vlen` of an array is 0, so the 12-byte body of an array that is
   the last record may lie outside the type section and is read from there. (C02, C18, C64)
4. `size_of` of an array multiplies without a check: debug builds panic, release builds wrap; as a consequence a release
   `offset_of` can return a wrong offset for an array of such elements. (C28, C37, C58)
5. Self-referential files (accepted by `new`) make `size_of`, `pointee_tid` and `offset_of` recurse or loop for
   ever. (C31, C32, C57)
6. `TypeTag` is followed by `size_of` only. (C47, C61)
7. An unnamed bitfield member (ordinary padding in C) makes every lookup by name in its struct fail with
   `UnexpectedBitfield`. (C41, C60)
8. On 32-bit targets `offset + 12` and `offset + size` can overflow: debug builds panic (a 24-byte file suffices),
   release builds wrap in the bounds check, and on a crafted 4 GiB file `new` never returns because the reader passes
   the end of the address space and starts again (`new_total_32_release_refuted`); `ReadableBuffer` truncates the requested offset modulo 2^32. (C20, C53)
9. The version and flags bytes are ignored only if the sections do not overlap the header, which is not
   checked. (C21)
10. Names are decoded as Latin-1 and path bytes are classified as Latin-1 characters; so a non-ASCII name in the file
    (in UTF-8) never equals the same text in a path, and most such names (also names with `.`, `$` or `-`) cannot be
    written in a path at all. (C103) `offset_of(t, "")` is `Ok` even for an id that does not exist,
    and ids reported inside types may dangle.
11. With duplicate names the last type wins in `id_of`. (C09)
12. The cache's lock can be poisoned only by a panicking `HashMap::insert`; a panic of the computation holds no
    guard. Errors are not cached. (C54)
13. The search through unnamed members may take exponentially many steps: a file of 38 + 39·n bytes makes a lookup of `x`
   take 2^(n+1) - 1 steps (n = 40: 1.6 kB, hours). (C81)
14. "Member 'b' not found" is also the answer to `b.nosuch` when `b` exists inside an unnamed struct or union: errors of
   the search there are discarded. (C82)
15. Names are read one byte per request and a name shared by many types is read again for each: a file of 26 + 12·k + l
   bytes makes `new` issue 8 + k·(l + 4) requests (852 kB: 4.3·10⁹). (C84)
16. "Invalid string offset" and "String at offset … is not correctly null terminated" give the place in the file
   (`string_offset` is shadowed by the sum), not the offset stored in the record. (C85)
17. The size of pointers is taken from the last struct named `list_head` (half of its size): a file with another struct of
   that name gives all pointers another size, and one without it has no pointer size at all. (C27, C100)
18. The cache of `offset_of` never drops an entry and its keys are the texts of the paths: `[0]`, `[00]`, `[000]`, ... are
   separate entries, and the empty path makes one for every id, existing or not; so it grows without limit. (C107)

# btfparse: formal model and proofs — design

Source: `/repo` (Rust crate `btfparse` 1.3.9). Nothing in `/repo` is built or run; the model is a reading of
the source. Every definition under `lean/Verif/Model` cites the file and lines it models.
(This file is generated by `tools/gen_design.py` from `tools/design_head.md`, `MANIFEST.json`,
`properties.jsonl` and the output of `#print axioms`.)

## Layout

| directory | content |
|---|---|
| `lean/Verif/Model/` | executable model of the crate, function by function |
| `lean/Verif/Spec/`  | small independent specifications (BTF wire format, path grammar, C accesses, sizes, histories) that do not mention the model's functions |
| `lean/Verif/Proofs/`| helper lemmas |
| `lean/Verif/Props/` | the property theorems (one file per group), each with a non-vacuity `example`; `Witness*.lean` apply the theorems with hypotheses to concrete files and graphs |
| `lean/Verif/Samples*.lean` | concrete files and graphs used by the examples |
| `Tests.lean`, `RepoTests.lean` | all of the crate's own unit tests (but for the readers `i8` and `i16`, which the crate does not use), run on the model with the literals of the tests |
| `tools/port.py`, `tools/differential.py` | a second transcription of the crate, to Python, and a random differential test of the model against it (see "Trusted base") |
| `seeded/LOG.jsonl` | wrong programs the theorems were tried against |

## Trusted base

* Lean 4.33.0's kernel.
* The axioms `propext`, `Quot.sound`, `Classical.choice` (Lean's own); the last column of the table below gives
  those each property's theorems depend on. No axiom is added, nothing is admitted, and
  `native_decide`/`bv_decide`/compiled evaluation are not used. `decide +kernel` is used only for facts about
  concrete data (examples, refutations, tables of 256 byte values) and is checked by the kernel.
* That `lean/Verif/Model` says what the Rust source does. This is the only part that has to be compared with the
  code by eye; it is short (about 1500 lines) and follows the source function by function. Two tests (not proofs; no
  claim rests on them) look for slips: the crate's own unit tests are run on the model (`Tests.lean`, `RepoTests.lean`), and
  `tools/differential.py` compares the model with an independent transcription of the Rust text to Python (`tools/port.py`)
  on random and damaged files: outcome and text of the error of `new`, log of requests, `Debug` text of `get()`, and all queries
  with the texts of their errors, both pointer widths, with and without overflow checks (seeds 1–3: 3660 files, 489431
  questions, no difference).
* That `lean/Verif/Spec` and the statements in `lean/Verif/Props` say what the English properties say.
* Rust's language and standard library as used: integer arithmetic and casts, slices, `BTreeMap`, `HashMap`,
  `RwLock`, `str`/`char` methods on code points below 256, `usize::from_str`.

## Modelling decisions

* **Results.** `Outcome α = ok a | err kind | panic | nofuel`. A Rust `Result::Err` is `err` with its
  `ErrorKind`; the versions with the texts of the messages are `newE` for `new` and `Model/Message.lean` for the queries. A Rust panic is `panic`. `nofuel` means the
  model's recursion bound was hit; a computation *diverges* when it is `nofuel` for every bound, and
  *returns* `o` when some bound gives `o ≠ nofuel`. Fuel is never a bound in a theorem: theorems say
  "for some/every fuel".
* **Integers.** `u8/u16/u32/u64/i32/i64` are Lean's `UIntN/IntN`. `usize` is a `Nat` below `2^32` or
  `2^64` chosen by `Cfg.width`; unchecked `+`/`*`/`+=` on machine integers go through `Cfg.usizeAdd`,
  `Cfg.usizeMul`, `Cfg.u32Add`, which panic on overflow when `Cfg.overflowChecks` (debug) and wrap
  otherwise (release).
* **Readable.** A `Readable` is an arbitrary function of the whole history of earlier requests, so it
  covers any stateful, failing or adversarial implementation; a successful read always fills exactly
  the requested buffer. (A Rust implementation may return `Ok` without writing; since the crate zeroes the
  buffer first, this is the same as answering zeros. An implementation that itself panics or never returns is not
  modelled.) `Serves r file` is the special case of a fixed byte string.
* **Reader** is a state monad `P α = Reader → Outcome α × Reader` with a ghost trace of read requests.
* **Strings** (`String`, `&str`) are their UTF-8 bytes (`List UInt8`), as in Rust. `char::is_alphabetic`,
  `is_numeric`, `is_alphanumeric` are modelled on the code points 0..255 the code applies them to.
* **BTreeMap** is a sorted association list (`Model/Map.lean`).
* **Loops** become structural recursion (counted `for`) or fuel recursion (`while`/`loop`/recursion),
  with theorems that the fuel used suffices.
* **Caching** (`--features caching`): a transition system with any number of threads; one atomic step
  per lock acquisition, release and map access. `HashMap::insert` may panic while the write guard is held,
  which poisons the lock.

## What is modelled, what is not

| source | modelled |
|---|---|
| `src/btf/error.rs` | `ErrorKind`; texts of the messages in `Model/LoadReason.lean` (`new`) and `Model/Message.lean` (queries); `From<io::Error>` in `Model/Examples.lean` |
| `src/btf/readable.rs`, `src/utils/reader.rs`, `src/utils/readable_buffer.rs` | everything (`Model/Reader.lean`, `Model/Buffer.lean`) |
| `src/btf/file_header.rs`, `header.rs`, `kind.rs`, `string.rs`, `define_type.rs` (the constructor) | everything (`Model/Parse.lean`) |
| `src/btf/int.rs`, `typedef.rs`, `enum.rs`, `enum64.rs`, `ptr.rs`, `const.rs`, `volatile.rs`, `restrict.rs`, `array.rs`, `func.rs`, `func_proto.rs`, `struct_union.rs`, `fwd.rs`, `var.rs`, `float.rs`, `data_sec.rs`, `type_tag.rs`, `decl_tag.rs` | the data structures and constructors (`Model/Types.lean`, `Model/Parse.lean`); field accessors are the structure projections |
| `src/btf/offset.rs` | everything (`Model/Offset.lean`) |
| `src/btf/type_information.rs` | everything outside `#[cfg(test)]`: path iterator (`Model/Path.lean`), `new` and all queries (`Model/TypeInfo.lean`), the cache (`Model/Cache.lean`), error messages (`Model/LoadReason.lean`, `Model/Message.lean`) |
| `examples/*.rs` | everything (`Model/Examples.lean`), with the values printed instead of the text; `File::open` and `read_exact_at` are parameters |
| `#[derive(Debug)]` of all parsed data, `println!` in the examples | `Model/Debug.lean` (formats of the standard library, trusted); C87 |
| `#[derive(Debug)]` of `Error` and `ErrorKind`, the panics of the examples | `Model/Complaint.lean` (messages of `unwrap` trusted; quoting of arbitrary characters, `Debug` of `io::Error` and texts of overflows are parameters); C111 |
| other `#[derive(..)]` | `Clone` and `Copy` are the identity, `PartialEq` and `Eq` are equality of the model's data (as all fields are compared); `Ord` of the private path types is not used and not modelled |
| `Debug` of `std::path::Path` (examples), `#[cfg(test)]` modules | not modelled (the tests are run on the model, see Layout) |
| stack exhaustion by deep recursion, memory exhaustion | not modelled; recursion depth is bounded by theorems (C56), divergence is characterised (C57) |
| 16-bit targets | not modelled |

## Findings

Properties that are false of the code are kept in `properties.jsonl` in the form a user expects; their
theorems are a machine-checked counterexample (`_refuted`) and the strongest true part (`_partial`).

1. A path may end in `.` (after a name or an index) or in `[` (after a name); it is treated like the path without
   it. The branch reporting "Expected name after '.'" (type_information.rs:227-233) is dead code. (C24, C50, C63)
2. In big-endian files the two words of a 64-bit enumerator are exchanged with respect to `struct btf_enum64`
   (the code reads one 8-byte integer). (C02, C04, C66)
3. The bounds check of an array uses `vlen * 12`, and `vlen` of an array is 0, so the 12-byte body of an array that is
   the last record may lie outside the type section and is read from there. (C02, C18, C64)
4. `size_of` of an array multiplies without a check: debug builds panic, release builds wrap; as a consequence a release
   `offset_of` can return a wrong offset for an array of such elements. (C28, C37, C58)
5. Self-referential files (accepted by `new`) make `size_of`, `pointee_tid` and `offset_of` recurse or loop for
   ever. (C31, C32, C57)
6. `TypeTag` is followed by `size_of` only. (C47, C61)
7. An unnamed bitfield member (ordinary padding in C) makes every lookup by name in its struct fail with
   `UnexpectedBitfield`. (C41, C60)
8. On 32-bit targets `offset + 12` and `offset + size` can overflow: debug builds panic (a 24-byte file suffices),
   release builds wrap in the bounds check, and on a crafted 4 GiB file `new` never returns because the reader passes
   the end of the address space and starts again (`new_total_32_release_refuted`); `ReadableBuffer` truncates the requested offset modulo 2^32. (C20, C53)
9. The version and flags bytes are ignored only if the sections do not overlap the header, which is not
   checked. (C21)
10. Names are decoded as Latin-1 and path bytes are classified as Latin-1 characters; so a non-ASCII name in the file
    (in UTF-8) never equals the same text in a path, and most such names (also names with `.`, `$` or `-`) cannot be
    written in a path at all. (C103) `offset_of(t, "")` is `Ok` even for an id that does not exist,
    and ids reported inside types may dangle.
11. With duplicate names the last type wins in `id_of`. (C09)
12. The cache's lock can be poisoned only by a panicking `HashMap::insert`; a panic of the computation holds no
    guard. Errors are not cached. (C54)
13. The search through unnamed members may take exponentially many steps: a file of 38 + 39·n bytes makes a lookup of `x`
   take 2^(n+1) - 1 steps (n = 40: 1.6 kB, hours). (C81)
14. "Member 'b' not found" is also the answer to `b.nosuch` when `b` exists inside an unnamed struct or union: errors of
   the search there are discarded. (C82)
15. Names are read one byte per request and a name shared by many types is read again for each: a file of 26 + 12·k + l
   bytes makes `new` issue 8 + k·(l + 4) requests (852 kB: 4.3·10⁹). (C84)
16. "Invalid string offset" and "String at offset … is not correctly null terminated" give the place in the file
   (`string_offset` is shadowed by the sum), not the offset stored in the record. (C85)
17. The size of pointers is taken from the last struct named `list_head` (half of its size): a file with another struct of
   that name gives all pointers another size, and one without it has no pointer size at all. (C27, C100)
18. The cache of `offset_of` never drops an entry and its keys are the texts of the paths: `[0]`, `[00]`, `[000]`, ... are
   separate entries, and the empty path makes one for every id, existing or not; so it grows without limit. (C107)

## Per property

Proof shapes: *inv* = invariant over all executions of the `P` monad (Hoare-style rules for every `Readable`);
*ref* = refinement between model and `Spec/Format`; *rel* = model result ↔ inductive relation in `Spec`;
*neg* = concrete refutation, with the provable remainder as `_partial`.
Axioms: p = `propext`, q = `Quot.sound`, c = `Classical.choice`.

| id | status | modelled by | proof | theorems (`Btf.Props.`) | axioms |
|---|---|---|---|---|---|
| C01 The constructor is total: no panic and no endless loop | proved | `TypeInformation.new`, 64-bit | inv: offsets stay below 2^33, 12 bytes of progress per record, fuel suffices | `new_total` | pqc |
| C02 Every reported type is what the file says | partial | `new` on a served file | ref, soundness direction; neg | `new_sound_documented_partial`, `new_sound`, `new_record`, `new_sound_refuted`, `new_overrun_refuted` | pqc |
| C03 Every well-formed file is accepted and decoded | partial | same | ref, completeness direction | `new_complete_documented_partial`, `new_complete`, `new_sound_refuted` | pqc |
| C04 The result does not depend on the byte order of the file | partial | same | neg (64-bit enumerators); ref in both byte orders | `byte_order_irrelevant_partial`, `new_same_content_partial`, `meaning_byte_order`, `byte_order_refuted` | pqc |
| C05 Only the two BTF magics are accepted, and they fix the byte order | proved | `FileHeader.new` | case analysis; inv for the byte order | `new_magic`, `new_bad_magic`, `new_byte_order` | pqc |
| C06 Type ids are dense, start at 1 and follow file order | proved | `new` | inv over the record loop | `ids_dense`, `new_holds` | pqc |
| C07 The id counter can never wrap | proved | `new` | inv: 12·n ≤ type_len | `ids_bounded` | pqc |
| C08 name_of agrees with the type itself | proved | `new`, `nameOf` | inv over inserts | `name_of_agrees` | pqc |
| C09 id_of returns the last type with that name | proved | `new`, `idOf` | inv over inserts | `id_of_last` | pqc |
| C10 Names are the NUL-terminated strings of the string section | proved | `parseString` | ref against the C string at an offset | `new_name`, `new_string_outside`, `new_string_unterminated`, `new_err_next` | pqc |
| C11 new reads only the header, the type section and the string section | proved | ghost trace | inv | `new_confined` | pqc |
| C12 Bytes outside those ranges have no influence | proved | two served files | relational inv (same requests, same answers) | `new_local`, `other_bytes_ignored` | pqc |
| C13 A type section that ends inside a record header is rejected | proved | `Header.new`, `parseLoop` | ref with the flaws of `Spec/Flaws` | `new_partial_header`, `new_partial_body`, `new_section_overflow` | pqc |
| C14 Unknown kinds are rejected | proved | `Kind.new`, `Header.new` | bit arithmetic against div/mod | `new_unknown_kind`, `new_kind`, `new_same_content_partial` | pqc |
| C15 I/O errors are never swallowed by new | proved | ghost trace with results | inv | `new_io_errors` | pqc |
| C16 Struct and union member offsets are decoded exactly | proved | `memberOffset`, `Member.parse` | bit arithmetic against div/mod | `new_members`, `new_misaligned` | pqc |
| C17 Integer and enum values are decoded exactly | proved | `IntData.new`, `EnumData.new`, `Enum64Data.new` | bit arithmetic against div/mod, two's complement | `new_int`, `new_enum`, `new_enum64` | pqc |
| C18 No record extends past the end of the type section | partial | `checkBounds`, `ArrayData.new` | neg (array with vlen 0 overruns); ref for other kinds | `new_inside_partial`, `new_overrun_refuted` | pqc |
| C19 Debug and release builds parse identically | proved | `new` in two builds | compositional simulation | `new_debug_release` | pqc |
| C20 The constructor is total on 32-bit targets too | partial | `new` with 32-bit `usize` | neg; inv under a bound on the sections | `new_total_32_partial`, `new_total_32_refuted`, `new_total_32_release_refuted` | pqc |
| C21 Version, flags and reserved bits are ignored | proved | `new` | relational inv: two runs on the two files proceed in step; only the second word of a record is read differently | `reserved_ignored`, `version_flags_ignored`, `reserved_overlap_refuted` | pqc |
| C22 Offset addition is exact or fails | proved | `Offset.addU32`, `Offset.add` | arithmetic | `offset_add_u32_ok`, `offset_add_u32_err`, `offset_add_ok`, `offset_add_err` | pqc |
| C23 Accumulating offsets is order-insensitive | proved | same | induction over lists | `accumulate_exact`, `accumulate_perm` | pqc |
| C24 The path syntax is exactly the documented grammar | partial | `PathIter` | rel: iterator ↔ grammar; neg: trailing `.`/`[` | `path_language_partial`, `path_language`, `path_rejected`, `path_dangling_dot_accepted`, `path_dangling_open_accepted` | pqc |
| C25 Path parsing never panics | proved | `strSlice`, `PathIter.next` | UTF-8 boundary invariant | `path_never_panics` | pqc |
| C26 Index literals are read as decimal numbers or rejected | proved | `parseUsize` | induction over digits | `index_literal` | pqc |
| C27 size_of is the size the type graph denotes | proved | `sizeOf` | rel, both directions | `size_of_ok_iff`, `size_of_exact` | pqc |
| C28 Array sizes never silently overflow | partial | `sizeOf` | neg | `size_of_no_wrong_number_partial`, `size_of_overflow_refuted` | pqc |
| C29 size_of failures are classified | proved | `sizeOf` | rel, both directions | `size_of_invalid_type_id_iff`, `size_of_not_sized_iff`, `size_of_err_kinds` | pqc |
| C30 pointee_tid follows aliases to the pointer | proved | `pointeeTid` | rel, both directions | `pointee_tid_ok_iff`, `pointee_tid_err_iff` | pq |
| C31 size_of and pointee_tid terminate | partial | fuel semantics | neg (cycles diverge); iff | `queries_return_of_ranked_partial`, `queries_terminate_refuted` | pqc |
| C32 offset_of terminates | partial | fuel semantics | neg; induction over a rank | `offset_of_terminates_partial`, `offset_of_terminates_refuted` | pqc |
| C33 The empty path is the identity | proved | `offsetOf` | computation | `offset_of_empty` | pqc |
| C34 Missing ids are reported | proved | `offsetOf`, `resolve` | induction over the chain | `offset_of_missing`, `offset_of_no_invention` | pqc |
| C35 Array indexing is bounds-checked and exact | proved | `stepIndex` | arithmetic | `offset_of_index_ok`, `offset_of_index_bounds`, `offset_of_index_err` | pqc |
| C36 Aliases and qualifiers are transparent to offset_of | proved | `resolve` | induction over the chain | `offset_of_alias`, `offset_of_alias_chain` | pqc |
| C37 Soundness of offset_of | partial | `offsetOf` | rel to `Spec/Access`, induction over fuel; neg for release | `offset_of_sound_partial`, `offset_of_sound`, `offset_of_sound_parsed_partial`, `offset_of_sound_refuted` | pqc |
| C38 Completeness of offset_of | proved | `offsetOf` | rel to `Spec/Access`, induction over rank and path | `offset_of_complete` | pqc |
| C39 offset_of is unambiguous when C is | proved | `offsetOf` | from C37, C38 | `offset_of_unique`, `offset_of_iff` | pqc |
| C40 Lookup order: anonymous members first, then first named member | proved | `probeAnonymous`, `offsetOfImpl` | induction over members | `lookup_anonymous`, `lookup_named`, `lookup_bitfield`, `lookup_not_found` | pqc |
| C41 Unnamed bitfields do not hide other members | partial | same | neg; induction over members | `unnamed_bitfield_partial`, `unnamed_bitfield_refuted`, `lookup_named` | pqc |
| C42 Paths compose | proved | `offsetOf`, `PathIter` | composition of accesses, C38 | `offset_of_compose` | pqc |
| C43 Located objects lie inside the outer object | proved | `offsetOf`, `sizeOf` | induction over accesses | `offset_of_inside` | pqc |
| C44 Distinct array elements do not overlap | proved | `stepIndex` | arithmetic from C35 | `offset_of_elements_disjoint` | pqc |
| C45 Nothing can be navigated inside a bitfield | proved | `Offset.add`, `offsetOf` | induction over accesses | `offset_of_bitfield_last`, `offset_of_inside_bitfield` | pqc |
| C46 Pointers are never dereferenced | proved | `stepIndex`, `memberListOf` | induction over the chain | `offset_of_pointer`, `offset_of_scalar` | pqc |
| C47 Type tags are transparent | partial | `sizeOf`, `pointeeTid`, `offsetOf` | neg; rel | `type_tag_transparent_partial`, `type_tag_refuted` | pqc |
| C48 offset_of failures have documented kinds | proved | `offsetOf` | induction over fuel | `offset_of_error_kinds` | pqc |
| C49 The cache is invisible | proved | transition system of `Model/Cache` | inv over all schedules | `cache_invisible`, `cache_repeatable` | pqc |
| C50 A successful lookup consumed the whole path | partial | `PathIter` | rel: iterator ↔ grammar; neg | `path_consumed_partial`, `path_dangling_dot_accepted`, `path_dangling_open_accepted`, `offset_of_consumes` | pqc |
| C51 Reported types agree with their own headers | proved | `new` | inv over the record loop | `types_sane` | pqc |
| C52 new fails only with documented kinds | proved | `new` | inv | `new_error_kinds` | pqc |
| C53 ReadableBuffer serves exactly its bytes | proved | `ReadableBuffer.read` | case analysis | `buffer_read`, `buffer_read_32`, `buffer_total`, `buffer_errors`, `buffer_read_32_refuted` | pqc |
| C54 The cache is robust | proved | transition system of `Model/Cache` | inv over all schedules | `cache_entries`, `cache_poison`, `cache_frozen`, `cache_no_deadlock`, `cache_exclusive`, `cache_matched` | pqc |
| C55 new rejects exactly the flawed files and names a flaw | proved | `new` on a served file | ref with `Spec/Flaws` | `new_err_sound`, `new_err_complete`, `new_err_of_only`, `new_err_record` | pqc |
| C56 Recursion depth is bounded by the number of types | proved | fuel semantics | pigeonhole on chains; rank for `offset_of` | `size_of_depth`, `pointee_tid_depth`, `offset_of_depth` | pqc |
| C57 size_of and pointee_tid run for ever exactly on reference cycles | proved | fuel semantics | pigeonhole on chains | `size_of_diverges_iff_cycle`, `pointee_tid_diverges_iff_cycle`, `size_of_diverges_iff`, `pointee_tid_diverges_iff` | pqc |
| C58 What size_of does when an array does not fit in usize | proved | `sizeOf` | rel, modular arithmetic | `size_of_unchecked`, `size_of_checked`, `size_of_release_parsed`, `size_of_ok_iff`, `parsed_sizes_fit` | pqc |
| C59 The content determines the result | proved | `new` on served files | ref | `new_determined`, `content_unique` | pqc |
| C60 What an unnamed bitfield does to lookups by name | proved | `probeAnonymous` | from the characterisation of C88: cases on where the first unnamed bitfield is among the members | `unnamed_bitfield_exact`, `lookup_blocked` | pqc |
| C61 What type tags do | proved | `sizeOf`, `pointeeTid`, `resolve` | induction over the chain | `size_of_alias`, `type_tag_opaque` | pqc |
| C62 offset_of panics only where size_of does | proved | `offsetOf`, `sizeOf` | induction over fuel | `offset_of_panics`, `path_never_panics` | pqc |
| C63 The language of paths that offset_of accepts | proved | `PathIter` | rel: iterator ↔ grammar | `path_language`, `path_rejected`, `path_or_breaks`, `breaks_unique`, `offset_of_consumes`, `offset_of_rejects` | pqc |
| C64 Exactly which files are accepted | proved | `new` on a served file | ref, both directions | `new_accepts_iff`, `new_sound`, `new_complete` | pqc |
| C65 offset_of is a function | proved | fuel semantics | monotonicity in fuel | `offset_of_deterministic` | pqc |
| C66 Which files read the same in both byte orders | proved | `new` on two served files | relational inv | `byte_order_exact` | pqc |
| C67 Builds with and without overflow checks agree | proved | `sizeOf`, `offsetOf` in two builds | relational induction over fuel | `size_of_builds`, `offset_of_builds`, `offset_of_builds_diverge` | pqc |
| C68 32-bit and 64-bit targets agree | proved | `sizeOf`, `offsetOf` for two targets | relational induction over fuel | `size_of_widths`, `offset_of_widths` | pqc |
| C69 Answers do not depend on how types are numbered | proved | `sizeOf`, `pointeeTid`, `offsetOf` on two graphs | relational induction over fuel | `size_of_renumber`, `pointee_tid_renumber`, `offset_of_renumber`, `offset_of_renumber_diverges` | pqc |
| C70 Queries depend only on the types involved | proved | `sizeOf`, `offsetOf` on two graphs | C69 with the identity renaming | `offset_of_local`, `size_of_local` | pqc |
| C71 The example programs do not fail silently | proved | `dumpBtf`, `getTypeSize`, `getTypeOffset` on any `Os` | case analysis | `examples_usage`, `examples_no_silent_failure` | pqc |
| C72 dump-btf prints the types of the file | proved | `dumpBtf` on a file with known contents | C02, C03, C59 | `dump_btf_iff` | pqc |
| C73 get-type-size prints the size of the named type | proved | `getTypeSize` | case analysis; C02, C03, C27 | `get_type_size_answers`, `get_type_size_prints` | pqc |
| C74 get-type-offset prints where the path leads | proved | `getTypeOffset` | case analysis; C02, C37 | `get_type_offset_answers`, `get_type_offset_prints` | pqc |
| C75 I/O failures of files are reported as IOError | proved | `readableFile`, `new` | C15, C52 | `file_io_error`, `file_io_text` | pqc |
| C76 What a compiler writes is read back | proved | `new`, `from_id`, `name_of` | C02 for the file of `Spec.encode`; every name is found in the string table; every record has the words the grammar wants | `round_trip`, `round_trip_lookup`, `encode_fits` | pqc |
| C77 An incomplete file is never misread | proved | `new`, `ReadableBuffer` | all programs over the reader primitives do the same with a source that answers the same; no request failed | `new_truncated`, `new_prefix`, `new_extends`, `buffer_extends` | pqc |
| C78 32-bit builds parse like 64-bit builds, or panic | proved | `new` | simulation of the 32-bit run by the 64-bit run, for all programs over the reader primitives | `new_widths` | pqc |
| C79 Paths can be taken apart | proved | `offset_of` | C39, and accesses compose and split | `offset_of_join`, `offset_of_beginning`, `offset_of_continue` | pqc |
| C80 Declared types are found as declared | proved | `new`, `offset_of`, `size_of`, `pointee_tid`, `id_of` | C76, then one step of each query | `declared_member`, `declared_size`, `declared_id`, `offset_of_member`, `offset_of_no_member` | pqc |
| C81 How long a lookup takes | proved | `offset_of`, with a counter | induction on the depth of the recursion; the files are written with C76 | `offset_of_steps`, `offset_of_steps_bytes`, `offset_of_steps_plain`, `offset_of_steps_plain_ok`, `offset_of_exponential`, `offset_of_exponential_found`, `offset_of_takes`, `offset_of_takes_unique` | pqc |
| C82 Error messages are true | proved | the queries again, with the place where an error is made (`Model/Message.lean`) | erasure of the reasons gives the old model; induction on the recursion; the iterator keeps track of the text read | `offset_of_reason`, `offset_of_reason_accepted`, `offset_of_says_character`, `offset_of_says_bounds`, `offset_of_says_member`, `message_text`, `message_unique`, `message_determines`, `offset_of_never`, `size_of_reason`, `pointee_tid_reason`, `told_same`, `member_not_found_refuted` | pqc |
| C83 Different members occupy different bits | proved | `offset_of`, `size_of` | C43 (containment) at the point where the accesses part; induction on unnamed members | `offset_of_disjoint`, `offset_of_nested` | pqc |
| C84 How many reads new makes | proved | every read of `new` (trace of requests) | cost logic over the program syntax; requests per record are bounded by its words times string section; exact count by induction over the records | `new_requests_bound`, `new_requests_header`, `new_requests_exact`, `new_requests_quadratic` | pqc |
| C85 What the errors of new say | proved | all of `new`, with the texts | each place that makes an error is a `LoadReason`; `newT_any`/`newT_file` give the reasons, the table gives the texts; hexadecimal by comparison with `Nat.toDigits` | `load_error_text`, `load_error_any`, `load_text_determines` | pqc |
| C86 The first flaw is reported | proved | all of `new` | a logic in which each parser step comes with the list of its needs: all met, or it fails for the first unmet one; uniqueness of the first flaw by induction over the records | `new_first_flaw`, `new_first_flaw_iff`, `first_flaw_facts`, `buffer_first_flaw`, `buffer_missing` | pqc |
| C87 The printed text determines the result | proved | the derived `Debug`s of everything reachable from `TypeVariant`, `println!` in the examples | a logic of printers: followed by a stop byte, equal texts have equal values and equal rests; structural induction over fields, lists, names; text equality with the interpolated strings by a simproc that turns literals into bytes | `debug_text`, `debug_specified`, `debug_unique`, `dump_determines`, `message_determines`, `size_of_unsized_text`, `examples_text`, `dump_btf_output`, `examples_output_determines`, `answer_output` | pqc |
| C88 What offset_of answers, on every type graph | proved | `offset_of_impl` on all graphs, `Offset` addition, the path iterator | both directions by induction: over the rules for what the code returns, over the recursion bound for the converse | `offset_of_search`, `offset_of_search_breaks`, `path_or_breaks`, `breaks_unique`, `search_determined` | pqc |
| C89 Exactly when offset_of never returns | proved | fuel semantics | lookups with the ends of a path are finitely many; a relation without circles on a finite set is well-founded; a measure on circles | `offset_of_diverges_iff`, `offset_of_diverges_iff_breaks`, `leads_circle`, `offset_of_returns`, `offset_of_diverges` | pqc |
| C90 32-bit builds and files below 4 GiB | proved | the reader, the header and the record parser, with the width of usize and overflow checks as parameters | the run of a 32-bit build is compared with that of a 64-bit build, step by step: while requests are answered, offsets are below the size of the source | `new_short`, `new_short_end`, `new_short_panics`, `new_short_returns`, `new_file_32`, `new_file_32_types` | pqc |
| C91 Which error offset_of reports | proved | offset_of with the messages of its errors, and the path iterator | the run of the iterator is decomposed into the components before the flaw and the piece after them; then by induction over the components, the reason of an error is the first obstacle, and there is at most one | `flaw_breaks`, `flaw_unique`, `offset_of_first`, `offset_of_first_flaw`, `first_obstacle_unique`, `offset_of_first_plain` | pqc |
| C92 A source that changes while it is read | proved | new with a source whose answers depend on the history | induction over the program: each request that is not for a name begins where the last one ended; locality of programs (same answers, same result); for changing names a simulation with a file whose string section is full of zeros | `new_reads_once`, `new_snapshot`, `new_changing`, `new_consistent`, `new_names_only`, `only_names_read` | pqc |
| C93 The reported types fill the type section | proved | new with any source | induction over the loop: each record starts where the last one ended; the size of a record from the reported type; the bound on the characters from the exact number of requests (C84) | `new_fills`, `new_size_bound`, `new_size_attained` | pqc |
| C94 new loses nothing but unused bits | proved | new on two files | soundness (C02) gives the records; for each kind, the words of a record match the cells of the type iff the record is there (Proofs/Keep); completeness (C03) for the other direction | `new_keeps`, `new_keeps_all`, `new_keeps_iff`, `new_tells_apart` | pqc |
| C95 The cache saves work, and calls come to an end | proved | offset_of with the cache, Moves | a second invariant (what was answered is cached unless poisoned); a measure on the position inside the call; finitely many threads are inside calls, so guards can be given up one after the other | `cache_remembers`, `cache_keeps`, `cache_used`, `cache_bounded`, `cache_can_finish` | pqc |
| C96 The reader reads exactly and never loses its place | proved | Reader, parse_string on an arbitrary reader | the buffer of a read is the delivered bytes; integers by decodeNat_eq; the string loop by induction on the fuel | `reader_unsigned`, `reader_signed`, `reader_refused`, `reader_string` | pq |
| C97 Reading a path ends and stays ended | proved | TypePathComponentIter | fused: both end states are kept by next; end: every component consumes at least one byte | `path_fused`, `path_ends` | pqc |
| C98 Offsets can be compared and regrouped | proved | Offset: derived equality, both additions | from the exact characterisation of addition (C22) | `offset_eq_iff`, `offset_add_assoc`, `offset_add_zero`, `offset_add_cancel` | pq |
| C99 The exact requests of new | proved | Reader::read and all parsers | a partial-correctness triple with the list of needs and the trace, parser by parser; the list is a function of the file | `new_requests_list`, `new_requests_same`, `new_request_sizes` | pqc |
| C100 Sections can be moved, and types can be added at the end | proved | the whole constructor and all queries | the words of the records (C94) are found at the new place; the reading of the longer section starts with them; locality (C70) | `new_moved`, `new_added`, `lookup_added`, `id_of_added`, `size_of_added`, `pointee_tid_added`, `offset_of_added`, `taken_fileOf`, `size_of_added_refuted` | pqc |
| C101 The exact requests for a file that is refused | proved | the whole constructor | the triple of C99 extended by the failing case: the requests for the needs up to the first one that is not met | `refused_requests_list`, `requests_verdict`, `places_same` | pqc |
| C102 Members can be renamed together with the paths | proved | offset_of, size_of, pointee_tid | a simulation between the two graphs, by induction over the recursion depth | `offset_of_relabel`, `offset_of_relabel_breaks`, `offset_of_relabel_diverges`, `offset_of_other_names`, `size_of_relabel`, `pointee_tid_relabel` | pqc |
| C103 Which members of a file can be named in a path | proved | the path syntax and the decoding of names | the two encodings of one byte compared for all 256 bytes, then induction over the name; invisibility from C102 | `writable_iff`, `writable_component`, `offset_of_writable`, `offset_of_unwritable`, `latin1_self` | pqc |
| C104 Arrays of arrays are addressed row by row | proved | offset_of and size_of on nested arrays | induction over the dimensions with the rules of C88 | `offset_of_cell`, `offset_of_no_cell`, `offset_of_small_grid`, `nested_size`, `cellsBefore_lt`, `cellsBefore_surj`, `cellsBefore_inj` | pqc |
| C105 The order and the grouping of members do not matter | proved | offset_of on two type graphs | the C accesses of both graphs are the same (induction over accesses), well-formedness is preserved; then C38, C39 | `offset_of_regroup`, `offset_of_regroup_fails`, `size_of_regroup`, `pointee_tid_regroup`, `offset_of_order_matters` | pqc |
| C106 It does not matter where strings are stored | proved | new on two files, then all queries | record by record, the other file contains the same type up to offsets; conversely a record matches its own slots, which do not depend on the offsets; the queries by C69 with the identity as renumbering | `new_restring_iff`, `lookup_restring`, `size_of_restring`, `pointee_tid_restring`, `offset_of_restring` | pqc |
| C107 How large the cache gets | proved | the transition system of the cache | induction over the steps with the list of keys; for the growth a run of one thread with any list of different keys | `cache_entries_le`, `cache_exactly`, `cache_all_ids`, `cache_unlimited` | pqc |
| C108 How a path is spelled does not matter, what it says does | proved | paths, lookups and the writer of files | C88 for the first part; a file with one type for each component, in which the other path fails at the first difference, for the converse | `offset_of_spelling`, `offset_of_spelling_breaks`, `spell_path`, `offset_of_spell`, `spell_injective`, `different_components`, `same_answers_iff`, `possible_leads`, `possible_of_ok` | pqc |
| C109 From C types to answers | proved | lookups on the type graph, and the writer of files | C types as trees; mutual induction on types and members, with the search and size relations of C54 and C06; the file by C76 and C81 | `c_size_of`, `c_offset_of`, `c_offset_of_text`, `c_program`, `c_answers`, `reach_proper` | pqc |
| C110 Everything that can be looked up in a C type | proved | lookups on the type graph | mutual induction on types and members: the list agrees with reach of C109, names that occur once make the parts of it disjoint; then C109 and C108 | `c_places`, `places_iff`, `places_nodup`, `reach_within` | pqc |
| C111 What the example programs say when they fail | proved | Model/Complaint.lean | case analysis of the programs, with the reasons of C82, C86 and C91; texts by the injectivity of debugStruct from C87 | `says_same`, `dump_btf_complains`, `dump_btf_first_flaw`, `get_type_size_complains`, `get_type_offset_complains`, `complaint_determines`, `complaint_text`, `load_complaint` | pqc |
| C112 A whole header file of C types | proved | writer of Spec/Encode.lean, loader and lookups | the declarations of a list of types correspond to its parts, by mutual induction; the last declaration with a name (C80) stands for a part with that name, which has the same core; then C109 | `c_header` | pqc |
| C113 From a C header file to what is printed | proved | all of it: writer, loader, lookups, cache, programs | composition of C112 with C49, C73, C74 and C111 | `c_printed`, `c_threads`, `c_threads_text` | pqc |
| C114 The BTF of kernel modules | proved | writer for the BTF of modules; loader | a written file has no flaw but string offsets outside the table; with C55 and C64 | `written_accepted_iff`, `written_refused_iff`, `split_accepted_iff`, `split_refused_iff`, `split_refused`, `split_names`, `merged_read`, `merged_keeps` | pqc |
| C115 C types in files of any compiler, and in kernel modules | proved | lookups; writer for modules | C09 and C109; C112 for files read as declared, with C114 | `c_named`, `c_module` | pqc |
| C116 Following pointers as C does | proved | lookups; writer of Spec/Encode.lean | C30 for pointers of C types, along aliases; then induction on the walk, with C109 and C112 at every step | `c_walk`, `c_module_walk`, `c_pointee`, `walk_read`, `walk_unique` | pqc |
| C117 Incomplete types | proved | lookups; writer of Spec/Encode.lean | C29, C30 and the rules of C88 for a record without type; the ids of all parts of the file, and the last one with a name | `c_incomplete` | pqc |
| C118 C types among functions, variables and everything else | proved | lookups; writer of Spec/Encode.lean | as C112, with the ids of all parts of the file, and the last declaration with a name | `c_among` | pqc |
| C119 Following pointers in any program | proved | lookups; writer of Spec/Encode.lean | induction on the walk over the answers of C118; what a path leads to is a part of the type, so its pointers are those of the header | `trail_any`, `c_among_walk`, `leaf_dead` | pqc |
| C120 The same C type in two files | proved | lookups; writer of Spec/Encode.lean | both files answer as C says (C115, C118), and the answers of C determine sizes and offsets | `c_same`, `c_same_programs`, `same_answers` | pqc |
| C121 The layout of structs | proved | lookups; writer of Spec/Encode.lean | the compiled types are Proper (C118), and what reach finds in them is what the rules say; induction on the type | `c_layout`, `c_layout_printed`, `c_layout_threads`, `answers_laidOut`, `offset_facts`, `member_start`, `bitfield_start` | pqc |
| C122 Structs that grow | proved | lookups; writer of Spec/Encode.lean | what a path reaches in a list of members it reaches in every longer list; then C121 in both files | `c_grow`, `c_grow_size`, `append_offset` | pqc |
| C123 Types without pointers | proved | lookups; writer of Spec/Encode.lean | the rules of C121 use the size of pointers only for pointers; induction on the type; then C121 in both files | `c_portable`, `not_portable`, `size_portable`, `offset_portable` | pqc |
| C124 Structs that begin alike | proved | lookups; writer of Spec/Encode.lean | the place of a member is found from those before it, and the first one is at 0; then C121 in both files | `c_common`, `c_base`, `c_base_unnamed`, `same_place` | pqc |
| C125 Members are in the order of the source | proved | lookups; writer of Spec/Encode.lean | what is found in the first members ends before the place where the others are put (C121), and these begin behind it; induction on the members | `c_ordered`, `append_earlier`, `append_later`, `place_le` | pqc |

## What is missing from the partial ones

* **C02** False as stated: an array as last record may take its body from beyond the type section, and 64-bit enumerators of big-endian files have their words exchanged (both refuted by a concrete accepted file). Proved for every file without these two, and for every file in the crate's dialect (new_sound, C64).
* **C03** Every documented file with vlen 0 in arrays and without 64-bit enumerations in big-endian files; without these conditions the claim is false. new_complete: every file of the crate's dialect.
* **C04** False for 64-bit enumerations (byte_order_refuted). See C66 for the exact statement.
* **C18** False for an array that is the last record: its 12-byte body may lie after the section.
* **C20** False: a 24-byte file makes a 32-bit debug build panic, and there is a 4 GiB file on which a 32-bit release build never returns. Proved when the sections end before the last MiB of the address space. See C90 for the exact condition for sources below 4 GiB - 1 MiB.
* **C24** False for a dangling '.' or '['; exact on all other strings. See C63.
* **C28** False: the release build wraps, the debug build panics (see C58).
* **C31** False: a typedef of itself is accepted by new and makes both recurse for ever. See C57 for the exact condition.
* **C32** False for types that depend on themselves; proved for all others. See C89 for the exact condition.
* **C37** Full with overflow checks (offset_of_sound). Without, proved if no type is larger than usize can express; false otherwise (offset_of_sound_refuted).
* **C41** False: see C60 for the exact behaviour. The parts that hold: unnamed bitfields do not hide what is inside of unnamed members before them (unnamed_bitfield_partial), and unnamed members that are not bitfields do not hide named ones (lookup_named).
* **C47** True for size_of, false for pointee_tid and offset_of. See C61.
* **C50** One trailing '.' or '[' is ignored by the crate.

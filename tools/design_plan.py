PLAN = {
'C01': ('`TypeInformation.new`, 64-bit', 'inv: offsets stay below 2^33, 12 bytes of progress per record, fuel suffices'),
'C02': ('`new` on a served file', 'ref, soundness direction; neg'),
'C03': ('same', 'ref, completeness direction'),
'C04': ('same', 'neg (64-bit enumerators); ref in both byte orders'),
'C05': ('`FileHeader.new`', 'case analysis; inv for the byte order'),
'C06': ('`new`', 'inv over the record loop'),
'C07': ('`new`', 'inv: 12·n ≤ type_len'),
'C08': ('`new`, `nameOf`', 'inv over inserts'),
'C09': ('`new`, `idOf`', 'inv over inserts'),
'C10': ('`parseString`', 'ref against the C string at an offset'),
'C11': ('ghost trace', 'inv'),
'C12': ('two served files', 'relational inv (same requests, same answers)'),
'C13': ('`Header.new`, `parseLoop`', 'ref with the flaws of `Spec/Flaws`'),
'C14': ('`Kind.new`, `Header.new`', 'bit arithmetic against div/mod'),
'C15': ('ghost trace with results', 'inv'),
'C16': ('`memberOffset`, `Member.parse`', 'bit arithmetic against div/mod'),
'C17': ('`IntData.new`, `EnumData.new`, `Enum64Data.new`', 'bit arithmetic against div/mod, two\'s complement'),
'C18': ('`checkBounds`, `ArrayData.new`', 'neg (array with vlen 0 overruns); ref for other kinds'),
'C19': ('`new` in two builds', 'compositional simulation'),
'C20': ('`new` with 32-bit `usize`', 'neg; inv under a bound on the sections'),
'C21': ('`new`', 'relational inv: two runs on the two files proceed in step; only the second word of a record is read differently'),
'C22': ('`Offset.addU32`, `Offset.add`', 'arithmetic'),
'C23': ('same', 'induction over lists'),
'C24': ('`PathIter`', 'rel: iterator ↔ grammar; neg: trailing `.`/`[`'),
'C25': ('`strSlice`, `PathIter.next`', 'UTF-8 boundary invariant'),
'C26': ('`parseUsize`', 'induction over digits'),
'C27': ('`sizeOf`', 'rel, both directions'),
'C28': ('`sizeOf`', 'neg'),
'C29': ('`sizeOf`', 'rel, both directions'),
'C30': ('`pointeeTid`', 'rel, both directions'),
'C31': ('fuel semantics', 'neg (cycles diverge); iff'),
'C32': ('fuel semantics', 'neg; induction over a rank'),
'C33': ('`offsetOf`', 'computation'),
'C34': ('`offsetOf`, `resolve`', 'induction over the chain'),
'C35': ('`stepIndex`', 'arithmetic'),
'C36': ('`resolve`', 'induction over the chain'),
'C37': ('`offsetOf`', 'rel to `Spec/Access`, induction over fuel; neg for release'),
'C38': ('`offsetOf`', 'rel to `Spec/Access`, induction over rank and path'),
'C39': ('`offsetOf`', 'from C37, C38'),
'C40': ('`probeAnonymous`, `offsetOfImpl`', 'induction over members'),
'C41': ('same', 'neg; induction over members'),
'C42': ('`offsetOf`, `PathIter`', 'composition of accesses, C38'),
'C43': ('`offsetOf`, `sizeOf`', 'induction over accesses'),
'C44': ('`stepIndex`', 'arithmetic from C35'),
'C45': ('`Offset.add`, `offsetOf`', 'induction over accesses'),
'C46': ('`stepIndex`, `memberListOf`', 'induction over the chain'),
'C47': ('`sizeOf`, `pointeeTid`, `offsetOf`', 'neg; rel'),
'C48': ('`offsetOf`', 'induction over fuel'),
'C49': ('transition system of `Model/Cache`', 'inv over all schedules'),
'C50': ('`PathIter`', 'rel: iterator ↔ grammar; neg'),
'C51': ('`new`', 'inv over the record loop'),
'C52': ('`new`', 'inv'),
'C53': ('`ReadableBuffer.read`', 'case analysis'),
'C54': ('transition system of `Model/Cache`', 'inv over all schedules'),
'C55': ('`new` on a served file', 'ref with `Spec/Flaws`'),
'C56': ('fuel semantics', 'pigeonhole on chains; rank for `offset_of`'),
'C57': ('fuel semantics', 'pigeonhole on chains'),
'C58': ('`sizeOf`', 'rel, modular arithmetic'),
'C59': ('`new` on served files', 'ref'),
'C60': ('`probeAnonymous`', 'from the characterisation of C88: cases on where the first unnamed bitfield is among the members'),
'C61': ('`sizeOf`, `pointeeTid`, `resolve`', 'induction over the chain'),
'C62': ('`offsetOf`, `sizeOf`', 'induction over fuel'),
'C63': ('`PathIter`', 'rel: iterator ↔ grammar'),
'C64': ('`new` on a served file', 'ref, both directions'),
'C65': ('fuel semantics', 'monotonicity in fuel'),
'C66': ('`new` on two served files', 'relational inv'),
'C67': ('`sizeOf`, `offsetOf` in two builds', 'relational induction over fuel'),
'C68': ('`sizeOf`, `offsetOf` for two targets', 'relational induction over fuel'),
'C69': ('`sizeOf`, `pointeeTid`, `offsetOf` on two graphs', 'relational induction over fuel'),
'C70': ('`sizeOf`, `offsetOf` on two graphs', 'C69 with the identity renaming'),
'C71': ('`dumpBtf`, `getTypeSize`, `getTypeOffset` on any `Os`', 'case analysis'),
'C72': ('`dumpBtf` on a file with known contents', 'C02, C03, C59'),
'C73': ('`getTypeSize`', 'case analysis; C02, C03, C27'),
'C74': ('`getTypeOffset`', 'case analysis; C02, C37'),
'C75': ('`readableFile`, `new`', 'C15, C52'),
'C76': ('`new`, `from_id`, `name_of`', 'C02 for the file of `Spec.encode`; every name is found in the string table; every record has the words the grammar wants'),
'C77': ('`new`, `ReadableBuffer`', 'all programs over the reader primitives do the same with a source that answers the same; no request failed'),
'C78': ('`new`', 'simulation of the 32-bit run by the 64-bit run, for all programs over the reader primitives'),
'C79': ('`offset_of`', 'C39, and accesses compose and split'),
'C80': ('`new`, `offset_of`, `size_of`, `pointee_tid`, `id_of`', 'C76, then one step of each query'),
'C81': ('`offset_of`, with a counter', 'induction on the depth of the recursion; the files are written with C76'),
'C82': ('the queries again, with the place where an error is made (`Model/Message.lean`)', 'erasure of the reasons gives the old model; induction on the recursion; the iterator keeps track of the text read'),
'C83': ('`offset_of`, `size_of`', 'C43 (containment) at the point where the accesses part; induction on unnamed members'),
'C84': ('every read of `new` (trace of requests)', 'cost logic over the program syntax; requests per record are bounded by its words times string section; exact count by induction over the records'),
'C85': ('all of `new`, with the texts', 'each place that makes an error is a `LoadReason`; `newT_any`/`newT_file` give the reasons, the table gives the texts; hexadecimal by comparison with `Nat.toDigits`'),
'C86': ('all of `new`', 'a logic in which each parser step comes with the list of its needs: all met, or it fails for the first unmet one; uniqueness of the first flaw by induction over the records'),
'C87': ('the derived `Debug`s of everything reachable from `TypeVariant`, `println!` in the examples', 'a logic of printers: followed by a stop byte, equal texts have equal values and equal rests; structural induction over fields, lists, names; text equality with the interpolated strings by a simproc that turns literals into bytes'),
'C88': ('`offset_of_impl` on all graphs, `Offset` addition, the path iterator', 'both directions by induction: over the rules for what the code returns, over the recursion bound for the converse'),
'C89': ('fuel semantics', 'lookups with the ends of a path are finitely many; a relation without circles on a finite set is well-founded; a measure on circles'),
'C90': ('the reader, the header and the record parser, with the width of usize and overflow checks as parameters', 'the run of a 32-bit build is compared with that of a 64-bit build, step by step: while requests are answered, offsets are below the size of the source'),
'C91': ('offset_of with the messages of its errors, and the path iterator', 'the run of the iterator is decomposed into the components before the flaw and the piece after them; then by induction over the components, the reason of an error is the first obstacle, and there is at most one'),
'C92': ('new with a source whose answers depend on the history', 'induction over the program: each request that is not for a name begins where the last one ended; locality of programs (same answers, same result); for changing names a simulation with a file whose string section is full of zeros'),
'C93': ('new with any source', 'induction over the loop: each record starts where the last one ended; the size of a record from the reported type; the bound on the characters from the exact number of requests (C84)'),
'C94': ('new on two files', 'soundness (C02) gives the records; for each kind, the words of a record match the cells of the type iff the record is there (Proofs/Keep); completeness (C03) for the other direction'),
'C95': ('offset_of with the cache, Moves', 'a second invariant (what was answered is cached unless poisoned); a measure on the position inside the call; finitely many threads are inside calls, so guards can be given up one after the other'),
'C96': ('Reader, parse_string on an arbitrary reader', 'the buffer of a read is the delivered bytes; integers by decodeNat_eq; the string loop by induction on the fuel'),
'C97': ('TypePathComponentIter', 'fused: both end states are kept by next; end: every component consumes at least one byte'),
'C98': ('Offset: derived equality, both additions', 'from the exact characterisation of addition (C22)'),
'C99': ('Reader::read and all parsers', 'a partial-correctness triple with the list of needs and the trace, parser by parser; the list is a function of the file'),
'C100': ('the whole constructor and all queries', 'the words of the records (C94) are found at the new place; the reading of the longer section starts with them; locality (C70)'),
'C101': ('the whole constructor', 'the triple of C99 extended by the failing case: the requests for the needs up to the first one that is not met'),
'C102': ('offset_of, size_of, pointee_tid', 'a simulation between the two graphs, by induction over the recursion depth'),
'C103': ('the path syntax and the decoding of names', 'the two encodings of one byte compared for all 256 bytes, then induction over the name; invisibility from C102'),
'C104': ('offset_of and size_of on nested arrays', 'induction over the dimensions with the rules of C88'),
'C105': ('offset_of on two type graphs', 'the C accesses of both graphs are the same (induction over accesses), well-formedness is preserved; then C38, C39'),
'C106': ('new on two files, then all queries', 'record by record, the other file contains the same type up to offsets; conversely a record matches its own slots, which do not depend on the offsets; the queries by C69 with the identity as renumbering'),
'C107': ('the transition system of the cache', 'induction over the steps with the list of keys; for the growth a run of one thread with any list of different keys'),
'C108': ('paths, lookups and the writer of files', 'C88 for the first part; a file with one type for each component, in which the other path fails at the first difference, for the converse'),
'C109': ('lookups on the type graph, and the writer of files', 'C types as trees; mutual induction on types and members, with the search and size relations of C54 and C06; the file by C76 and C81'),
'C110': ('lookups on the type graph', 'mutual induction on types and members: the list agrees with reach of C109, names that occur once make the parts of it disjoint; then C109 and C108'),
'C111': ('Model/Complaint.lean', 'case analysis of the programs, with the reasons of C82, C86 and C91; texts by the injectivity of debugStruct from C87'),
'C112': ('writer of Spec/Encode.lean, loader and lookups', 'the declarations of a list of types correspond to its parts, by mutual induction; the last declaration with a name (C80) stands for a part with that name, which has the same core; then C109'),
'C113': ('all of it: writer, loader, lookups, cache, programs', 'composition of C112 with C49, C73, C74 and C111'),
'C114': ('writer for the BTF of modules; loader', 'a written file has no flaw but string offsets outside the table; with C55 and C64'),
'C115': ('lookups; writer for modules', 'C09 and C109; C112 for files read as declared, with C114'),
'C116': ('lookups; writer of Spec/Encode.lean', 'C30 for pointers of C types, along aliases; then induction on the walk, with C109 and C112 at every step'),
'C117': ('lookups; writer of Spec/Encode.lean', 'C29, C30 and the rules of C88 for a record without type; the ids of all parts of the file, and the last one with a name'),
'C118': ('lookups; writer of Spec/Encode.lean', 'as C112, with the ids of all parts of the file, and the last declaration with a name'),
'C119': ('lookups; writer of Spec/Encode.lean', 'induction on the walk over the answers of C118; what a path leads to is a part of the type, so its pointers are those of the header'),
'C120': ('lookups; writer of Spec/Encode.lean', 'both files answer as C says (C115, C118), and the answers of C determine sizes and offsets'),
'C121': ('lookups; writer of Spec/Encode.lean', 'the compiled types are Proper (C118), and what reach finds in them is what the rules say; induction on the type'),
'C122': ('lookups; writer of Spec/Encode.lean', 'what a path reaches in a list of members it reaches in every longer list; then C121 in both files'),
'C123': ('lookups; writer of Spec/Encode.lean', 'the rules of C121 use the size of pointers only for pointers; induction on the type; then C121 in both files'),
'C124': ('lookups; writer of Spec/Encode.lean', 'the place of a member is found from those before it, and the first one is at 0; then C121 in both files'),
'C125': ('lookups; writer of Spec/Encode.lean', 'what is found in the first members ends before the place where the others are put (C121), and these begin behind it; induction on the members'),
}

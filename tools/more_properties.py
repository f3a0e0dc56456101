p("Reported types agree with their own headers",
  "Every type reported by get()/from_id has the variant its header's kind names; member/value/parameter/variable lists have exactly vlen entries; size and tid accessors equal the header's size_or_type word; a name is None exactly when its string offset is 0.",
  "every Readable (also one that answers inconsistently) on which new succeeds, every id",
  "Twenty kinds, up to 65535 items each, and adversarial sources.",
  [TI+"::TypeInformation::new","src/btf/define_type.rs","src/btf/header.rs"])
p("new fails only with documented kinds",
  "An error of new is either the error of its last read request or one of InvalidMagic, InvalidTypeSectionOffset, InvalidBTFKind, InvalidStringOffset, InvalidString, InvalidOffset.",
  "every Readable",
  "All failing executions.",
  [TI+"::TypeInformation::new","src/btf/error.rs::ErrorKind"])
p("ReadableBuffer serves exactly its bytes",
  "On a 64-bit target a ReadableBuffer answers a request inside the buffer with exactly those bytes, a request that starts at the end with EOF and any other request with InvalidOffset; on a 32-bit target it does so for the offset modulo 2^32. It never panics and has no other error, on any target.",
  "every buffer, offset and length",
  "2^64 offsets times all lengths including the overflow of offset+len. (The type exists in the crate's test build only.)",
  ["src/utils/readable_buffer.rs::ReadableBuffer"])
p("The cache is robust",
  "With the caching feature: the cache holds only successful answers of calls that were made; the lock is poisoned exactly by a panic inside the map insertion, never by a panic of the lookup, and from then on no thread holds the lock, the entries of the cache stay as they are and no other insertion panics; a thread inside offset_of can always take a step or waits for a thread that is about to release the lock (no deadlock); writers are exclusive.",
  "every number of threads, every schedule, every panic point",
  "All interleavings and panic points.",
  [TI+"::TypeInformation::offset_of",TI+"::offset_cache"])
p("new rejects exactly the flawed files and names a flaw",
  "For a Readable serving a fixed file, new fails iff the header or the first undecodable record has a flaw, and the error kind is that of one of its flaws (the only one, if there is only one kind).",
  "every file content",
  "All malformed files, with any number of good records before the flaw.",
  [TI+"::TypeInformation::new","src/btf/header.rs::Header::new","src/btf/string.rs::parse_string","src/btf/struct_union.rs::Data::new"])
p("Recursion depth is bounded by the number of types",
  "On a parsed file with N types, a size_of or pointee_tid call that returns has recursed at most N+1 deep; offset_of on a file in which no type depends on itself needs at most (N+2)*(L+1) nested calls for a path of L bytes.",
  "every parsed file, id and path",
  "Stack use for all graphs.",
  [TI+"::TypeInformation::size_of",TI+"::TypeInformation::pointee_tid",TI+"::TypeInformation::offset_of_impl"])
p("size_of and pointee_tid run for ever exactly on reference cycles",
  "On a parsed file, size_of(t) (pointee_tid(t)) fails to return iff following the references it uses from t reaches a type that refers back to itself.",
  "every parsed file and id",
  "Divergence over all graphs.",
  [TI+"::TypeInformation::size_of",TI+"::TypeInformation::pointee_tid"])
p("What size_of does when an array does not fit in usize",
  "With n the exact size of t: a build without overflow checks answers n modulo 2^width, a build with overflow checks answers n or panics (exactly when an array on the way does not fit).",
  "every parsed file, id, width and build mode",
  "Needs astronomically large arrays in four build configurations.",
  [TI+"::TypeInformation::size_of"])
p("The content determines the result",
  "Two Readables that serve files with the same types give the same TypeInformation, whatever the builds, layouts and byte orders; a file has at most one content.",
  "every pair of files, sources and build configurations",
  "A two-run property.",
  [TI+"::TypeInformation::new"])
p("What an unnamed bitfield does to lookups by name",
  "In a struct or union with an unnamed bitfield, a lookup by name has the answer of the first unnamed member before the first unnamed bitfield in which it does not fail; if there is none, it fails with UnexpectedBitfield. The members with names do not matter: if the first unnamed member is a bitfield, every lookup by name in it fails.",
  "every struct or union and path",
  "All member lists and paths.",
  [TI+"::TypeInformation::offset_of_impl"])
p("What type tags do",
  "size_of looks through type tags (as through typedefs, qualifiers and variables); pointee_tid and offset_of with a non-empty path fail with InvalidTypeID and InvalidTypePath when aliases lead to a type tag.",
  "every type graph with type tags",
  "All graphs.",
  [TI+"::TypeInformation::size_of",TI+"::TypeInformation::pointee_tid",TI+"::TypeInformation::offset_of_impl"])
p("offset_of panics only where size_of does",
  "offset_of can panic only in a build with overflow checks and only if size_of panics on some type of the file; in particular no path string makes it panic.",
  "every type graph, id and path",
  "All executions.",
  [TI+"::TypeInformation::offset_of_impl"])
p("The language of paths that offset_of accepts",
  "Iterating over a path yields components cs without error iff the path is the documented syntax for cs, possibly followed by one '.' (after a component) or one '[' (after a name); every other path ends in an error, and offset_of never answers on it.",
  "every path string",
  "All strings.",
  [TI+"::TypePathComponentIter",TI+"::TypeInformation::offset_of_impl"])
p("Exactly which files are accepted",
  "new succeeds iff the file decodes in the crate's dialect of BTF, which is the documented format except that the body of an array is not required to lie in the type section (12*vlen bytes are) and that a 64-bit enumerator is one 8-byte integer; the result is that decoding.",
  "every file content",
  "All files.",
  [TI+"::TypeInformation::new","src/btf/array.rs::Data::size","src/btf/enum64.rs::Data::new"])
p("offset_of is a function",
  "Repeating offset_of with the same arguments gives the same outcome.",
  "every type graph, id and path",
  "All inputs.",
  [TI+"::TypeInformation::offset_of_impl"])
p("Which files read the same in both byte orders",
  "The same words written little-endian and big-endian give the same answer of new, errors included, unless new asks for 8 bytes at once (64-bit enumerators) or for a word after the type section.",
  "every content, every version and flags byte",
  "Two-run property over all contents.",
  ["src/utils/reader.rs::Reader::u32",TI+"::TypeInformation::new"])
p("Builds with and without overflow checks agree",
  "For the same target, every size, location and error that size_of and offset_of report with overflow checks they also report without; where the unchecked build answers, the checked build gives the same answer or panics.",
  "every type graph, id and path",
  "Two-run property over all graphs and paths.",
  [TI+"::TypeInformation::size_of",TI+"::TypeInformation::offset_of"])
p("32-bit and 64-bit targets agree",
  "With overflow checks, size_of and offset_of on a 32-bit target find what they find on a 64-bit target, or panic.",
  "every type graph, id and path",
  "Two-run property over all graphs and paths.",
  [TI+"::TypeInformation::size_of",TI+"::TypeInformation::offset_of"])
p("Answers do not depend on how types are numbered",
  "If one file's types are another's with the ids replaced consistently (renumbered or with equal types merged, as deduplication does), size_of gives the same answers, and pointee_tid and offset_of the same answers with the ids replaced, errors and non-termination included.",
  "every pair of type graphs related by a renaming, every id and path",
  "Two-run property over all graphs and renamings.",
  [TI+"::TypeInformation::size_of",TI+"::TypeInformation::pointee_tid",TI+"::TypeInformation::offset_of"])
p("Queries depend only on the types involved",
  "size_of(t) and offset_of(t, path) depend only on the types that an object of type t contains (through aliases, members and elements), and on the pointer size; other types, including what pointers point to, have no effect.",
  "every pair of type graphs that agree on those types",
  "Two-run property over all graphs.",
  [TI+"::TypeInformation::size_of",TI+"::TypeInformation::offset_of"])
EX=["examples/dump-btf.rs::main","examples/get-type-size.rs::main","examples/get-type-offset.rs::main"]
p("The example programs do not fail silently",
  "With the wrong number of arguments the example programs print their usage and touch no file; otherwise they print an answer and return, or panic without printing one.",
  "every argument list and every behaviour of the file system",
  "All environments.", EX)
p("dump-btf prints the types of the file",
  "On a readable file dump-btf prints exactly the types of the file, numbered 1, 2, … in file order, if the file is accepted, and panics otherwise.",
  "every file content",
  "All files.", EX[:1])
p("get-type-size prints the size of the named type",
  "get-type-size prints an id and a size iff the file can be opened and is accepted, the id is that of the last type with this name, and the size is its size.",
  "every file system behaviour, file content and name",
  "All files and names.", EX[1:2])
p("get-type-offset prints where the path leads",
  "get-type-offset prints a type and an offset iff the file is accepted, the name is known and offset_of answers so; the answer is a C access denoted by the path in the last type with this name.",
  "every file system behaviour, file content, name and path",
  "All files, names and paths.", EX[2:])
p("I/O failures of files are reported as IOError",
  "TypeInformation::new on a ReadableFile fails with IOError iff a read of the file failed, whatever the cause; the message is then the text of the operating system's error for the last request, the only one that failed. The other errors are the six of C52.",
  "every behaviour of the file",
  "All failure points.",
  ["src/btf/error.rs::From<io::Error>","examples/dump-btf.rs::ReadableFile"])
p("What a compiler writes is read back",
  "Every list of type declarations (integers, pointers, arrays, structs with bitfields, enumerations with values, functions, ...) that is written to a BTF file by a straightforward writer is accepted by new, and type i+1 reports exactly the name, size, members, positions, widths, values and ids of declaration i; no other types exist. In big-endian files this excludes 64-bit enumerations.",
  "every list of declarations whose numbers fit their fields and whose file is below 4 GiB, both byte orders",
  "All lists of declarations, all names and numbers.",
  [TI+"::TypeInformation::new",TI+"::TypeInformation::from_id",TI+"::TypeInformation::name_of"])
p("An incomplete file is never misread",
  "If a BTF file is cut off at any point, new on the rest gives what it gives on the whole file, or fails with EOF or InvalidOffset. So if an incomplete file is accepted, the types are those of the whole file.",
  "every file content and every point where it is cut off; every source and every source that can read more",
  "All files and all truncation points.",
  [TI+"::TypeInformation::new","src/utils/readable_buffer.rs::ReadableBuffer::read"])
p("32-bit builds parse like 64-bit builds, or panic",
  "On a 32-bit target with overflow checks new returns the same types or the same error, after the same read requests, as on a 64-bit target, or it panics.",
  "every source",
  "Two-run property over all sources.",
  [TI+"::TypeInformation::new","src/utils/reader.rs::Reader::read"])
p("Paths can be taken apart",
  "offset_of(t, p.q) succeeds iff offset_of(t, p) leads to an object of some type u that is not a bitfield and offset_of(u, q) succeeds (and the sum of the two offsets can be represented); the type is that of the second answer and the offsets add up. Every beginning of a path that succeeds succeeds; what may follow an object depends only on its type.",
  "every well-formed type graph with unambiguous member names, every pair of paths",
  "All graphs and paths.",
  [TI+"::TypeInformation::offset_of"])
p("Declared types are found as declared",
  "After the declarations of a compiler are written to a BTF file and read by new: offset_of finds every member of a struct or union without unnamed members at the declared bit position with the declared width and type; size_of answers the declared size; pointee_tid the declared pointee; id_of the last declaration with the name. For any parsed graph: a member name in a struct without unnamed members denotes exactly the first member with that name.",
  "every list of declarations, every member, both byte orders, every build",
  "End-to-end over all declarations.",
  [TI+"::TypeInformation::new",TI+"::TypeInformation::offset_of",TI+"::TypeInformation::size_of",TI+"::TypeInformation::pointee_tid",TI+"::TypeInformation::id_of"])
p("How long a lookup takes",
  "A lookup examines at most W components for every component of the path, and one more, if the names inside unnamed members differ from the other names (as C requires) and no type consists of more than W structs and unions (itself and its unnamed members); one for each component, and one more, where all members have names (exactly so many if the lookup succeeds). Without the condition on names this fails: files of 38+39n bytes that new accepts make offset_of examine 2^(n+1)-1 components for a one-letter path that is not found, and files of 78+39n bytes 2^(n+1)+1 components for one that is found.",
  "every type graph and path; every n up to 10^8",
  "A bound for all graphs and paths; the worst case never terminates in practice.",
  [TI+"::TypeInformation::offset_of"])
p("Error messages are true",
  "The message of an error tells what is wrong. For offset_of: the components of the path before the one concerned lead to a type, and to that type the next component cannot be applied for the reason given (index out of bounds, not indexable, a pointer, not a struct, no such direct member, no size, overflow, bitfield, unknown id); or the text of the path is wrong for the reason given: 'Invalid character at index i' names the first byte that cannot follow what precedes it, 'Unclosed index bracket', 'Empty index' and 'Invalid index value' are about brackets that are unclosed, empty, or too large for usize. For size_of and pointee_tid a reason is given iff it holds. Kind and message belong together, and different reasons have different messages. Two messages (\"Expected name after '.'\", InvalidDigit) are never given. ('Member n not found' does not exclude a member n inside an unnamed member.)",
  "every type graph, every path string, every id, every build",
  "All graphs and strings; tests check the kind of a few errors.",
  [TI+"::TypeInformation::offset_of",TI+"::TypeInformation::size_of",TI+"::TypeInformation::pointee_tid","src/btf/offset.rs","src/btf/error.rs"])
p("Different members occupy different bits",
  "In type graphs as C compilers produce them (well-formed, names unambiguous, members of one struct do not overlap), the objects found by two paths from the same type are nested if one path is the beginning of the other, and otherwise occupy disjoint ranges of bits, unless the two paths part at two members of one union (the object itself or an unnamed union inside it).",
  "every such type graph, every two paths of any length and nesting, every build",
  "All pairs of paths in all graphs; a wrong member base or element stride would show only for particular shapes.",
  [TI+"::TypeInformation::offset_of",TI+"::TypeInformation::offset_of_impl","src/btf/offset.rs::Offset::add"])
p("How many reads new makes",
  "Whatever the source answers, new makes at most 8 + (type_len + 12)(str_len + 1)/4 read requests, where the lengths are those of the header the source delivered (at most 8 requests if it delivers none). If new succeeds, the number of requests is exactly determined by the types it reports: each name costs one request per character and one for the terminator each time it is referred to. The bound is of the right order: files of 26 + 12k + l bytes take 8 + k(l + 4) requests.",
  "every source (pure, failing anywhere, answering anything), every build in which addresses fit; the lower bound for all k and l",
  "The number of requests is bounded only by reasoning about all executions, including failing ones; the worst case is a file of any size.",
  [TI+"::TypeInformation::new","src/utils/file_reader.rs::FileReader","src/btf/string.rs::parse_string"])
p("What the errors of new say",
  "An error returned by new is either the error with which the last read request failed, unchanged (kind and text), or made by the crate: then its kind and text are those of a fixed table, the values in the text (magic, kind number, place of the string; upper-case hexadecimal with leading zeros) are those in the file, and the file has the flaw the text tells of. Different flaws have different texts. (The texts about strings give the place in the file, not the offset stored in the record.)",
  "every file, every source that serves it (and, without the flaw, every source whatever it answers), every build in which addresses fit",
  "Tests see the text of a few errors; that no file gives another text, or a text about something that is not wrong with it, is a statement about all files.",
  [TI+"::TypeInformation::new","src/btf/error.rs::Error","src/btf/string.rs::parse_string","src/btf/kind.rs::Kind::new","src/btf/file_header.rs::FileHeader::new"])
p("The first flaw is reported",
  "If a file has several flaws, new reports the first one in a fixed order: the fields of the header and the place of the type section, then record by record: room for the header, its words (the kind before the third word), room for the body, the items in order (a member: its words, its name, its position; an enumerator: name offset, name, value), and the name of the record last. For sources whose error does not depend on earlier requests, such as a buffer, the error is thereby determined by the file: new fails with an error exactly if the first flaw calls for it.",
  "every file, every source that serves it, every build in which addresses fit",
  "The order matters only for files with several flaws, of which there are unboundedly many combinations.",
  [TI+"::TypeInformation::new","src/btf/header.rs::Header::new","src/btf/define_type.rs","src/btf/struct_union.rs","src/btf/string.rs::parse_string"])
p("The printed text determines the result",
  "Every type and the map of all types are printed (Debug) in one fixed way: names in quotes with escapes, absent names as None, lists in order with commas, numbers in decimal, all fields by name. The text determines what was printed: different types, offsets and maps are printed differently, whatever bytes the names are made of; two files whose dumps are alike give the same answers to everything; the text that a type has no size tells which type. The whole output of dump-btf is thereby determined by the file, and the answers of get-type-size and get-type-offset can be read off from their output.",
  "every type, list of types and file (every name, including quotes, backslashes, control characters, commas and braces in names), every source that serves the file",
  "Whether a name can imitate the rest of the text, or two different results print alike, is a question about all names and all lists of types.",
  ["examples/dump-btf.rs::main","examples/get-type-size.rs::main","examples/get-type-offset.rs::main",TI+"::TypeVariant",TI+"::TypeInformation::size_of","src/btf/define_type.rs","src/btf/offset.rs::Offset"])
p("What offset_of answers, on every type graph",
  "For every type graph, also those no compiler writes, and for every text, offset_of returns exactly what a small set of rules says: typedefs, qualifiers and forward declarations are followed; an index applies to arrays only, below the element count, with the element size that size_of gives; a name is first looked for in the unnamed members in order, and the first of them in which the lookup does not fail decides; an unnamed member whose offset does not fit, or that is a bitfield, ends the lookup with an error; else the first member with the name is taken. Offsets add up exactly or are an error. If the text is not a path, what precedes the first thing that is wrong is looked up, and the error of that is reported if it has one. The rules determine the answer, and every text is a path or has a unique place where it breaks off.",
  "every type graph (cyclic, dangling, with duplicate names, overlapping members and bitfields), id, text and build",
  "Tests compare answers on graphs that compilers write; the rules have to hold in all combinations of errors, panics, unnamed members and offsets.",
  [TI+"::TypeInformation::offset_of",TI+"::TypeInformation::offset_of_impl",TI+"::TypePathComponentIter","src/btf/offset.rs::Offset"])
p("Exactly when offset_of never returns",
  "offset_of runs for ever (until the stack is exhausted) on an id and a text exactly if its rules lead to a lookup that asks about a type that is an alias of itself, or about an element of an array whose size depends on itself, or to a lookup that leads back to itself. The last happens only in a struct or union that begins with itself, through unnamed members at offset 0. So offset_of returns for every id and text of every graph without these three circles, even if a struct contains an unnamed member of its own type further inside.",
  "every type graph, id, text and build",
  "Running for ever cannot be observed by a test, and that nothing else runs for ever is a statement about all graphs.",
  [TI+"::TypeInformation::offset_of",TI+"::TypeInformation::offset_of_impl",TI+"::TypeInformation::size_of"])
p("32-bit builds and files below 4 GiB",
  "For every source without bytes from 4 GiB - 1 MiB on, whatever it answers below that, a 32-bit build makes the same requests and returns the same as a 64-bit build, with one exception: the header announces a type section that is not empty and lies in the last 12 bytes of the address space. Then a 64-bit build reports that the section is too small for a record, a 32-bit build with overflow checks panics, and one without overflow checks asks for the first word of the record and returns the error of the source. So such a source never makes a 32-bit release build panic or hang, a 32-bit debug build panics exactly in the exceptional case, and both return the types that the file describes.",
  "every source shorter than 4 GiB - 1 MiB (also one that changes its answers or fails at times), every file of that size, debug and release builds",
  "Tests run on the 64-bit machine of the developer; that no sequence of offsets and lengths overflows 32 bits, except one, is a statement about all headers and records.",
  [TI+"::TypeInformation::new","src/utils/reader.rs::Reader","src/btf/file_header.rs::FileHeader::new"])
p("Which error offset_of reports",
  "When offset_of returns an error, its reason (which determines kind and message) is that of the first obstacle on the way: the lookup goes through the components of the path from left to right, and at each object it reports the first unnamed member whose offset cannot be added to that of the object, or else why the component cannot be applied there, or goes on to the element or to the first member with the name. The tail of a text that is not a path counts only after all components before it have been applied; what is wrong with such a tail is determined too: the first character that no path can have there, an index that is not closed, empty, or too large. There is only one first obstacle, and what happens inside unnamed members never shows in the message. If no struct or union has an unnamed member, there is an error exactly if there is an obstacle.",
  "every type graph, type, string, and build",
  "Tests check a handful of messages, each with one thing wrong; which of several errors is reported, for every text and every graph, needs a proof.",
  [TI+"::TypeInformation::offset_of",TI+"::TypeInformation::offset_of_impl",TI+"::TypePathComponentIter","src/btf/offset.rs::Offset"])
p("A source that changes while it is read",
  "Whatever a source answers, new reads header and type section from front to back and asks for no byte twice, except for those of the string section (if the type section does not begin in the header). So a source may change while it is read: if no request fails and the names do not change, the result, also an error, is that for one file, which contains everything that was answered; and if even the names change with every request, and only names are read from the string section, all of a successful result but the names is that for one file. In general, if no answer contradicts another one, the result is that for every file that contains the answers. (If the names do change, two types that refer to the same string may get different names.)",
  "every source (also one whose answers depend on the history of requests), every byte order and every build; on 32-bit targets, sections that can be addressed",
  "Tests use fixed files; that a result is never a mixture of two states of the source, for every way the source may change, needs a proof over all histories.",
  [TI+"::TypeInformation::new","src/btf/readable.rs::Readable","src/utils/reader.rs::Reader",'src/btf/file_header.rs::FileHeader::new','src/btf/string.rs::parse_string'])
p("The reported types fill the type section",
  "Whatever a source answers, if new succeeds, the records of the reported types (12 bytes each, and what their kind and their number of members, values, parameters or variables add) take exactly as many bytes as the header announces for the type section; only if the last type is an array its record may reach up to 12 bytes beyond the end. So no type is skipped or read twice, and the result is limited by the header: at most type_len/12 types, type_len/8 members, values, parameters and variables, and (type_len+12)·(str_len+1)/4 characters in all names together. That is no exaggeration: for all n and m, n types can share a name of m characters in a file of 26+12n+m bytes, and are reported with n·m characters.",
  "every source, every byte order and every build; on 32-bit targets, sections that can be addressed",
  "Tests check single files; that no answer of any source makes new skip bytes, read some twice or build a result out of proportion to the header needs a proof over all sources.",
  [TI+"::TypeInformation::new",TI+"::TypeInformation::get","src/btf/define_type.rs::define_type","src/btf/header.rs::Header::new"])
p("new loses nothing but unused bits",
  "Every word of the type section can be read off the reported types, except for the bits that the format does not use (bits 16-23 and 29-30 of the second word of a record, bits 8-15 and 27-31 of the word of an integer) and the place of the name of an enumerator (the name itself is kept). A second file in the same byte order, with a type section of the same length, gives the same result exactly if its words are the same up to these bits and lead to the same names; so two files that differ in any other bit are told apart.",
  "every pair of files that can be addressed, every kind of type, every build, both byte orders",
  "Tests compare single fields of single files; that no bit of any record of any file is dropped, and no unused one matters, ranges over all pairs of files.",
  [TI+"::TypeInformation::new",TI+"::TypeInformation::get","src/btf/header.rs::Header::new","src/btf/int.rs::Data","src/btf/struct_union.rs::Data","src/btf/enum.rs::Data","src/btf/enum64.rs::Data","src/btf/func_proto.rs::Data","src/btf/data_sec.rs::Data"])
p("The cache saves work, and calls come to an end",
  "With the caching feature, as long as no insertion into the cache has panicked: an answer that offset_of has returned once stays in the cache, unchanged, and a thread looks an answer up itself only if no call with the same arguments had been answered when it made its own. Independently of panics: a thread inside offset_of takes at most four steps before the one that ends the call (not counting the time it waits for the lock), and whatever all threads have done so far, a call whose lookup comes to an end without the cache can still be brought to its end, with the same outcome.",
  "every TypeInformation, every number of threads, every schedule, every panic point",
  "Whether the cache is used at all cannot be seen from the answers, and whether a call can get stuck depends on the schedule of all threads; tests run few schedules.",
  [TI+"::TypeInformation::offset_of"])
p("The reader reads exactly and never loses its place",
  "Reader::u8, u16, u32 and u64 return exactly the number that the bytes delivered by the source contain in the byte order that is set, and i8, i16, i32 and i64 the same number in two's complement; each advances the offset by its size and leaves the byte order alone. If the source refuses, its error is passed on unchanged and the offset does not move. Reading a string leaves byte order and offset as they were, on success and if the source refuses a byte or the string offset is wrong (not if the string has no end; new stops then).",
  "every source, every history of requests, every position (whose end can be addressed) and every byte content",
  "The tests of the module read from three buffers at offset 0; all parsing rests on these functions for every file.",
  ["src/utils/reader.rs::Reader","src/btf/string.rs::parse_string"])
p("Reading a path ends and stays ended",
  "Iterating over the components of a path always comes to an end, after at most as many components as the path has bytes; and once the iterator has ended or reported an error, every further call of next says that there is nothing more, so that an error is reported at most once and nothing is read after it.",
  "every path (any string) and every number of calls of next, also after the end",
  "There are infinitely many paths and the iterator is a state machine; the tests run it over a handful of paths up to the first error.",
  ["src/btf/type_information.rs::TypePathComponentIter::new","src/btf/type_information.rs::TypePathComponentIter::next"])
p("Offsets can be compared and regrouped",
  "Two offsets are equal (==) exactly if they denote the same bit position with the same width, so that an offset has only one representation. Addition of offsets is associative (one grouping has a sum if and only if the other has, and it is the same; only the kind of an error may depend on the grouping), adding zero changes nothing, and the sum determines either operand from the other.",
  "all offsets",
  "There are 2^64 bitfield offsets and 2^32 byte offsets; the tests add ten pairs.",
  ["src/btf/offset.rs::Offset","src/btf/offset.rs::Add"])
p("The exact requests of new",
  "If new succeeds, the requests it has made to the source are exactly those listed for the file, in this order, each once: the eight fields of the header, then for each record its three words, the words of its body and, where the name offset is not zero, the bytes of the name one by one up to the terminator (a name of a member or enumerator right after it is referred to; the name of the record last). So they depend only on the file, not on the source or the build. Whatever the source answers, every request is for 1, 4 or 8 bytes, or for the first 2 bytes.",
  "every file, every source that serves it and every build in which addresses fit; the sizes: every source whatever it answers, every build",
  "Tests count or log requests for a few files at best; who implements Readable has to be prepared for every file.",
  ["src/btf/type_information.rs::TypeInformation::new","src/utils/reader.rs::Reader::read","src/btf/readable.rs::Readable"])
p("Sections can be moved, and types can be added at the end",
  "A file with the same type and string sections at other places gives the same result. If more records are added behind the type section, and more bytes behind the string section, and the result is accepted, then all earlier types keep their ids, their contents and their names; a name leads to the same type as before unless an added type has the same name, and then to the added one; size_of, pointee_tid and offset_of answer the same about every earlier type that involves no id beyond the earlier ones. One exception: if the type involves pointers and a type named list_head is added, the size of pointers changes.",
  "every accepted file, every file with the same sections at any other places and with anything added behind them; every id, name, path and build",
  "Tests use a handful of files with the usual section order; split BTF and concatenation by tools depend on this for every file.",
  ["src/btf/type_information.rs::TypeInformation::new","src/btf/type_information.rs::TypeInformation::size_of","src/btf/type_information.rs::TypeInformation::id_of","src/btf/file_header.rs::FileHeader"])
p("The exact requests for a file that is refused",
  "If new refuses a file, the places it has asked the source for are exactly those listed for the file, in this order: the first two bytes if they are no magic; the fields of the header up to the first one that is missing; the header if the type section ends behind 4 GiB; otherwise the header and then the records as for an accepted file, up to the first word, kind, section end, string or member offset that cannot be decoded, and nothing beyond (of a string that does not end: its bytes one by one up to the end of the section or up to the first byte that is missing). So the places depend only on the file, not on the source or the build; and a file is accepted exactly if it has a list for accepted files, and refused exactly if it has one for refused files.",
  "every file, every source that serves it and every build in which addresses fit",
  "Tests of refused files check the error of a few files; what a hostile file makes the source do has to be known for every file.",
  ["src/btf/type_information.rs::TypeInformation::new","src/utils/reader.rs::Reader::read","src/btf/string.rs::parse_string","src/btf/readable.rs::Readable"])
p("Members can be renamed together with the paths",
  "If members are given other names (unnamed ones stay unnamed) and the names in a path are changed accordingly, offset_of has the same result: the same type and offset, the same error, or no end. Accordingly means: a member has the old name in the path before exactly if it has the new one afterwards. So what members that are not named in the path are called does not matter. size_of and pointee_tid do not depend on the names of members.",
  "every pair of type graphs that differ in names of members only, every id, every pair of texts (paths or not)",
  "A rename of members is a relation between two files and all paths; tests rename one member.",
  ["src/btf/type_information.rs::TypeInformation::offset_of","src/btf/type_information.rs::TypeInformation::size_of","src/btf/type_information.rs::TypeInformation::pointee_tid"])
p("Which members of a file can be named in a path",
  "The name of a member in a file can be written in a path exactly if it is not empty, does not start with a digit and consists of ASCII letters, digits, underscores and 18 of the Latin-1 characters above 127. Such a member, the first with the name in a struct or union without unnamed members, is found by its name. What all other members are called has no influence on offset_of for any text: no text finds them. A name is reported as it is stored only if it is ASCII.",
  "every name (byte string), type graph, id and text",
  "Tests use ASCII identifiers; which of all byte strings work is a statement about two encodings and a grammar.",
  ["src/btf/type_information.rs::TypeInformation::offset_of","src/btf/type_information.rs::TypePathComponentIter","src/btf/string.rs::parse_string"])
p("Arrays of arrays are addressed row by row",
  "On an array of arrays of .. of objects (also through typedefs and qualifiers), [i]..[k] with one index per dimension succeeds exactly if every index is in bounds and the offset fits in 32 bits; the answer is the type of the innermost objects, at the number of the objects before it (row by row, as in C) times their size; otherwise it fails with InvalidTypePath or InvalidOffset, and with InvalidTypePath if the array is not larger than 4 GiB. Different indices in bounds give different objects, all of them are reached, and together they are the whole array.",
  "every type graph, number and sizes of dimensions, indices and build",
  "Tests check one or two dimensions with small sizes; the bounds of every dimension and all overflows of intermediate offsets need induction over the dimensions.",
  ["src/btf/type_information.rs::TypeInformation::offset_of","src/btf/type_information.rs::TypeInformation::size_of"])
p("The order and the grouping of members do not matter",
  "On a well-formed type graph with distinct member names (as in C39), if the members of structs and unions are listed in another order, and unnamed structs and unions are replaced by their members at their places, then offset_of succeeds for the same ids and paths with the same types and offsets, and fails for the same ones. size_of and pointee_tid are the same on every type graph. With two members of the same name the order does matter: the first is found.",
  "every pair of such type graphs, any number of reordered and opened structs, every id and text, every build",
  "A relation between two files for all paths: moving members into or out of unnamed structs is a change programmers make without expecting any effect on lookups; tests have a few fixed structs.",
  ["src/btf/type_information.rs::TypeInformation::offset_of","src/btf/type_information.rs::TypeInformation::size_of","src/btf/type_information.rs::TypeInformation::pointee_tid"])
p("It does not matter where strings are stored",
  "If a file is accepted, then another file (in the same byte order, with a type section of the same length) is accepted with a result that is the same but for the reported string offsets exactly if the words of its type section agree up to unused bits and string offsets, and the offsets lead to the same strings. So the string section may be reordered, extended, deduplicated, and strings may share their ends. Between two such results from_id agrees up to the string offsets, and name_of, id_of, size_of, pointee_tid and offset_of agree for every argument.",
  "every accepted file, every other file, every id, name and path, every source, build and target",
  "A relation between all pairs of files; tools that deduplicate strings (pahole, libbpf) produce such pairs, tests read a fixed file.",
  ["src/btf/type_information.rs::TypeInformation::new","src/btf/string.rs::parse_string","src/btf/type_information.rs::TypeInformation::id_of","src/btf/type_information.rs::TypeInformation::offset_of"])
p("How large the cache gets",
  "With the caching feature: the cache never holds more entries than calls of offset_of have been answered, and as long as no insertion has panicked it holds one entry for exactly those arguments for which a call has succeeded; a lookup that fails leaves nothing. There is no other limit: whatever the file, the cache can get an entry for each of the 2^32 ids (the empty path is answered for all of them), and if the file contains an array with an element that has a size, any number of entries ([0], [00], [000], .. are different keys).",
  "every TypeInformation, number of threads, schedule, panic point and number of entries",
  "A bound over all histories of calls, and growth beyond every bound; a test makes a fixed number of calls and cannot see the size of the cache.",
  ["src/btf/type_information.rs::TypeInformation::offset_of","src/btf/type_information.rs::TypeInformation::offset_cache"])
p("How a path is spelled does not matter, what it says does",
  "Two accepted texts with the same names and numbers in the same order ([07].b. and [7].b) have the same outcome for every type graph and id; so have two texts that are not paths but agree up to what is wrong. Every accepted text can be replaced by the plain spelling: numbers without leading zeros, a dot before every name but the first, nothing at the end. Conversely, two paths that each lead somewhere in some file, and differ in a name or number or in their length, are different: there is a file in which one of them leads somewhere and the other one fails. A path leads somewhere in some file exactly if all its numbers are below 2^32 - 1 and all its names can be the Latin-1 reading of bytes.",
  "every text, type graph, id and build; for the converse every pair of paths of up to 128 MiB",
  "Ranges over all pairs of texts and all type graphs, and needs a file for every pair of different paths.",
  ["src/btf/type_information.rs::TypePathComponentIter::next","src/btf/type_information.rs::TypeInformation::offset_of"])
p("From C types to answers",
  "Take any C type: numbers, pointers, arrays, structs and unions, typedefs and qualifiers, nested to any depth, with the positions chosen by the compiler; bitfields and unnamed members included. If it obeys the rules of C (no name twice, members inside, whole bytes unless it is a bitfield) and is smaller than 512 MiB, then in every type graph in which an id stands for it, size_of answers sizeof, and for every path offset_of answers offsetof: the type, the position in bits and the width of what C finds there, or InvalidTypePath if C finds nothing; every text that is not a path gives InvalidTypePath too. The file written for a typedef of such a type, in either byte order, is accepted, and the name is found in it.",
  "every C type of any depth and number of members, every path, type graph, build, source and byte order",
  "Ranges over all C types and all paths; the expected answer is defined on the type tree, as in C, not by following ids.",
  ["src/btf/type_information.rs::TypeInformation::offset_of","src/btf/type_information.rs::TypeInformation::size_of","src/btf/type_information.rs::TypeInformation::new"])
p("Everything that can be looked up in a C type",
  "Going through a C type once, without looking anything up, one can list all places in it: the object itself, the members, the members of unnamed members, the elements, and all that is in them, with path, position, width and type. In every type graph in which an id stands for the type, offset_of succeeds exactly for the texts whose names and numbers are a path of that list, and answers what the list says; every path of the list has a text, its plain spelling, unless a name in it cannot be written. No path is in the list twice, and all of it lies inside the object.",
  "every C type as in C109, every text, type graph and build",
  "Ranges over all types and texts; a test can look up some members, not show that there is nothing else to be found.",
  ["src/btf/type_information.rs::TypeInformation::offset_of","src/btf/type_information.rs::TypePathComponentIter"])
p("What the example programs say when they fail",
  "The examples panic exactly for these reasons, the first that applies: the file cannot be opened; loading fails; the name is not known; the query fails; an overflow in the crate. For a failed load the panic is about the first flaw of the file, for a failed query about the reason of the failure. The message of the panic is the Debug text of that error, with its kind and its message, and different errors have different texts; for every error that new itself makes it is the message in quotes, unchanged.",
  "every file, list of arguments and build; every way of quoting that agrees with the standard library on characters below 256 and keeps texts apart",
  "Ranges over all files and arguments and all errors; a test provokes a few panics.",
  ["examples/get-type-offset.rs::main","examples/get-type-size.rs::main","examples/dump-btf.rs::main","src/btf/error.rs::Error"])
p("A whole header file of C types",
  "A file made from any list of C types (typedefs, qualifiers, structs and unions with or without tag, arrays, pointers of any size, numbers, bitfields, nested in any way), in either byte order, is accepted. Every typedef name and every tag in it, at any depth, is found by id_of, and for the id found size_of and offset_of answer what sizeof and offsetof give for that type; also if the name occurs many times, or is both a tag and a typedef of the same struct. Any other name is not found (but list_head, which every such file has: the crate takes the size of pointers from it).",
  "every list of C types in which a name has one meaning, every byte order, pointer size and build, every path",
  "Ranges over all header files; a test has one file with a few types.",
  ["src/btf/type_information.rs::TypeInformation::new","src/btf/type_information.rs::TypeInformation::id_of","src/btf/type_information.rs::TypeInformation::offset_of","src/btf/type_information.rs::TypeInformation::size_of"])
p("From a C header file to what is printed",
  "For a file made from a header file as in C112: get-type-size, given a name of the header, prints what sizeof gives; get-type-offset prints what offsetof gives for every path that C compiles, and for every other text panics with InvalidTypePath; for a name that is not in the header (and is not list_head, which every such file has) both panic because there is none. With the caching feature, in whatever order any number of threads call offset_of, every call that ends gives these answers.",
  "every header file, byte order, pointer size and build, every name and path, every schedule",
  "Ranges over all header files, arguments and schedules.",
  ["examples/get-type-offset.rs::main","examples/get-type-size.rs::main","src/btf/type_information.rs::TypeInformation::offset_of"])
p("The BTF of kernel modules",
  "The BTF of a kernel module continues that of the kernel: its string offsets go on where those of the kernel's string table end. The crate has no notion of a base. Loading the BTF of a module succeeds exactly if the offsets of all its names happen to be inside the module's own string table; otherwise the error is InvalidStringOffset. In particular every module with a name of its own whose string table is not longer than the kernel's is refused. If a module is accepted, its types are numbered from 1, and each is reported under the name found at its offset in the module's own string table (not in that of the kernel followed by it), whatever that is. If the type sections of kernel and module are put one after the other in one file, and their string sections too, the file is read correctly: all types are as declared, and those of the module have the ids that follow the kernel's, which keep theirs. More generally, a file with any string table and any name offsets is accepted exactly if all offsets that are looked up are inside the table.",
  "every list of declarations, every string table of the base, both byte orders, every build and target, every source",
  "Ranges over all modules and all kernels.",
  ["src/btf/string.rs::parse_string","src/btf/type_information.rs::TypeInformation::new","src/btf/file_header.rs::FileHeader"])
p("C types in files of any compiler, and in kernel modules",
  "It does not matter who has written a file, in what order its types are, and which of them share an id: if every id with a given name stands for the same C type (up to typedefs and qualifiers), then id_of finds the name, size_of answers sizeof for the id found, and offset_of answers offsetof for every path: the offset and the bitfield width of what it leads to, with an id of the right size, or InvalidTypePath if C would not compile it or the text is not a path. Also, if a kernel with the types of one header file and a module with the types of another are put in one file as in C114, all typedefs and tags of both are found with the answers of C.",
  "every file that is accepted, every name and C type, every path; every pair of header files",
  "Ranges over all files and types.",
  ["src/btf/type_information.rs::TypeInformation::id_of","src/btf/type_information.rs::TypeInformation::size_of","src/btf/type_information.rs::TypeInformation::offset_of"])
p("Following pointers as C does",
  "A header file of C types (as in C112) whose pointers point to types of it in any way, also in circles. In its file, in either byte order, the id that id_of gives for a name is that of a type with this name and meaning. Start there, or at any other type of the header, and follow pointers: offset_of with a path, pointee_tid for the id it gives, offset_of again for the id that gives, and so on. This succeeds exactly if in C every path leads to a pointer (also with qualifiers or through typedefs), and it ends at the type where C ends, after any number of steps; and at every type on the way size_of and offset_of answer what C gives. pointee_tid of anything that is not a pointer fails with InvalidTypeID. The same holds for the file of a kernel and a module (as in C115), with pointers from the types of one to those of the other.",
  "every header file, byte order, pointer size and build, every list of texts",
  "The walks can have any length, on type graphs with circles.",
  ["src/btf/type_information.rs::TypeInformation::pointee_tid","src/btf/type_information.rs::TypeInformation::offset_of","src/btf/type_information.rs::TypeInformation::id_of"])
p("Incomplete types",
  "A declaration such as 'struct file;' introduces a name without a meaning. In the file of a header file (as in C112), the records of such declarations come before or after the others. The file is accepted, in either byte order. The id of every such record answers as an incomplete type: name_of gives the name, size_of fails with NotSized, offset_of fails with InvalidTypePath for every text but the empty one, pointee_tid fails with InvalidTypeID. Every type of the header answers as in C. A name that has a record after the types is that of an incomplete type for id_of, also if the header defines it (the crate then does not find its size, which C knows). Any other name that is defined has its meaning, also if there is a record before. A name that is only declared is found as incomplete, and all others are not found.",
  "every header file, every list of names declared before and after it, byte order, pointer size and build, every text",
  "Which of several records with one name is found depends on all of the file.",
  ["src/btf/type_information.rs::TypeInformation::id_of","src/btf/type_information.rs::TypeInformation::size_of","src/btf/type_information.rs::TypeInformation::offset_of"])
p("C types among functions, variables and everything else",
  "The file of a program has more than the types of a header file: functions, variables, enumerations, sections, tags. If such declarations, any of them in any order, come before and after the types of a header file (as in C112), then the file is accepted (in big-endian order if there are no 64-bit enums), everything is read as declared, under the id of its place, and every type of the header, whatever its id, answers as in C. Names of all kinds are in one place, other than in C: id_of finds the last declaration with the name. So a typedef or tag of the header has its meaning exactly as in C112 if no declaration after the header has the same name, whatever is before; if one has, such as a function with the name of a struct, id_of finds the last of these; a name that is only in declarations before is that of the last of them; and any other name is not found.",
  "every header file, all declarations before and after it, byte order, pointer size and build, every path",
  "Holds for programs of every size and composition, and every clash of names.",
  ["src/btf/type_information.rs::TypeInformation::new","src/btf/type_information.rs::TypeInformation::id_of","src/btf/type_information.rs::TypeInformation::size_of","src/btf/type_information.rs::TypeInformation::offset_of"])
p("Following pointers in any program",
  "In any file in which some ids answer like C types (size_of, offset_of and pointee_tid as C says), and in which the pointers in these types lead to such ids again or to dead ends, following pointers as in C116 from any of these ids leads exactly where it leads in C, through any number of pointers. In particular this holds in the file of C118, the types of a header file among any other declarations, in either byte order, if the pointers of the header lead to its own types, to void, to functions and prototypes, and to incomplete types, before or after it: a walk goes on in types of the header only. Every name of the header that is not declared again after it stands for the type with that name and meaning, with an id by its place in the file.",
  "every file and numbering of C types; every header file, all declarations before and after it, byte order, pointer size and build, every list of texts",
  "Walks can have any length, on type graphs with circles and dead ends.",
  ["src/btf/type_information.rs::TypeInformation::pointee_tid","src/btf/type_information.rs::TypeInformation::offset_of","src/btf/type_information.rs::TypeInformation::id_of"])
p("The same C type in two files",
  "If in two files, by any compilers, all ids with a name stand for types with the same meaning in C (equal up to typedefs and qualifiers, names of which no path can ask for), then both files find the name, and the ids they find answer the same: the same size_of, and for every path offset_of returns the same error, or the same Offset with ids of types with the same size. The two may run in a debug and in a release build, for targets with the same usize. In particular this holds for any two programs as in C118, with the types of any header files among any other declarations, in either byte order: for every name which both headers declare with the same meaning and which is not declared again later.",
  "every pair of files, every C type, every name and path, both builds; every pair of programs and byte orders",
  "Whether an answer depends on the file or only on the type can only be asked of all files that have the type.",
  ["src/btf/type_information.rs::TypeInformation::size_of","src/btf/type_information.rs::TypeInformation::offset_of","src/btf/type_information.rs::TypeInformation::id_of"])
p("The layout of structs",
  "Take C types as they are in the source, without positions: numbers with size and alignment, pointers, arrays, structs and unions (also unnamed ones inside others), bitfields, typedefs and qualifiers, nested to any depth. A compiler with the usual rules (System V ABI: every member of a struct begins at the first multiple of its alignment behind the member before it, a bitfield at the next bit, unless it would cross a boundary of its type: then at the first multiple of its alignment, members of unions at 0; the size is the first multiple of the greatest alignment) writes a file for a header of such types, among any other declarations, in either byte order. The file is accepted, and for every type of the header, under its id, and under its name unless that is declared again later, size_of answers the size by these rules, and for every path that C compiles offset_of answers the place and the width by these rules, with an id of a type of the right size. What is there lies inside the object, and begins at a byte that is a multiple of its alignment, unless it is a bitfield (which lies in one unit of its type, if that is aligned to its size). Every other text gives InvalidTypePath. pointee_tid of these ids gives the target of a pointer, and InvalidTypeID for anything else. So for the file of such a header get-type-size and get-type-offset print the size and the place by these rules, and with the caching feature offset_of answers so in any number of threads, however they are scheduled.",
  "every list of C types of any depth in which a name has one meaning, all other declarations, every byte order, pointer size (a power of two) and build, every text, every schedule",
  "That a file gives the places which a compiler has chosen is a statement about all types.",
  ["src/btf/type_information.rs::TypeInformation::offset_of","src/btf/type_information.rs::TypeInformation::size_of","src/btf/type_information.rs::TypeInformation::new"])
p("Structs that grow",
  "Members are added at the end of a struct or union, as it is in the source, and a compiler with the rules of C121 lays it out again, in another file, of another header, in either byte order, read by any build with the same target width. Every text for which offset_of gave an offset in the first file, for this type (also through typedefs and qualifiers), leads to the same offset, byte and bits, in the second; and size_of gives the same for the ids that the two answers name, unless the text is the empty path, that is, names the whole; that has not become smaller.",
  "every struct or union of C source, every list of further members, every text, all pairs of files and builds of one target width",
  "That nothing that was found moves is a statement about all structs, all additions and all paths.",
  ["src/btf/type_information.rs::TypeInformation::offset_of","src/btf/type_information.rs::TypeInformation::size_of"])
p("Types without pointers",
  "Take a type of C source that contains no pointer, at any depth (numbers of given size and alignment, arrays, structs, unions, bitfields, typedefs, qualifiers). Compilers with the rules of C121 for two targets with pointers of different size, for two headers with this type, write two files, in any byte orders. All answers about the type are the same in both: the same size_of, and for every text offset_of returns the same error, or the same Offset, with ids of types of the same size. With pointers this is not so: the second element of an array of pointers is at byte 8 or at byte 4.",
  "every C type without pointers, every text, every two sizes of pointers, all pairs of files and builds that read them (with the same usize)",
  "That a layout does not depend on the target is a statement about all types and all paths.",
  ["src/btf/type_information.rs::TypeInformation::offset_of","src/btf/type_information.rs::TypeInformation::size_of"])
p("Structs that begin alike",
  "Take structs and unions of C source, laid out by the rules of C121, in one file or in two, in either byte order. If two structs (or two unions) begin with the same members, every path that begins with one of these members (also one inside an unnamed member) and that C compiles leads offset_of to the same Offset in both, and to ids of types of the same size. If a struct or union begins with a member that is not a bitfield, with a type B, then offset_of gives for the path with the name of the member before it the same error as for B, or the same Offset, with ids of types of the same size; if the member has no name, whatever is found in B by a path with a name is found at the same place by the same path.",
  "every pair of structs or unions of C source with common first members, every struct or union with a first member, every path, all pairs of files and builds of one target width",
  "That no path to a common member depends on what comes after it is a statement about all structs and all paths.",
  ["src/btf/type_information.rs::TypeInformation::offset_of","src/btf/type_information.rs::TypeInformation::size_of"])
p("Members are in the order of the source",
  "Take a struct of C source, laid out by the rules of C121 (also through typedefs and qualifiers), and divide the list of its members anywhere. Whatever offset_of finds by a path whose first name is one of the first members (or of a member inside an unnamed one of these) ends before or where that begins which it finds by a path whose first name is one of the later ones: the bits of the one offset, plus its width, or, if it is not a bitfield, 8 times what size_of answers for its id, are at most the bits of the other.",
  "every struct of C source, every division of its members, every two paths, every file and build",
  "That nothing found overlaps what comes later is a statement about all structs and all pairs of paths.",
  ["src/btf/type_information.rs::TypeInformation::offset_of","src/btf/type_information.rs::TypeInformation::size_of"])

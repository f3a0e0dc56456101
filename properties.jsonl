{"id": "C01", "title": "The constructor is total: no panic and no endless loop", "statement": "On a 64-bit target, TypeInformation::new returns Ok or Err for every Readable; it never panics (arithmetic overflow, indexing) and never loops for ever, in debug and in release builds.", "quantifier": "every Readable, including one whose answers are adversarial and change from call to call; every header field value; debug and release", "why_tests_cant": "The input space is every byte string and every I/O behaviour; a test shows absence of panics only for the files it feeds.", "anchors": ["src/btf/type_information.rs::TypeInformation::new", "src/btf/header.rs::Header::new", "src/btf/define_type.rs::define_type!", "src/btf/string.rs::parse_string", "src/utils/reader.rs::Reader::read"]}
{"id": "C02", "title": "Every reported type is what the file says", "statement": "If TypeInformation::new succeeds on a file, then get() is exactly the list of records the BTF format assigns to the bytes of the type section: record k starts where record k-1 ended, the first starts at hdr_len+type_off, and every field (name, size, ids, members, values, parameters, variables, header) is the format's reading of the words of that record.", "quantifier": "every file content (byte string), both endiannesses, every number and mix of records", "why_tests_cant": "Unit tests check one hand-made record per kind; correctness of long mixed sequences and all field values is a statement about all files.", "anchors": ["src/btf/type_information.rs::TypeInformation::new", "src/btf/int.rs", "src/btf/struct_union.rs", "src/btf/enum.rs", "src/btf/enum64.rs", "src/btf/func_proto.rs", "src/btf/data_sec.rs", "src/btf/array.rs", "src/btf/var.rs", "src/btf/decl_tag.rs"]}
{"id": "C03", "title": "Every well-formed file is accepted and decoded", "statement": "If the type section of a file is a sequence of well-formed records (known kinds, names inside the string section, byte-aligned members when kind_flag is clear), TypeInformation::new returns Ok and get() lists exactly those records under ids 1, 2, ..., n in file order.", "quantifier": "every abstract sequence of records, any header length / section placement, trailing data, both endiannesses", "why_tests_cant": "A round-trip law ranges over all record sequences and layouts; tests only round-trip a handful of literals.", "anchors": ["src/btf/type_information.rs::TypeInformation::new", "src/btf/header.rs::Header::new", "src/btf/define_type.rs"]}
{"id": "C04", "title": "The result does not depend on the byte order of the file", "statement": "Writing the same BTF content little-endian or big-endian gives the same TypeInformation.", "quantifier": "every record sequence and layout, both byte orders", "why_tests_cant": "Tests use one header in big-endian; no test compares full contents in the two byte orders.", "anchors": ["src/utils/reader.rs::Reader::u32", "src/utils/reader.rs::Reader::u64", "src/btf/enum64.rs::Data::new", "src/btf/file_header.rs::FileHeader::detect_endianness"]}
{"id": "C05", "title": "Only the two BTF magics are accepted, and they fix the byte order", "statement": "new fails with InvalidMagic iff the first two bytes can be read and are neither 9F EB nor EB 9F; with 9F EB every later integer is read little-endian, with EB 9F big-endian.", "quantifier": "every file content / Readable answer", "why_tests_cant": "All 65536 magics times all contents.", "anchors": ["src/btf/file_header.rs::FileHeader::new", "src/btf/file_header.rs::FileHeader::detect_endianness"]}
{"id": "C06", "title": "Type ids are dense, start at 1 and follow file order", "statement": "After new succeeds with n types, get() has exactly the keys 1..n in ascending order, from_id(0) is Void, from_id(t) is the t-th record for 1<=t<=n and None for t>n.", "quantifier": "every Readable on which new succeeds, every tid", "why_tests_cant": "Quantifies over every file and all 2^32 ids.", "anchors": ["src/btf/type_information.rs::TypeInformation::new", "src/btf/type_information.rs::TypeInformation::from_id", "src/btf/type_information.rs::TypeInformation::get"]}
{"id": "C07", "title": "The id counter can never wrap", "statement": "The number of types n satisfies 12*n <= type_len, so the u32 id counter never overflows and no type overwrites another.", "quantifier": "every Readable on which new succeeds", "why_tests_cant": "Would need a 48 GiB type section to observe.", "anchors": ["src/btf/type_information.rs::TypeInformation::new"]}
{"id": "C08", "title": "name_of agrees with the type itself", "statement": "For every id t, name_of(t) is the name carried by from_id(t) (\"void\" for 0), and is None exactly when the type is unnamed, of a nameless kind, or absent.", "quantifier": "every Readable on which new succeeds, every tid", "why_tests_cant": "Three maps are filled independently; agreement is an invariant over all insert histories.", "anchors": ["src/btf/type_information.rs::TypeInformation::name_of", "src/btf/type_information.rs::get_type_enum_value_name", "src/btf/type_information.rs::TypeInformation::new"]}
{"id": "C09", "title": "id_of returns the last type with that name", "statement": "For every name other than \"void\", id_of(name) is Some(t) iff t is the greatest id whose type is called name, None iff no type has the name; id_of(\"void\") is Some(0); hence name_of(id_of(s)) = s.", "quantifier": "every Readable on which new succeeds, every name", "why_tests_cant": "Kernel BTF has many duplicate names (struct/typedef/func); which one wins is a law over all insertion histories.", "anchors": ["src/btf/type_information.rs::TypeInformation::id_of", "src/btf/type_information.rs::TypeInformation::new"]}
{"id": "C10", "title": "Names are the NUL-terminated strings of the string section", "statement": "A name with offset o decodes to the bytes from hdr_len+str_off+o up to the first NUL, each byte taken as the Unicode code point of that value, provided the terminator is inside the string section; otherwise new fails with InvalidStringOffset (start outside) or InvalidString (no terminator).", "quantifier": "every string section content and every offset", "why_tests_cant": "All contents and offsets, including offsets into the middle of strings and unterminated tails.", "anchors": ["src/btf/string.rs::parse_string"]}
{"id": "C11", "title": "new reads only the header, the type section and the string section", "statement": "Every read request issued by new lies inside bytes 0..24, the type section (plus at most 12 bytes after it) or the string section named by the header.", "quantifier": "every Readable, including failing and adversarial ones; every execution prefix", "why_tests_cant": "Concerns all requests issued in all executions.", "anchors": ["src/utils/reader.rs::Reader::read", "src/btf/string.rs::parse_string", "src/btf/define_type.rs"]}
{"id": "C12", "title": "Bytes outside those ranges have no influence", "statement": "Two files that agree on the header, the type section (plus 12 bytes) and the string section give the same result from new.", "quantifier": "every pair of files", "why_tests_cant": "A two-run (non-interference) property over all pairs of files.", "anchors": ["src/btf/type_information.rs::TypeInformation::new"]}
{"id": "C13", "title": "A type section that ends inside a record header is rejected", "statement": "If a record starts less than 12 bytes before the end of the type section, or the section bounds overflow u32, new fails with InvalidTypeSectionOffset rather than reading a partial record.", "quantifier": "every file, every header", "why_tests_cant": "All section lengths and record mixes.", "anchors": ["src/btf/header.rs::Header::new"]}
{"id": "C14", "title": "Unknown kinds are rejected", "statement": "A record whose 5-bit kind is not 1..19 makes new fail with InvalidBTFKind; kinds 1..19 map to the documented kinds; reserved info bits are ignored.", "quantifier": "every 32-bit info word at every record position", "why_tests_cant": "2^32 info words at unboundedly many positions.", "anchors": ["src/btf/kind.rs::Kind::new", "src/btf/header.rs::Header::new"]}
{"id": "C15", "title": "I/O errors are never swallowed by new", "statement": "If any read request fails, new returns that very error kind and issues no further request; if new succeeds, every request succeeded.", "quantifier": "every Readable, every failure point", "why_tests_cant": "Quantifies over which of the unboundedly many requests fails.", "anchors": ["src/utils/reader.rs::Reader::read", "src/btf/type_information.rs::TypeInformation::new"]}
{"id": "C16", "title": "Struct and union member offsets are decoded exactly", "statement": "With kind_flag clear, a member with raw offset r gets ByteOffset(r/8) if 8 divides r and otherwise new fails with InvalidOffset; with kind_flag set, bit offset = r mod 2^24 and size = r div 2^24, reported as ByteOffset(bit/8) exactly when size = 0 and 8 divides the bit offset.", "quantifier": "every 32-bit raw offset, both flag values, every member position", "why_tests_cant": "2^33 cases at each of up to 65535 positions.", "anchors": ["src/btf/struct_union.rs::Data::new"]}
{"id": "C17", "title": "Integer and enum values are decoded exactly", "statement": "An Int's size/encoding/offset/bits are the documented bit ranges of its words; enum values are the two's-complement (signed) or plain (unsigned) reading of the value words according to kind_flag.", "quantifier": "every 32/64-bit word", "why_tests_cant": "All 2^32 / 2^64 value words.", "anchors": ["src/btf/int.rs::Data::new", "src/btf/enum.rs::Data::new", "src/btf/enum64.rs::Data::new"]}
{"id": "C18", "title": "No record extends past the end of the type section", "statement": "When new succeeds, every record lies entirely inside the type section.", "quantifier": "every file on which new succeeds", "why_tests_cant": "All record mixes ending at every distance from the section end.", "anchors": ["src/btf/array.rs::Data::size", "src/btf/define_type.rs"]}
{"id": "C19", "title": "Debug and release builds parse identically", "statement": "On a 64-bit target, new gives the same answer with and without overflow checks.", "quantifier": "every Readable", "why_tests_cant": "Equality of two builds over all inputs.", "anchors": ["src/btf/define_type.rs", "src/utils/reader.rs::Reader::read"]}
{"id": "C20", "title": "The constructor is total on 32-bit targets too", "statement": "TypeInformation::new never panics when usize is 32 bits.", "quantifier": "every Readable", "why_tests_cant": "Needs a section ending near 2^32.", "anchors": ["src/btf/header.rs::Header::new", "src/btf/define_type.rs"]}
{"id": "C21", "title": "Version, flags and reserved bits are ignored", "statement": "Changing the version byte, flags byte or the reserved bits of info words does not change what new reports, be it types or an error, provided that the sections overlap neither each other nor the header (hdr_len is not validated).", "quantifier": "every file and every value of those bits", "why_tests_cant": "Two-run property over all files.", "anchors": ["src/btf/file_header.rs::FileHeader::new", "src/btf/header.rs::Header::new"]}
{"id": "C22", "title": "Offset addition is exact or fails", "statement": "Offset + u32 and Offset + Offset denote exact addition of bit positions; they fail with InvalidOffset iff the exact result (or the intermediate bit position) does not fit in u32, and with UnexpectedBitfield iff the left operand is a bitfield.", "quantifier": "all pairs of offsets", "why_tests_cant": "2^64+ operand pairs.", "anchors": ["src/btf/offset.rs::impl Add<u32> for Offset", "src/btf/offset.rs::impl Add<Offset> for Offset"]}
{"id": "C23", "title": "Accumulating offsets is order-insensitive", "statement": "Adding a list of byte offsets one by one succeeds iff their exact sum fits in u32, and then yields that sum: no partial order of additions can wrap or differ.", "quantifier": "every list of offsets", "why_tests_cant": "Unbounded lists.", "anchors": ["src/btf/offset.rs"]}
{"id": "C24", "title": "The path syntax is exactly the documented grammar", "statement": "A path string is accepted by offset_of's parser iff it is name or [index] followed by any number of .name or [index] parts; it yields precisely those components in order.", "quantifier": "every path string", "why_tests_cant": "All strings; tests list 16 of them.", "anchors": ["src/btf/type_information.rs::TypePathComponentIter"]}
{"id": "C25", "title": "Path parsing never panics", "statement": "For every &str (any valid UTF-8), parsing the path never slices inside a character nor indexes out of bounds.", "quantifier": "every UTF-8 string, every prefix of the iteration", "why_tests_cant": "All strings including all multi-byte encodings.", "anchors": ["src/btf/type_information.rs::TypePathComponentIter::parse_name", "src/btf/type_information.rs::TypePathComponentIter::parse_index"]}
{"id": "C26", "title": "Index literals are read as decimal numbers or rejected", "statement": "[d...d] denotes the decimal value of its digits (leading zeros allowed); it is rejected with InvalidTypePath iff the value does not fit in usize or there are no digits.", "quantifier": "every digit string", "why_tests_cant": "Unbounded digit strings.", "anchors": ["src/btf/type_information.rs::TypePathComponentIter::parse_index"]}
{"id": "C27", "title": "size_of is the size the type graph denotes", "statement": "size_of(t) = Ok(n) iff n is the size of t: the recorded size for int/float/enum/enum64/struct/union/datasec, count times element size for arrays, half of struct list_head for pointers, the size of the referenced type for typedef/const/volatile/restrict/var/type_tag.", "quantifier": "every parsed type graph and every id, any nesting depth", "why_tests_cant": "Unbounded nesting and all graphs.", "anchors": ["src/btf/type_information.rs::TypeInformation::size_of"]}
{"id": "C28", "title": "Array sizes never silently overflow", "statement": "size_of on an array whose byte size does not fit in usize reports an error rather than a wrong number.", "quantifier": "every array nesting, both build modes", "why_tests_cant": "Needs astronomically large nested arrays in both build modes.", "anchors": ["src/btf/type_information.rs::TypeInformation::size_of"]}
{"id": "C29", "title": "size_of failures are classified", "statement": "size_of fails with InvalidTypeID iff the reference chain reaches a missing id (or pointer size cannot be determined) and with NotSized iff it reaches void, func, func_proto, fwd or decl_tag.", "quantifier": "every type graph and id", "why_tests_cant": "All graphs.", "anchors": ["src/btf/type_information.rs::TypeInformation::size_of"]}
{"id": "C30", "title": "pointee_tid follows aliases to the pointer", "statement": "pointee_tid(t) = Ok(p) iff following typedef/const/volatile/restrict from t reaches a pointer to p; it fails with InvalidTypeID iff the chain reaches anything else or a missing id.", "quantifier": "every type graph and id, any chain length", "why_tests_cant": "Unbounded chains.", "anchors": ["src/btf/type_information.rs::TypeInformation::pointee_tid"]}
{"id": "C31", "title": "size_of and pointee_tid terminate", "statement": "Both queries return for every id of every successfully parsed file.", "quantifier": "every parsed type graph and id", "why_tests_cant": "Termination over all graphs, including cyclic ones, is not testable.", "anchors": ["src/btf/type_information.rs::TypeInformation::size_of", "src/btf/type_information.rs::TypeInformation::pointee_tid"]}
{"id": "C32", "title": "offset_of terminates", "statement": "offset_of returns for every id and path of every successfully parsed file.", "quantifier": "every parsed type graph, id and path", "why_tests_cant": "Termination over all graphs.", "anchors": ["src/btf/type_information.rs::TypeInformation::offset_of_impl"]}
{"id": "C33", "title": "The empty path is the identity", "statement": "offset_of(t, \"\") = Ok((t, ByteOffset(0))) for every t.", "quantifier": "every TypeInformation and tid", "why_tests_cant": "All 2^32 ids.", "anchors": ["src/btf/type_information.rs::TypeInformation::offset_of_impl"]}
{"id": "C34", "title": "Missing ids are reported", "statement": "offset_of with a non-empty well-formed path on a chain that reaches a missing id fails with InvalidTypeID; no query ever invents a type.", "quantifier": "every type graph, id and path", "why_tests_cant": "All dangling references.", "anchors": ["src/btf/type_information.rs::TypeInformation::offset_of_impl", "src/btf/type_information.rs::TypeInformation::from_id"]}
{"id": "C35", "title": "Array indexing is bounds-checked and exact", "statement": "offset_of(t, \"[i]\") on an array of c elements of size s succeeds iff i < c, the element is sized and i*s fits in u32; the answer is (element id, ByteOffset(i*s)).", "quantifier": "every array type, every index", "why_tests_cant": "All counts, sizes and indices including overflow boundaries.", "anchors": ["src/btf/type_information.rs::TypeInformation::offset_of_impl"]}
{"id": "C36", "title": "Aliases and qualifiers are transparent to offset_of", "statement": "For a non-empty path, offset_of on a typedef/const/volatile/restrict/fwd of t gives the same answer as on t.", "quantifier": "every type graph, chain length and non-empty path", "why_tests_cant": "Unbounded chains and paths.", "anchors": ["src/btf/type_information.rs::TypeInformation::offset_of_impl"]}
{"id": "C37", "title": "Soundness of offset_of", "statement": "If offset_of(t, path) = Ok((u, o)) then path denotes a C access from t to an object of type u (through members, anonymous members, array elements and aliases, never through a pointer) and o is the exact sum of the member offsets and index*element-size along it.", "quantifier": "every type graph, id and path; any nesting of anonymous members", "why_tests_cant": "All graphs and paths, with backtracking.", "anchors": ["src/btf/type_information.rs::TypeInformation::offset_of_impl"]}
{"id": "C38", "title": "Completeness of offset_of", "statement": "On a well-formed type graph (no type depends on itself, member names of one struct distinct, members inside their struct, objects below 512 MiB, unnamed members are not bitfields), if path denotes a C access from t then offset_of(t, path) succeeds, in every build.", "quantifier": "every well-formed type graph, id and path", "why_tests_cant": "All graphs and paths; the search must never miss a member hidden in nested anonymous members.", "anchors": ["src/btf/type_information.rs::TypeInformation::offset_of_impl"]}
{"id": "C39", "title": "offset_of is unambiguous when C is", "statement": "On a well-formed type graph, if the access denoted by path from t is unique then offset_of returns exactly that access; this is the case for every path if member names, including those of anonymous members, are distinct as C demands.", "quantifier": "every well-formed type graph, id and path", "why_tests_cant": "All graphs.", "anchors": ["src/btf/type_information.rs::TypeInformation::offset_of_impl"]}
{"id": "C40", "title": "Lookup order: anonymous members first, then first named member", "statement": "When several members match, the first anonymous member (in declaration order) in which the whole remaining path resolves wins; only if none does, the first member with that name is used and no later one is tried.", "quantifier": "every struct/union and remaining path", "why_tests_cant": "All member lists with duplicates and backtracking.", "anchors": ["src/btf/type_information.rs::TypeInformation::offset_of_impl"]}
{"id": "C41", "title": "Unnamed bitfields do not hide other members", "statement": "A struct containing an unnamed bitfield still lets its named members be looked up.", "quantifier": "every struct with an unnamed bitfield", "why_tests_cant": "No test has such a struct.", "anchors": ["src/btf/type_information.rs::TypeInformation::offset_of_impl"]}
{"id": "C42", "title": "Paths compose", "statement": "offset_of(t, p) = (u, o1) and offset_of(u, q) = (v, o2) imply offset_of(t, p followed by q) = (v, o1+o2), when accesses are unambiguous.", "quantifier": "every well-formed unambiguous type graph, every pair of paths", "why_tests_cant": "All pairs of paths.", "anchors": ["src/btf/type_information.rs::TypeInformation::offset_of_impl", "src/btf/type_information.rs::TypePathComponentIter"]}
{"id": "C43", "title": "Located objects lie inside the outer object", "statement": "If every member of every struct/union lies within its container, a successful byte offset o for type u from t satisfies o + size_of(u) <= size_of(t).", "quantifier": "every well-laid-out type graph, id and path", "why_tests_cant": "A global invariant over all graphs and paths.", "anchors": ["src/btf/type_information.rs::TypeInformation::offset_of_impl", "src/btf/type_information.rs::TypeInformation::size_of"]}
{"id": "C44", "title": "Distinct array elements do not overlap", "statement": "offset_of(t,\"[i]\") and offset_of(t,\"[j]\") with i<j differ by exactly (j-i)*size, so elements are disjoint and in order.", "quantifier": "every array and all index pairs", "why_tests_cant": "All index pairs.", "anchors": ["src/btf/type_information.rs::TypeInformation::offset_of_impl"]}
{"id": "C45", "title": "Nothing can be navigated inside a bitfield", "statement": "If a prefix of the path reaches a bitfield (and names are unambiguous), no longer path through it succeeds; a successful answer is a bit offset only if the last member is a bitfield.", "quantifier": "every type graph, id and path (without overflow checks: every well-laid-out type graph)", "why_tests_cant": "All graphs/paths.", "anchors": ["src/btf/type_information.rs::TypeInformation::offset_of_impl", "src/btf/offset.rs"]}
{"id": "C46", "title": "Pointers are never dereferenced", "statement": "A path component applied to a pointer (directly or through aliases) always fails with InvalidTypePath.", "quantifier": "every type graph, id and path", "why_tests_cant": "All graphs/paths.", "anchors": ["src/btf/type_information.rs::TypeInformation::offset_of_impl"]}
{"id": "C47", "title": "Type tags are transparent", "statement": "A type tag around a type does not change the answers of size_of, pointee_tid and offset_of.", "quantifier": "every type graph with type tags", "why_tests_cant": "All graphs.", "anchors": ["src/btf/type_information.rs::TypeInformation::size_of", "src/btf/type_information.rs::TypeInformation::pointee_tid", "src/btf/type_information.rs::TypeInformation::offset_of_impl"]}
{"id": "C48", "title": "offset_of failures have documented kinds", "statement": "offset_of can only fail with InvalidTypePath, InvalidTypeID, InvalidOffset, UnexpectedBitfield or NotSized.", "quantifier": "every type graph, id and path", "why_tests_cant": "All failing executions.", "anchors": ["src/btf/type_information.rs::OffsetError", "src/btf/type_information.rs::TypeInformation::offset_of_impl"]}
{"id": "C49", "title": "The cache is invisible", "statement": "With the caching feature, every offset_of call returns what the uncached computation returns, for every history of calls by any number of threads, every interleaving of their cache reads and writes, and also when the lock gets poisoned at any point.", "quantifier": "every TypeInformation, every number of threads, every schedule, every poisoning point", "why_tests_cant": "All interleavings.", "anchors": ["src/btf/type_information.rs::TypeInformation::offset_of", "src/btf/type_information.rs::offset_cache"]}
{"id": "C50", "title": "A successful lookup consumed the whole path", "statement": "If offset_of succeeds then every byte of the path was consumed as part of a component or separator; no suffix is ignored.", "quantifier": "every type graph, id and path", "why_tests_cant": "All paths.", "anchors": ["src/btf/type_information.rs::TypePathComponentIter::next", "src/btf/type_information.rs::TypeInformation::offset_of_impl"]}
{"id": "C51", "title": "Reported types agree with their own headers", "statement": "Every type reported by get()/from_id has the variant its header's kind names; member/value/parameter/variable lists have exactly vlen entries; size and tid accessors equal the header's size_or_type word; a name is None exactly when its string offset is 0.", "quantifier": "every Readable (also one that answers inconsistently) on which new succeeds, every id", "why_tests_cant": "Twenty kinds, up to 65535 items each, and adversarial sources.", "anchors": ["src/btf/type_information.rs::TypeInformation::new", "src/btf/define_type.rs", "src/btf/header.rs"]}
{"id": "C52", "title": "new fails only with documented kinds", "statement": "An error of new is either the error of its last read request or one of InvalidMagic, InvalidTypeSectionOffset, InvalidBTFKind, InvalidStringOffset, InvalidString, InvalidOffset.", "quantifier": "every Readable", "why_tests_cant": "All failing executions.", "anchors": ["src/btf/type_information.rs::TypeInformation::new", "src/btf/error.rs::ErrorKind"]}
{"id": "C53", "title": "ReadableBuffer serves exactly its bytes", "statement": "On a 64-bit target a ReadableBuffer answers a request inside the buffer with exactly those bytes, a request that starts at the end with EOF and any other request with InvalidOffset; on a 32-bit target it does so for the offset modulo 2^32. It never panics and has no other error, on any target.", "quantifier": "every buffer, offset and length", "why_tests_cant": "2^64 offsets times all lengths including the overflow of offset+len. (The type exists in the crate's test build only.)", "anchors": ["src/utils/readable_buffer.rs::ReadableBuffer"]}
{"id": "C54", "title": "The cache is robust", "statement": "With the caching feature: the cache holds only successful answers of calls that were made; the lock is poisoned exactly by a panic inside the map insertion, never by a panic of the lookup, and from then on no thread holds the lock, the entries of the cache stay as they are and no other insertion panics; a thread inside offset_of can always take a step or waits for a thread that is about to release the lock (no deadlock); writers are exclusive.", "quantifier": "every number of threads, every schedule, every panic point", "why_tests_cant": "All interleavings and panic points.", "anchors": ["src/btf/type_information.rs::TypeInformation::offset_of", "src/btf/type_information.rs::offset_cache"]}
{"id": "C55", "title": "new rejects exactly the flawed files and names a flaw", "statement": "For a Readable serving a fixed file, new fails iff the header or the first undecodable record has a flaw, and the error kind is that of one of its flaws (the only one, if there is only one kind).", "quantifier": "every file content", "why_tests_cant": "All malformed files, with any number of good records before the flaw.", "anchors": ["src/btf/type_information.rs::TypeInformation::new", "src/btf/header.rs::Header::new", "src/btf/string.rs::parse_string", "src/btf/struct_union.rs::Data::new"]}
{"id": "C56", "title": "Recursion depth is bounded by the number of types", "statement": "On a parsed file with N types, a size_of or pointee_tid call that returns has recursed at most N+1 deep; offset_of on a file in which no type depends on itself needs at most (N+2)*(L+1) nested calls for a path of L bytes.", "quantifier": "every parsed file, id and path", "why_tests_cant": "Stack use for all graphs.", "anchors": ["src/btf/type_information.rs::TypeInformation::size_of", "src/btf/type_information.rs::TypeInformation::pointee_tid", "src/btf/type_information.rs::TypeInformation::offset_of_impl"]}
{"id": "C57", "title": "size_of and pointee_tid run for ever exactly on reference cycles", "statement": "On a parsed file, size_of(t) (pointee_tid(t)) fails to return iff following the references it uses from t reaches a type that refers back to itself.", "quantifier": "every parsed file and id", "why_tests_cant": "Divergence over all graphs.", "anchors": ["src/btf/type_information.rs::TypeInformation::size_of", "src/btf/type_information.rs::TypeInformation::pointee_tid"]}
{"id": "C58", "title": "What size_of does when an array does not fit in usize", "statement": "With n the exact size of t: a build without overflow checks answers n modulo 2^width, a build with overflow checks answers n or panics (exactly when an array on the way does not fit).", "quantifier": "every parsed file, id, width and build mode", "why_tests_cant": "Needs astronomically large arrays in four build configurations.", "anchors": ["src/btf/type_information.rs::TypeInformation::size_of"]}
{"id": "C59", "title": "The content determines the result", "statement": "Two Readables that serve files with the same types give the same TypeInformation, whatever the builds, layouts and byte orders; a file has at most one content.", "quantifier": "every pair of files, sources and build configurations", "why_tests_cant": "A two-run property.", "anchors": ["src/btf/type_information.rs::TypeInformation::new"]}
{"id": "C60", "title": "What an unnamed bitfield does to lookups by name", "statement": "In a struct or union with an unnamed bitfield, a lookup by name has the answer of the first unnamed member before the first unnamed bitfield in which it does not fail; if there is none, it fails with UnexpectedBitfield. The members with names do not matter: if the first unnamed member is a bitfield, every lookup by name in it fails.", "quantifier": "every struct or union and path", "why_tests_cant": "All member lists and paths.", "anchors": ["src/btf/type_information.rs::TypeInformation::offset_of_impl"]}
{"id": "C61", "title": "What type tags do", "statement": "size_of looks through type tags (as through typedefs, qualifiers and variables); pointee_tid and offset_of with a non-empty path fail with InvalidTypeID and InvalidTypePath when aliases lead to a type tag.", "quantifier": "every type graph with type tags", "why_tests_cant": "All graphs.", "anchors": ["src/btf/type_information.rs::TypeInformation::size_of", "src/btf/type_information.rs::TypeInformation::pointee_tid", "src/btf/type_information.rs::TypeInformation::offset_of_impl"]}
{"id": "C62", "title": "offset_of panics only where size_of does", "statement": "offset_of can panic only in a build with overflow checks and only if size_of panics on some type of the file; in particular no path string makes it panic.", "quantifier": "every type graph, id and path", "why_tests_cant": "All executions.", "anchors": ["src/btf/type_information.rs::TypeInformation::offset_of_impl"]}
{"id": "C63", "title": "The language of paths that offset_of accepts", "statement": "Iterating over a path yields components cs without error iff the path is the documented syntax for cs, possibly followed by one '.' (after a component) or one '[' (after a name); every other path ends in an error, and offset_of never answers on it.", "quantifier": "every path string", "why_tests_cant": "All strings.", "anchors": ["src/btf/type_information.rs::TypePathComponentIter", "src/btf/type_information.rs::TypeInformation::offset_of_impl"]}
{"id": "C64", "title": "Exactly which files are accepted", "statement": "new succeeds iff the file decodes in the crate's dialect of BTF, which is the documented format except that the body of an array is not required to lie in the type section (12*vlen bytes are) and that a 64-bit enumerator is one 8-byte integer; the result is that decoding.", "quantifier": "every file content", "why_tests_cant": "All files.", "anchors": ["src/btf/type_information.rs::TypeInformation::new", "src/btf/array.rs::Data::size", "src/btf/enum64.rs::Data::new"]}
{"id": "C65", "title": "offset_of is a function", "statement": "Repeating offset_of with the same arguments gives the same outcome.", "quantifier": "every type graph, id and path", "why_tests_cant": "All inputs.", "anchors": ["src/btf/type_information.rs::TypeInformation::offset_of_impl"]}
{"id": "C66", "title": "Which files read the same in both byte orders", "statement": "The same words written little-endian and big-endian give the same answer of new, errors included, unless new asks for 8 bytes at once (64-bit enumerators) or for a word after the type section.", "quantifier": "every content, every version and flags byte", "why_tests_cant": "Two-run property over all contents.", "anchors": ["src/utils/reader.rs::Reader::u32", "src/btf/type_information.rs::TypeInformation::new"]}
{"id": "C67", "title": "Builds with and without overflow checks agree", "statement": "For the same target, every size, location and error that size_of and offset_of report with overflow checks they also report without; where the unchecked build answers, the checked build gives the same answer or panics.", "quantifier": "every type graph, id and path", "why_tests_cant": "Two-run property over all graphs and paths.", "anchors": ["src/btf/type_information.rs::TypeInformation::size_of", "src/btf/type_information.rs::TypeInformation::offset_of"]}
{"id": "C68", "title": "32-bit and 64-bit targets agree", "statement": "With overflow checks, size_of and offset_of on a 32-bit target find what they find on a 64-bit target, or panic.", "quantifier": "every type graph, id and path", "why_tests_cant": "Two-run property over all graphs and paths.", "anchors": ["src/btf/type_information.rs::TypeInformation::size_of", "src/btf/type_information.rs::TypeInformation::offset_of"]}
{"id": "C69", "title": "Answers do not depend on how types are numbered", "statement": "If one file's types are another's with the ids replaced consistently (renumbered or with equal types merged, as deduplication does), size_of gives the same answers, and pointee_tid and offset_of the same answers with the ids replaced, errors and non-termination included.", "quantifier": "every pair of type graphs related by a renaming, every id and path", "why_tests_cant": "Two-run property over all graphs and renamings.", "anchors": ["src/btf/type_information.rs::TypeInformation::size_of", "src/btf/type_information.rs::TypeInformation::pointee_tid", "src/btf/type_information.rs::TypeInformation::offset_of"]}
{"id": "C70", "title": "Queries depend only on the types involved", "statement": "size_of(t) and offset_of(t, path) depend only on the types that an object of type t contains (through aliases, members and elements), and on the pointer size; other types, including what pointers point to, have no effect.", "quantifier": "every pair of type graphs that agree on those types", "why_tests_cant": "Two-run property over all graphs.", "anchors": ["src/btf/type_information.rs::TypeInformation::size_of", "src/btf/type_information.rs::TypeInformation::offset_of"]}
{"id": "C71", "title": "The example programs do not fail silently", "statement": "With the wrong number of arguments the example programs print their usage and touch no file; otherwise they print an answer and return, or panic without printing one.", "quantifier": "every argument list and every behaviour of the file system", "why_tests_cant": "All environments.", "anchors": ["examples/dump-btf.rs::main", "examples/get-type-size.rs::main", "examples/get-type-offset.rs::main"]}
{"id": "C72", "title": "dump-btf prints the types of the file", "statement": "On a readable file dump-btf prints exactly the types of the file, numbered 1, 2, \u2026 in file order, if the file is accepted, and panics otherwise.", "quantifier": "every file content", "why_tests_cant": "All files.", "anchors": ["examples/dump-btf.rs::main"]}
{"id": "C73", "title": "get-type-size prints the size of the named type", "statement": "get-type-size prints an id and a size iff the file can be opened and is accepted, the id is that of the last type with this name, and the size is its size.", "quantifier": "every file system behaviour, file content and name", "why_tests_cant": "All files and names.", "anchors": ["examples/get-type-size.rs::main"]}
{"id": "C74", "title": "get-type-offset prints where the path leads", "statement": "get-type-offset prints a type and an offset iff the file is accepted, the name is known and offset_of answers so; the answer is a C access denoted by the path in the last type with this name.", "quantifier": "every file system behaviour, file content, name and path", "why_tests_cant": "All files, names and paths.", "anchors": ["examples/get-type-offset.rs::main"]}
{"id": "C75", "title": "I/O failures of files are reported as IOError", "statement": "TypeInformation::new on a ReadableFile fails with IOError iff a read of the file failed, whatever the cause; the message is then the text of the operating system's error for the last request, the only one that failed. The other errors are the six of C52.", "quantifier": "every behaviour of the file", "why_tests_cant": "All failure points.", "anchors": ["src/btf/error.rs::From<io::Error>", "examples/dump-btf.rs::ReadableFile"]}
{"id": "C76", "title": "What a compiler writes is read back", "statement": "Every list of type declarations (integers, pointers, arrays, structs with bitfields, enumerations with values, functions, ...) that is written to a BTF file by a straightforward writer is accepted by new, and type i+1 reports exactly the name, size, members, positions, widths, values and ids of declaration i; no other types exist. In big-endian files this excludes 64-bit enumerations.", "quantifier": "every list of declarations whose numbers fit their fields and whose file is below 4 GiB, both byte orders", "why_tests_cant": "All lists of declarations, all names and numbers.", "anchors": ["src/btf/type_information.rs::TypeInformation::new", "src/btf/type_information.rs::TypeInformation::from_id", "src/btf/type_information.rs::TypeInformation::name_of"]}
{"id": "C77", "title": "An incomplete file is never misread", "statement": "If a BTF file is cut off at any point, new on the rest gives what it gives on the whole file, or fails with EOF or InvalidOffset. So if an incomplete file is accepted, the types are those of the whole file.", "quantifier": "every file content and every point where it is cut off; every source and every source that can read more", "why_tests_cant": "All files and all truncation points.", "anchors": ["src/btf/type_information.rs::TypeInformation::new", "src/utils/readable_buffer.rs::ReadableBuffer::read"]}
{"id": "C78", "title": "32-bit builds parse like 64-bit builds, or panic", "statement": "On a 32-bit target with overflow checks new returns the same types or the same error, after the same read requests, as on a 64-bit target, or it panics.", "quantifier": "every source", "why_tests_cant": "Two-run property over all sources.", "anchors": ["src/btf/type_information.rs::TypeInformation::new", "src/utils/reader.rs::Reader::read"]}
{"id": "C79", "title": "Paths can be taken apart", "statement": "offset_of(t, p.q) succeeds iff offset_of(t, p) leads to an object of some type u that is not a bitfield and offset_of(u, q) succeeds (and the sum of the two offsets can be represented); the type is that of the second answer and the offsets add up. Every beginning of a path that succeeds succeeds; what may follow an object depends only on its type.", "quantifier": "every well-formed type graph with unambiguous member names, every pair of paths", "why_tests_cant": "All graphs and paths.", "anchors": ["src/btf/type_information.rs::TypeInformation::offset_of"]}
{"id": "C80", "title": "Declared types are found as declared", "statement": "After the declarations of a compiler are written to a BTF file and read by new: offset_of finds every member of a struct or union without unnamed members at the declared bit position with the declared width and type; size_of answers the declared size; pointee_tid the declared pointee; id_of the last declaration with the name. For any parsed graph: a member name in a struct without unnamed members denotes exactly the first member with that name.", "quantifier": "every list of declarations, every member, both byte orders, every build", "why_tests_cant": "End-to-end over all declarations.", "anchors": ["src/btf/type_information.rs::TypeInformation::new", "src/btf/type_information.rs::TypeInformation::offset_of", "src/btf/type_information.rs::TypeInformation::size_of", "src/btf/type_information.rs::TypeInformation::pointee_tid", "src/btf/type_information.rs::TypeInformation::id_of"]}
{"id": "C81", "title": "How long a lookup takes", "statement": "A lookup examines at most W components for every component of the path, and one more, if the names inside unnamed members differ from the other names (as C requires) and no type consists of more than W structs and unions (itself and its unnamed members); one for each component, and one more, where all members have names (exactly so many if the lookup succeeds). Without the condition on names this fails: files of 38+39n bytes that new accepts make offset_of examine 2^(n+1)-1 components for a one-letter path that is not found, and files of 78+39n bytes 2^(n+1)+1 components for one that is found.", "quantifier": "every type graph and path; every n up to 10^8", "why_tests_cant": "A bound for all graphs and paths; the worst case never terminates in practice.", "anchors": ["src/btf/type_information.rs::TypeInformation::offset_of"]}
{"id": "C82", "title": "Error messages are true", "statement": "The message of an error tells what is wrong. For offset_of: the components of the path before the one concerned lead to a type, and to that type the next component cannot be applied for the reason given (index out of bounds, not indexable, a pointer, not a struct, no such direct member, no size, overflow, bitfield, unknown id); or the text of the path is wrong for the reason given: 'Invalid character at index i' names the first byte that cannot follow what precedes it, 'Unclosed index bracket', 'Empty index' and 'Invalid index value' are about brackets that are unclosed, empty, or too large for usize. For size_of and pointee_tid a reason is given iff it holds. Kind and message belong together, and different reasons have different messages. Two messages (\"Expected name after '.'\", InvalidDigit) are never given. ('Member n not found' does not exclude a member n inside an unnamed member.)", "quantifier": "every type graph, every path string, every id, every build", "why_tests_cant": "All graphs and strings; tests check the kind of a few errors.", "anchors": ["src/btf/type_information.rs::TypeInformation::offset_of", "src/btf/type_information.rs::TypeInformation::size_of", "src/btf/type_information.rs::TypeInformation::pointee_tid", "src/btf/offset.rs", "src/btf/error.rs"]}
{"id": "C83", "title": "Different members occupy different bits", "statement": "In type graphs as C compilers produce them (well-formed, names unambiguous, members of one struct do not overlap), the objects found by two paths from the same type are nested if one path is the beginning of the other, and otherwise occupy disjoint ranges of bits, unless the two paths part at two members of one union (the object itself or an unnamed union inside it).", "quantifier": "every such type graph, every two paths of any length and nesting, every build", "why_tests_cant": "All pairs of paths in all graphs; a wrong member base or element stride would show only for particular shapes.", "anchors": ["src/btf/type_information.rs::TypeInformation::offset_of", "src/btf/type_information.rs::TypeInformation::offset_of_impl", "src/btf/offset.rs::Offset::add"]}
{"id": "C84", "title": "How many reads new makes", "statement": "Whatever the source answers, new makes at most 8 + (type_len + 12)(str_len + 1)/4 read requests, where the lengths are those of the header the source delivered (at most 8 requests if it delivers none). If new succeeds, the number of requests is exactly determined by the types it reports: each name costs one request per character and one for the terminator each time it is referred to. The bound is of the right order: files of 26 + 12k + l bytes take 8 + k(l + 4) requests.", "quantifier": "every source (pure, failing anywhere, answering anything), every build in which addresses fit; the lower bound for all k and l", "why_tests_cant": "The number of requests is bounded only by reasoning about all executions, including failing ones; the worst case is a file of any size.", "anchors": ["src/btf/type_information.rs::TypeInformation::new", "src/utils/file_reader.rs::FileReader", "src/btf/string.rs::parse_string"]}
{"id": "C85", "title": "What the errors of new say", "statement": "An error returned by new is either the error with which the last read request failed, unchanged (kind and text), or made by the crate: then its kind and text are those of a fixed table, the values in the text (magic, kind number, place of the string; upper-case hexadecimal with leading zeros) are those in the file, and the file has the flaw the text tells of. Different flaws have different texts. (The texts about strings give the place in the file, not the offset stored in the record.)", "quantifier": "every file, every source that serves it (and, without the flaw, every source whatever it answers), every build in which addresses fit", "why_tests_cant": "Tests see the text of a few errors; that no file gives another text, or a text about something that is not wrong with it, is a statement about all files.", "anchors": ["src/btf/type_information.rs::TypeInformation::new", "src/btf/error.rs::Error", "src/btf/string.rs::parse_string", "src/btf/kind.rs::Kind::new", "src/btf/file_header.rs::FileHeader::new"]}
{"id": "C86", "title": "The first flaw is reported", "statement": "If a file has several flaws, new reports the first one in a fixed order: the fields of the header and the place of the type section, then record by record: room for the header, its words (the kind before the third word), room for the body, the items in order (a member: its words, its name, its position; an enumerator: name offset, name, value), and the name of the record last. For sources whose error does not depend on earlier requests, such as a buffer, the error is thereby determined by the file: new fails with an error exactly if the first flaw calls for it.", "quantifier": "every file, every source that serves it, every build in which addresses fit", "why_tests_cant": "The order matters only for files with several flaws, of which there are unboundedly many combinations.", "anchors": ["src/btf/type_information.rs::TypeInformation::new", "src/btf/header.rs::Header::new", "src/btf/define_type.rs", "src/btf/struct_union.rs", "src/btf/string.rs::parse_string"]}
{"id": "C87", "title": "The printed text determines the result", "statement": "Every type and the map of all types are printed (Debug) in one fixed way: names in quotes with escapes, absent names as None, lists in order with commas, numbers in decimal, all fields by name. The text determines what was printed: different types, offsets and maps are printed differently, whatever bytes the names are made of; two files whose dumps are alike give the same answers to everything; the text that a type has no size tells which type. The whole output of dump-btf is thereby determined by the file, and the answers of get-type-size and get-type-offset can be read off from their output.", "quantifier": "every type, list of types and file (every name, including quotes, backslashes, control characters, commas and braces in names), every source that serves the file", "why_tests_cant": "Whether a name can imitate the rest of the text, or two different results print alike, is a question about all names and all lists of types.", "anchors": ["examples/dump-btf.rs::main", "examples/get-type-size.rs::main", "examples/get-type-offset.rs::main", "src/btf/type_information.rs::TypeVariant", "src/btf/type_information.rs::TypeInformation::size_of", "src/btf/define_type.rs", "src/btf/offset.rs::Offset"]}
{"id": "C88", "title": "What offset_of answers, on every type graph", "statement": "For every type graph, also those no compiler writes, and for every text, offset_of returns exactly what a small set of rules says: typedefs, qualifiers and forward declarations are followed; an index applies to arrays only, below the element count, with the element size that size_of gives; a name is first looked for in the unnamed members in order, and the first of them in which the lookup does not fail decides; an unnamed member whose offset does not fit, or that is a bitfield, ends the lookup with an error; else the first member with the name is taken. Offsets add up exactly or are an error. If the text is not a path, what precedes the first thing that is wrong is looked up, and the error of that is reported if it has one. The rules determine the answer, and every text is a path or has a unique place where it breaks off.", "quantifier": "every type graph (cyclic, dangling, with duplicate names, overlapping members and bitfields), id, text and build", "why_tests_cant": "Tests compare answers on graphs that compilers write; the rules have to hold in all combinations of errors, panics, unnamed members and offsets.", "anchors": ["src/btf/type_information.rs::TypeInformation::offset_of", "src/btf/type_information.rs::TypeInformation::offset_of_impl", "src/btf/type_information.rs::TypePathComponentIter", "src/btf/offset.rs::Offset"]}
{"id": "C89", "title": "Exactly when offset_of never returns", "statement": "offset_of runs for ever (until the stack is exhausted) on an id and a text exactly if its rules lead to a lookup that asks about a type that is an alias of itself, or about an element of an array whose size depends on itself, or to a lookup that leads back to itself. The last happens only in a struct or union that begins with itself, through unnamed members at offset 0. So offset_of returns for every id and text of every graph without these three circles, even if a struct contains an unnamed member of its own type further inside.", "quantifier": "every type graph, id, text and build", "why_tests_cant": "Running for ever cannot be observed by a test, and that nothing else runs for ever is a statement about all graphs.", "anchors": ["src/btf/type_information.rs::TypeInformation::offset_of", "src/btf/type_information.rs::TypeInformation::offset_of_impl", "src/btf/type_information.rs::TypeInformation::size_of"]}
{"id": "C90", "title": "32-bit builds and files below 4 GiB", "statement": "For every source without bytes from 4 GiB - 1 MiB on, whatever it answers below that, a 32-bit build makes the same requests and returns the same as a 64-bit build, with one exception: the header announces a type section that is not empty and lies in the last 12 bytes of the address space. Then a 64-bit build reports that the section is too small for a record, a 32-bit build with overflow checks panics, and one without overflow checks asks for the first word of the record and returns the error of the source. So such a source never makes a 32-bit release build panic or hang, a 32-bit debug build panics exactly in the exceptional case, and both return the types that the file describes.", "quantifier": "every source shorter than 4 GiB - 1 MiB (also one that changes its answers or fails at times), every file of that size, debug and release builds", "why_tests_cant": "Tests run on the 64-bit machine of the developer; that no sequence of offsets and lengths overflows 32 bits, except one, is a statement about all headers and records.", "anchors": ["src/btf/type_information.rs::TypeInformation::new", "src/utils/reader.rs::Reader", "src/btf/file_header.rs::FileHeader::new"]}
{"id": "C91", "title": "Which error offset_of reports", "statement": "When offset_of returns an error, its reason (which determines kind and message) is that of the first obstacle on the way: the lookup goes through the components of the path from left to right, and at each object it reports the first unnamed member whose offset cannot be added to that of the object, or else why the component cannot be applied there, or goes on to the element or to the first member with the name. The tail of a text that is not a path counts only after all components before it have been applied; what is wrong with such a tail is determined too: the first character that no path can have there, an index that is not closed, empty, or too large. There is only one first obstacle, and what happens inside unnamed members never shows in the message. If no struct or union has an unnamed member, there is an error exactly if there is an obstacle.", "quantifier": "every type graph, type, string, and build", "why_tests_cant": "Tests check a handful of messages, each with one thing wrong; which of several errors is reported, for every text and every graph, needs a proof.", "anchors": ["src/btf/type_information.rs::TypeInformation::offset_of", "src/btf/type_information.rs::TypeInformation::offset_of_impl", "src/btf/type_information.rs::TypePathComponentIter", "src/btf/offset.rs::Offset"]}
{"id": "C92", "title": "A source that changes while it is read", "statement": "Whatever a source answers, new reads header and type section from front to back and asks for no byte twice, except for those of the string section (if the type section does not begin in the header). So a source may change while it is read: if no request fails and the names do not change, the result, also an error, is that for one file, which contains everything that was answered; and if even the names change with every request, and only names are read from the string section, all of a successful result but the names is that for one file. In general, if no answer contradicts another one, the result is that for every file that contains the answers. (If the names do change, two types that refer to the same string may get different names.)", "quantifier": "every source (also one whose answers depend on the history of requests), every byte order and every build; on 32-bit targets, sections that can be addressed", "why_tests_cant": "Tests use fixed files; that a result is never a mixture of two states of the source, for every way the source may change, needs a proof over all histories.", "anchors": ["src/btf/type_information.rs::TypeInformation::new", "src/btf/readable.rs::Readable", "src/utils/reader.rs::Reader", "src/btf/file_header.rs::FileHeader::new", "src/btf/string.rs::parse_string"]}
{"id": "C93", "title": "The reported types fill the type section", "statement": "Whatever a source answers, if new succeeds, the records of the reported types (12 bytes each, and what their kind and their number of members, values, parameters or variables add) take exactly as many bytes as the header announces for the type section; only if the last type is an array its record may reach up to 12 bytes beyond the end. So no type is skipped or read twice, and the result is limited by the header: at most type_len/12 types, type_len/8 members, values, parameters and variables, and (type_len+12)\u00b7(str_len+1)/4 characters in all names together. That is no exaggeration: for all n and m, n types can share a name of m characters in a file of 26+12n+m bytes, and are reported with n\u00b7m characters.", "quantifier": "every source, every byte order and every build; on 32-bit targets, sections that can be addressed", "why_tests_cant": "Tests check single files; that no answer of any source makes new skip bytes, read some twice or build a result out of proportion to the header needs a proof over all sources.", "anchors": ["src/btf/type_information.rs::TypeInformation::new", "src/btf/type_information.rs::TypeInformation::get", "src/btf/define_type.rs::define_type", "src/btf/header.rs::Header::new"]}
{"id": "C94", "title": "new loses nothing but unused bits", "statement": "Every word of the type section can be read off the reported types, except for the bits that the format does not use (bits 16-23 and 29-30 of the second word of a record, bits 8-15 and 27-31 of the word of an integer) and the place of the name of an enumerator (the name itself is kept). A second file in the same byte order, with a type section of the same length, gives the same result exactly if its words are the same up to these bits and lead to the same names; so two files that differ in any other bit are told apart.", "quantifier": "every pair of files that can be addressed, every kind of type, every build, both byte orders", "why_tests_cant": "Tests compare single fields of single files; that no bit of any record of any file is dropped, and no unused one matters, ranges over all pairs of files.", "anchors": ["src/btf/type_information.rs::TypeInformation::new", "src/btf/type_information.rs::TypeInformation::get", "src/btf/header.rs::Header::new", "src/btf/int.rs::Data", "src/btf/struct_union.rs::Data", "src/btf/enum.rs::Data", "src/btf/enum64.rs::Data", "src/btf/func_proto.rs::Data", "src/btf/data_sec.rs::Data"]}
{"id": "C95", "title": "The cache saves work, and calls come to an end", "statement": "With the caching feature, as long as no insertion into the cache has panicked: an answer that offset_of has returned once stays in the cache, unchanged, and a thread looks an answer up itself only if no call with the same arguments had been answered when it made its own. Independently of panics: a thread inside offset_of takes at most four steps before the one that ends the call (not counting the time it waits for the lock), and whatever all threads have done so far, a call whose lookup comes to an end without the cache can still be brought to its end, with the same outcome.", "quantifier": "every TypeInformation, every number of threads, every schedule, every panic point", "why_tests_cant": "Whether the cache is used at all cannot be seen from the answers, and whether a call can get stuck depends on the schedule of all threads; tests run few schedules.", "anchors": ["src/btf/type_information.rs::TypeInformation::offset_of"]}
{"id": "C96", "title": "The reader reads exactly and never loses its place", "statement": "Reader::u8, u16, u32 and u64 return exactly the number that the bytes delivered by the source contain in the byte order that is set, and i8, i16, i32 and i64 the same number in two's complement; each advances the offset by its size and leaves the byte order alone. If the source refuses, its error is passed on unchanged and the offset does not move. Reading a string leaves byte order and offset as they were, on success and if the source refuses a byte or the string offset is wrong (not if the string has no end; new stops then).", "quantifier": "every source, every history of requests, every position (whose end can be addressed) and every byte content", "why_tests_cant": "The tests of the module read from three buffers at offset 0; all parsing rests on these functions for every file.", "anchors": ["src/utils/reader.rs::Reader", "src/btf/string.rs::parse_string"]}
{"id": "C97", "title": "Reading a path ends and stays ended", "statement": "Iterating over the components of a path always comes to an end, after at most as many components as the path has bytes; and once the iterator has ended or reported an error, every further call of next says that there is nothing more, so that an error is reported at most once and nothing is read after it.", "quantifier": "every path (any string) and every number of calls of next, also after the end", "why_tests_cant": "There are infinitely many paths and the iterator is a state machine; the tests run it over a handful of paths up to the first error.", "anchors": ["src/btf/type_information.rs::TypePathComponentIter::new", "src/btf/type_information.rs::TypePathComponentIter::next"]}
{"id": "C98", "title": "Offsets can be compared and regrouped", "statement": "Two offsets are equal (==) exactly if they denote the same bit position with the same width, so that an offset has only one representation. Addition of offsets is associative (one grouping has a sum if and only if the other has, and it is the same; only the kind of an error may depend on the grouping), adding zero changes nothing, and the sum determines either operand from the other.", "quantifier": "all offsets", "why_tests_cant": "There are 2^64 bitfield offsets and 2^32 byte offsets; the tests add ten pairs.", "anchors": ["src/btf/offset.rs::Offset", "src/btf/offset.rs::Add"]}
{"id": "C99", "title": "The exact requests of new", "statement": "If new succeeds, the requests it has made to the source are exactly those listed for the file, in this order, each once: the eight fields of the header, then for each record its three words, the words of its body and, where the name offset is not zero, the bytes of the name one by one up to the terminator (a name of a member or enumerator right after it is referred to; the name of the record last). So they depend only on the file, not on the source or the build. Whatever the source answers, every request is for 1, 4 or 8 bytes, or for the first 2 bytes.", "quantifier": "every file, every source that serves it and every build in which addresses fit; the sizes: every source whatever it answers, every build", "why_tests_cant": "Tests count or log requests for a few files at best; who implements Readable has to be prepared for every file.", "anchors": ["src/btf/type_information.rs::TypeInformation::new", "src/utils/reader.rs::Reader::read", "src/btf/readable.rs::Readable"]}
{"id": "C100", "title": "Sections can be moved, and types can be added at the end", "statement": "A file with the same type and string sections at other places gives the same result. If more records are added behind the type section, and more bytes behind the string section, and the result is accepted, then all earlier types keep their ids, their contents and their names; a name leads to the same type as before unless an added type has the same name, and then to the added one; size_of, pointee_tid and offset_of answer the same about every earlier type that involves no id beyond the earlier ones. One exception: if the type involves pointers and a type named list_head is added, the size of pointers changes.", "quantifier": "every accepted file, every file with the same sections at any other places and with anything added behind them; every id, name, path and build", "why_tests_cant": "Tests use a handful of files with the usual section order; split BTF and concatenation by tools depend on this for every file.", "anchors": ["src/btf/type_information.rs::TypeInformation::new", "src/btf/type_information.rs::TypeInformation::size_of", "src/btf/type_information.rs::TypeInformation::id_of", "src/btf/file_header.rs::FileHeader"]}
{"id": "C101", "title": "The exact requests for a file that is refused", "statement": "If new refuses a file, the places it has asked the source for are exactly those listed for the file, in this order: the first two bytes if they are no magic; the fields of the header up to the first one that is missing; the header if the type section ends behind 4 GiB; otherwise the header and then the records as for an accepted file, up to the first word, kind, section end, string or member offset that cannot be decoded, and nothing beyond (of a string that does not end: its bytes one by one up to the end of the section or up to the first byte that is missing). So the places depend only on the file, not on the source or the build; and a file is accepted exactly if it has a list for accepted files, and refused exactly if it has one for refused files.", "quantifier": "every file, every source that serves it and every build in which addresses fit", "why_tests_cant": "Tests of refused files check the error of a few files; what a hostile file makes the source do has to be known for every file.", "anchors": ["src/btf/type_information.rs::TypeInformation::new", "src/utils/reader.rs::Reader::read", "src/btf/string.rs::parse_string", "src/btf/readable.rs::Readable"]}
{"id": "C102", "title": "Members can be renamed together with the paths", "statement": "If members are given other names (unnamed ones stay unnamed) and the names in a path are changed accordingly, offset_of has the same result: the same type and offset, the same error, or no end. Accordingly means: a member has the old name in the path before exactly if it has the new one afterwards. So what members that are not named in the path are called does not matter. size_of and pointee_tid do not depend on the names of members.", "quantifier": "every pair of type graphs that differ in names of members only, every id, every pair of texts (paths or not)", "why_tests_cant": "A rename of members is a relation between two files and all paths; tests rename one member.", "anchors": ["src/btf/type_information.rs::TypeInformation::offset_of", "src/btf/type_information.rs::TypeInformation::size_of", "src/btf/type_information.rs::TypeInformation::pointee_tid"]}
{"id": "C103", "title": "Which members of a file can be named in a path", "statement": "The name of a member in a file can be written in a path exactly if it is not empty, does not start with a digit and consists of ASCII letters, digits, underscores and 18 of the Latin-1 characters above 127. Such a member, the first with the name in a struct or union without unnamed members, is found by its name. What all other members are called has no influence on offset_of for any text: no text finds them. A name is reported as it is stored only if it is ASCII.", "quantifier": "every name (byte string), type graph, id and text", "why_tests_cant": "Tests use ASCII identifiers; which of all byte strings work is a statement about two encodings and a grammar.", "anchors": ["src/btf/type_information.rs::TypeInformation::offset_of", "src/btf/type_information.rs::TypePathComponentIter", "src/btf/string.rs::parse_string"]}
{"id": "C104", "title": "Arrays of arrays are addressed row by row", "statement": "On an array of arrays of .. of objects (also through typedefs and qualifiers), [i]..[k] with one index per dimension succeeds exactly if every index is in bounds and the offset fits in 32 bits; the answer is the type of the innermost objects, at the number of the objects before it (row by row, as in C) times their size; otherwise it fails with InvalidTypePath or InvalidOffset, and with InvalidTypePath if the array is not larger than 4 GiB. Different indices in bounds give different objects, all of them are reached, and together they are the whole array.", "quantifier": "every type graph, number and sizes of dimensions, indices and build", "why_tests_cant": "Tests check one or two dimensions with small sizes; the bounds of every dimension and all overflows of intermediate offsets need induction over the dimensions.", "anchors": ["src/btf/type_information.rs::TypeInformation::offset_of", "src/btf/type_information.rs::TypeInformation::size_of"]}
{"id": "C105", "title": "The order and the grouping of members do not matter", "statement": "On a well-formed type graph with distinct member names (as in C39), if the members of structs and unions are listed in another order, and unnamed structs and unions are replaced by their members at their places, then offset_of succeeds for the same ids and paths with the same types and offsets, and fails for the same ones. size_of and pointee_tid are the same on every type graph. With two members of the same name the order does matter: the first is found.", "quantifier": "every pair of such type graphs, any number of reordered and opened structs, every id and text, every build", "why_tests_cant": "A relation between two files for all paths: moving members into or out of unnamed structs is a change programmers make without expecting any effect on lookups; tests have a few fixed structs.", "anchors": ["src/btf/type_information.rs::TypeInformation::offset_of", "src/btf/type_information.rs::TypeInformation::size_of", "src/btf/type_information.rs::TypeInformation::pointee_tid"]}
{"id": "C106", "title": "It does not matter where strings are stored", "statement": "If a file is accepted, then another file (in the same byte order, with a type section of the same length) is accepted with a result that is the same but for the reported string offsets exactly if the words of its type section agree up to unused bits and string offsets, and the offsets lead to the same strings. So the string section may be reordered, extended, deduplicated, and strings may share their ends. Between two such results from_id agrees up to the string offsets, and name_of, id_of, size_of, pointee_tid and offset_of agree for every argument.", "quantifier": "every accepted file, every other file, every id, name and path, every source, build and target", "why_tests_cant": "A relation between all pairs of files; tools that deduplicate strings (pahole, libbpf) produce such pairs, tests read a fixed file.", "anchors": ["src/btf/type_information.rs::TypeInformation::new", "src/btf/string.rs::parse_string", "src/btf/type_information.rs::TypeInformation::id_of", "src/btf/type_information.rs::TypeInformation::offset_of"]}
{"id": "C107", "title": "How large the cache gets", "statement": "With the caching feature: the cache never holds more entries than calls of offset_of have been answered, and as long as no insertion has panicked it holds one entry for exactly those arguments for which a call has succeeded; a lookup that fails leaves nothing. There is no other limit: whatever the file, the cache can get an entry for each of the 2^32 ids (the empty path is answered for all of them), and if the file contains an array with an element that has a size, any number of entries ([0], [00], [000], .. are different keys).", "quantifier": "every TypeInformation, number of threads, schedule, panic point and number of entries", "why_tests_cant": "A bound over all histories of calls, and growth beyond every bound; a test makes a fixed number of calls and cannot see the size of the cache.", "anchors": ["src/btf/type_information.rs::TypeInformation::offset_of", "src/btf/type_information.rs::TypeInformation::offset_cache"]}
{"id": "C108", "title": "How a path is spelled does not matter, what it says does", "statement": "Two accepted texts with the same names and numbers in the same order ([07].b. and [7].b) have the same outcome for every type graph and id; so have two texts that are not paths but agree up to what is wrong. Every accepted text can be replaced by the plain spelling: numbers without leading zeros, a dot before every name but the first, nothing at the end. Conversely, two paths that each lead somewhere in some file, and differ in a name or number or in their length, are different: there is a file in which one of them leads somewhere and the other one fails. A path leads somewhere in some file exactly if all its numbers are below 2^32 - 1 and all its names can be the Latin-1 reading of bytes.", "quantifier": "every text, type graph, id and build; for the converse every pair of paths of up to 128 MiB", "why_tests_cant": "Ranges over all pairs of texts and all type graphs, and needs a file for every pair of different paths.", "anchors": ["src/btf/type_information.rs::TypePathComponentIter::next", "src/btf/type_information.rs::TypeInformation::offset_of"]}
{"id": "C109", "title": "From C types to answers", "statement": "Take any C type: numbers, pointers, arrays, structs and unions, typedefs and qualifiers, nested to any depth, with the positions chosen by the compiler; bitfields and unnamed members included. If it obeys the rules of C (no name twice, members inside, whole bytes unless it is a bitfield) and is smaller than 512 MiB, then in every type graph in which an id stands for it, size_of answers sizeof, and for every path offset_of answers offsetof: the type, the position in bits and the width of what C finds there, or InvalidTypePath if C finds nothing; every text that is not a path gives InvalidTypePath too. The file written for a typedef of such a type, in either byte order, is accepted, and the name is found in it.", "quantifier": "every C type of any depth and number of members, every path, type graph, build, source and byte order", "why_tests_cant": "Ranges over all C types and all paths; the expected answer is defined on the type tree, as in C, not by following ids.", "anchors": ["src/btf/type_information.rs::TypeInformation::offset_of", "src/btf/type_information.rs::TypeInformation::size_of", "src/btf/type_information.rs::TypeInformation::new"]}
{"id": "C110", "title": "Everything that can be looked up in a C type", "statement": "Going through a C type once, without looking anything up, one can list all places in it: the object itself, the members, the members of unnamed members, the elements, and all that is in them, with path, position, width and type. In every type graph in which an id stands for the type, offset_of succeeds exactly for the texts whose names and numbers are a path of that list, and answers what the list says; every path of the list has a text, its plain spelling, unless a name in it cannot be written. No path is in the list twice, and all of it lies inside the object.", "quantifier": "every C type as in C109, every text, type graph and build", "why_tests_cant": "Ranges over all types and texts; a test can look up some members, not show that there is nothing else to be found.", "anchors": ["src/btf/type_information.rs::TypeInformation::offset_of", "src/btf/type_information.rs::TypePathComponentIter"]}
{"id": "C111", "title": "What the example programs say when they fail", "statement": "The examples panic exactly for these reasons, the first that applies: the file cannot be opened; loading fails; the name is not known; the query fails; an overflow in the crate. For a failed load the panic is about the first flaw of the file, for a failed query about the reason of the failure. The message of the panic is the Debug text of that error, with its kind and its message, and different errors have different texts; for every error that new itself makes it is the message in quotes, unchanged.", "quantifier": "every file, list of arguments and build; every way of quoting that agrees with the standard library on characters below 256 and keeps texts apart", "why_tests_cant": "Ranges over all files and arguments and all errors; a test provokes a few panics.", "anchors": ["examples/get-type-offset.rs::main", "examples/get-type-size.rs::main", "examples/dump-btf.rs::main", "src/btf/error.rs::Error"]}
{"id": "C112", "title": "A whole header file of C types", "statement": "A file made from any list of C types (typedefs, qualifiers, structs and unions with or without tag, arrays, pointers of any size, numbers, bitfields, nested in any way), in either byte order, is accepted. Every typedef name and every tag in it, at any depth, is found by id_of, and for the id found size_of and offset_of answer what sizeof and offsetof give for that type; also if the name occurs many times, or is both a tag and a typedef of the same struct. Any other name is not found (but list_head, which every such file has: the crate takes the size of pointers from it).", "quantifier": "every list of C types in which a name has one meaning, every byte order, pointer size and build, every path", "why_tests_cant": "Ranges over all header files; a test has one file with a few types.", "anchors": ["src/btf/type_information.rs::TypeInformation::new", "src/btf/type_information.rs::TypeInformation::id_of", "src/btf/type_information.rs::TypeInformation::offset_of", "src/btf/type_information.rs::TypeInformation::size_of"]}
{"id": "C113", "title": "From a C header file to what is printed", "statement": "For a file made from a header file as in C112: get-type-size, given a name of the header, prints what sizeof gives; get-type-offset prints what offsetof gives for every path that C compiles, and for every other text panics with InvalidTypePath; for a name that is not in the header (and is not list_head, which every such file has) both panic because there is none. With the caching feature, in whatever order any number of threads call offset_of, every call that ends gives these answers.", "quantifier": "every header file, byte order, pointer size and build, every name and path, every schedule", "why_tests_cant": "Ranges over all header files, arguments and schedules.", "anchors": ["examples/get-type-offset.rs::main", "examples/get-type-size.rs::main", "src/btf/type_information.rs::TypeInformation::offset_of"]}
{"id": "C114", "title": "The BTF of kernel modules", "statement": "The BTF of a kernel module continues that of the kernel: its string offsets go on where those of the kernel's string table end. The crate has no notion of a base. Loading the BTF of a module succeeds exactly if the offsets of all its names happen to be inside the module's own string table; otherwise the error is InvalidStringOffset. In particular every module with a name of its own whose string table is not longer than the kernel's is refused. If a module is accepted, its types are numbered from 1, and each is reported under the name found at its offset in the module's own string table (not in that of the kernel followed by it), whatever that is. If the type sections of kernel and module are put one after the other in one file, and their string sections too, the file is read correctly: all types are as declared, and those of the module have the ids that follow the kernel's, which keep theirs. More generally, a file with any string table and any name offsets is accepted exactly if all offsets that are looked up are inside the table.", "quantifier": "every list of declarations, every string table of the base, both byte orders, every build and target, every source", "why_tests_cant": "Ranges over all modules and all kernels.", "anchors": ["src/btf/string.rs::parse_string", "src/btf/type_information.rs::TypeInformation::new", "src/btf/file_header.rs::FileHeader"]}
{"id": "C115", "title": "C types in files of any compiler, and in kernel modules", "statement": "It does not matter who has written a file, in what order its types are, and which of them share an id: if every id with a given name stands for the same C type (up to typedefs and qualifiers), then id_of finds the name, size_of answers sizeof for the id found, and offset_of answers offsetof for every path: the offset and the bitfield width of what it leads to, with an id of the right size, or InvalidTypePath if C would not compile it or the text is not a path. Also, if a kernel with the types of one header file and a module with the types of another are put in one file as in C114, all typedefs and tags of both are found with the answers of C.", "quantifier": "every file that is accepted, every name and C type, every path; every pair of header files", "why_tests_cant": "Ranges over all files and types.", "anchors": ["src/btf/type_information.rs::TypeInformation::id_of", "src/btf/type_information.rs::TypeInformation::size_of", "src/btf/type_information.rs::TypeInformation::offset_of"]}
{"id": "C116", "title": "Following pointers as C does", "statement": "A header file of C types (as in C112) whose pointers point to types of it in any way, also in circles. In its file, in either byte order, the id that id_of gives for a name is that of a type with this name and meaning. Start there, or at any other type of the header, and follow pointers: offset_of with a path, pointee_tid for the id it gives, offset_of again for the id that gives, and so on. This succeeds exactly if in C every path leads to a pointer (also with qualifiers or through typedefs), and it ends at the type where C ends, after any number of steps; and at every type on the way size_of and offset_of answer what C gives. pointee_tid of anything that is not a pointer fails with InvalidTypeID. The same holds for the file of a kernel and a module (as in C115), with pointers from the types of one to those of the other.", "quantifier": "every header file, byte order, pointer size and build, every list of texts", "why_tests_cant": "The walks can have any length, on type graphs with circles.", "anchors": ["src/btf/type_information.rs::TypeInformation::pointee_tid", "src/btf/type_information.rs::TypeInformation::offset_of", "src/btf/type_information.rs::TypeInformation::id_of"]}
{"id": "C117", "title": "Incomplete types", "statement": "A declaration such as 'struct file;' introduces a name without a meaning. In the file of a header file (as in C112), the records of such declarations come before or after the others. The file is accepted, in either byte order. The id of every such record answers as an incomplete type: name_of gives the name, size_of fails with NotSized, offset_of fails with InvalidTypePath for every text but the empty one, pointee_tid fails with InvalidTypeID. Every type of the header answers as in C. A name that has a record after the types is that of an incomplete type for id_of, also if the header defines it (the crate then does not find its size, which C knows). Any other name that is defined has its meaning, also if there is a record before. A name that is only declared is found as incomplete, and all others are not found.", "quantifier": "every header file, every list of names declared before and after it, byte order, pointer size and build, every text", "why_tests_cant": "Which of several records with one name is found depends on all of the file.", "anchors": ["src/btf/type_information.rs::TypeInformation::id_of", "src/btf/type_information.rs::TypeInformation::size_of", "src/btf/type_information.rs::TypeInformation::offset_of"]}
{"id": "C118", "title": "C types among functions, variables and everything else", "statement": "The file of a program has more than the types of a header file: functions, variables, enumerations, sections, tags. If such declarations, any of them in any order, come before and after the types of a header file (as in C112), then the file is accepted (in big-endian order if there are no 64-bit enums), everything is read as declared, under the id of its place, and every type of the header, whatever its id, answers as in C. Names of all kinds are in one place, other than in C: id_of finds the last declaration with the name. So a typedef or tag of the header has its meaning exactly as in C112 if no declaration after the header has the same name, whatever is before; if one has, such as a function with the name of a struct, id_of finds the last of these; a name that is only in declarations before is that of the last of them; and any other name is not found.", "quantifier": "every header file, all declarations before and after it, byte order, pointer size and build, every path", "why_tests_cant": "Holds for programs of every size and composition, and every clash of names.", "anchors": ["src/btf/type_information.rs::TypeInformation::new", "src/btf/type_information.rs::TypeInformation::id_of", "src/btf/type_information.rs::TypeInformation::size_of", "src/btf/type_information.rs::TypeInformation::offset_of"]}
{"id": "C119", "title": "Following pointers in any program", "statement": "In any file in which some ids answer like C types (size_of, offset_of and pointee_tid as C says), and in which the pointers in these types lead to such ids again or to dead ends, following pointers as in C116 from any of these ids leads exactly where it leads in C, through any number of pointers. In particular this holds in the file of C118, the types of a header file among any other declarations, in either byte order, if the pointers of the header lead to its own types, to void, to functions and prototypes, and to incomplete types, before or after it: a walk goes on in types of the header only. Every name of the header that is not declared again after it stands for the type with that name and meaning, with an id by its place in the file.", "quantifier": "every file and numbering of C types; every header file, all declarations before and after it, byte order, pointer size and build, every list of texts", "why_tests_cant": "Walks can have any length, on type graphs with circles and dead ends.", "anchors": ["src/btf/type_information.rs::TypeInformation::pointee_tid", "src/btf/type_information.rs::TypeInformation::offset_of", "src/btf/type_information.rs::TypeInformation::id_of"]}
{"id": "C120", "title": "The same C type in two files", "statement": "If in two files, by any compilers, all ids with a name stand for types with the same meaning in C (equal up to typedefs and qualifiers, names of which no path can ask for), then both files find the name, and the ids they find answer the same: the same size_of, and for every path offset_of returns the same error, or the same Offset with ids of types with the same size. The two may run in a debug and in a release build, for targets with the same usize. In particular this holds for any two programs as in C118, with the types of any header files among any other declarations, in either byte order: for every name which both headers declare with the same meaning and which is not declared again later.", "quantifier": "every pair of files, every C type, every name and path, both builds; every pair of programs and byte orders", "why_tests_cant": "Whether an answer depends on the file or only on the type can only be asked of all files that have the type.", "anchors": ["src/btf/type_information.rs::TypeInformation::size_of", "src/btf/type_information.rs::TypeInformation::offset_of", "src/btf/type_information.rs::TypeInformation::id_of"]}
{"id": "C121", "title": "The layout of structs", "statement": "Take C types as they are in the source, without positions: numbers with size and alignment, pointers, arrays, structs and unions (also unnamed ones inside others), bitfields, typedefs and qualifiers, nested to any depth. A compiler with the usual rules (System V ABI: every member of a struct begins at the first multiple of its alignment behind the member before it, a bitfield at the next bit, unless it would cross a boundary of its type: then at the first multiple of its alignment, members of unions at 0; the size is the first multiple of the greatest alignment) writes a file for a header of such types, among any other declarations, in either byte order. The file is accepted, and for every type of the header, under its id, and under its name unless that is declared again later, size_of answers the size by these rules, and for every path that C compiles offset_of answers the place and the width by these rules, with an id of a type of the right size. What is there lies inside the object, and begins at a byte that is a multiple of its alignment, unless it is a bitfield (which lies in one unit of its type, if that is aligned to its size). Every other text gives InvalidTypePath. pointee_tid of these ids gives the target of a pointer, and InvalidTypeID for anything else. So for the file of such a header get-type-size and get-type-offset print the size and the place by these rules, and with the caching feature offset_of answers so in any number of threads, however they are scheduled.", "quantifier": "every list of C types of any depth in which a name has one meaning, all other declarations, every byte order, pointer size (a power of two) and build, every text, every schedule", "why_tests_cant": "That a file gives the places which a compiler has chosen is a statement about all types.", "anchors": ["src/btf/type_information.rs::TypeInformation::offset_of", "src/btf/type_information.rs::TypeInformation::size_of", "src/btf/type_information.rs::TypeInformation::new"]}
{"id": "C122", "title": "Structs that grow", "statement": "Members are added at the end of a struct or union, as it is in the source, and a compiler with the rules of C121 lays it out again, in another file, of another header, in either byte order, read by any build with the same target width. Every text for which offset_of gave an offset in the first file, for this type (also through typedefs and qualifiers), leads to the same offset, byte and bits, in the second; and size_of gives the same for the ids that the two answers name, unless the text is the empty path, that is, names the whole; that has not become smaller.", "quantifier": "every struct or union of C source, every list of further members, every text, all pairs of files and builds of one target width", "why_tests_cant": "That nothing that was found moves is a statement about all structs, all additions and all paths.", "anchors": ["src/btf/type_information.rs::TypeInformation::offset_of", "src/btf/type_information.rs::TypeInformation::size_of"]}
{"id": "C123", "title": "Types without pointers", "statement": "Take a type of C source that contains no pointer, at any depth (numbers of given size and alignment, arrays, structs, unions, bitfields, typedefs, qualifiers). Compilers with the rules of C121 for two targets with pointers of different size, for two headers with this type, write two files, in any byte orders. All answers about the type are the same in both: the same size_of, and for every text offset_of returns the same error, or the same Offset, with ids of types of the same size. With pointers this is not so: the second element of an array of pointers is at byte 8 or at byte 4.", "quantifier": "every C type without pointers, every text, every two sizes of pointers, all pairs of files and builds that read them (with the same usize)", "why_tests_cant": "That a layout does not depend on the target is a statement about all types and all paths.", "anchors": ["src/btf/type_information.rs::TypeInformation::offset_of", "src/btf/type_information.rs::TypeInformation::size_of"]}
{"id": "C124", "title": "Structs that begin alike", "statement": "Take structs and unions of C source, laid out by the rules of C121, in one file or in two, in either byte order. If two structs (or two unions) begin with the same members, every path that begins with one of these members (also one inside an unnamed member) and that C compiles leads offset_of to the same Offset in both, and to ids of types of the same size. If a struct or union begins with a member that is not a bitfield, with a type B, then offset_of gives for the path with the name of the member before it the same error as for B, or the same Offset, with ids of types of the same size; if the member has no name, whatever is found in B by a path with a name is found at the same place by the same path.", "quantifier": "every pair of structs or unions of C source with common first members, every struct or union with a first member, every path, all pairs of files and builds of one target width", "why_tests_cant": "That no path to a common member depends on what comes after it is a statement about all structs and all paths.", "anchors": ["src/btf/type_information.rs::TypeInformation::offset_of", "src/btf/type_information.rs::TypeInformation::size_of"]}
{"id": "C125", "title": "Members are in the order of the source", "statement": "Take a struct of C source, laid out by the rules of C121 (also through typedefs and qualifiers), and divide the list of its members anywhere. Whatever offset_of finds by a path whose first name is one of the first members (or of a member inside an unnamed one of these) ends before or where that begins which it finds by a path whose first name is one of the later ones: the bits of the one offset, plus its width, or, if it is not a bitfield, 8 times what size_of answers for its id, are at most the bits of the other.", "quantifier": "every struct of C source, every division of its members, every two paths, every file and build", "why_tests_cant": "That nothing found overlaps what comes later is a statement about all structs and all pairs of paths.", "anchors": ["src/btf/type_information.rs::TypeInformation::offset_of", "src/btf/type_information.rs::TypeInformation::size_of"]}

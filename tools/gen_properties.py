#!/usr/bin/env python3
"""Writes /verif/properties.jsonl (one JSON object per line)."""
import json, os
TI="src/btf/type_information.rs"
P=[]
def p(title, statement, quantifier, why, anchors):
    P.append(dict(id="C%02d"%(len(P)+1), title=title, statement=statement, quantifier=quantifier, why_tests_cant=why, anchors=anchors))

p("The constructor is total: no panic and no endless loop",
  "On a 64-bit target, TypeInformation::new returns Ok or Err for every Readable; it never panics (arithmetic overflow, indexing) and never loops for ever, in debug and in release builds.",
  "every Readable, including one whose answers are adversarial and change from call to call; every header field value; debug and release",
  "The input space is every byte string and every I/O behaviour; a test shows absence of panics only for the files it feeds.",
  [TI+"::TypeInformation::new","src/btf/header.rs::Header::new","src/btf/define_type.rs::define_type!","src/btf/string.rs::parse_string","src/utils/reader.rs::Reader::read"])
p("Every reported type is what the file says",
  "If TypeInformation::new succeeds on a file, then get() is exactly the list of records the BTF format assigns to the bytes of the type section: record k starts where record k-1 ended, the first starts at hdr_len+type_off, and every field (name, size, ids, members, values, parameters, variables, header) is the format's reading of the words of that record.",
  "every file content (byte string), both endiannesses, every number and mix of records",
  "Unit tests check one hand-made record per kind; correctness of long mixed sequences and all field values is a statement about all files.",
  [TI+"::TypeInformation::new","src/btf/int.rs","src/btf/struct_union.rs","src/btf/enum.rs","src/btf/enum64.rs","src/btf/func_proto.rs","src/btf/data_sec.rs","src/btf/array.rs","src/btf/var.rs","src/btf/decl_tag.rs"])
p("Every well-formed file is accepted and decoded",
  "If the type section of a file is a sequence of well-formed records (known kinds, names inside the string section, byte-aligned members when kind_flag is clear), TypeInformation::new returns Ok and get() lists exactly those records under ids 1, 2, ..., n in file order.",
  "every abstract sequence of records, any header length / section placement, trailing data, both endiannesses",
  "A round-trip law ranges over all record sequences and layouts; tests only round-trip a handful of literals.",
  [TI+"::TypeInformation::new","src/btf/header.rs::Header::new","src/btf/define_type.rs"])
p("The result does not depend on the byte order of the file",
  "Writing the same BTF content little-endian or big-endian gives the same TypeInformation.",
  "every record sequence and layout, both byte orders",
  "Tests use one header in big-endian; no test compares full contents in the two byte orders.",
  ["src/utils/reader.rs::Reader::u32","src/utils/reader.rs::Reader::u64","src/btf/enum64.rs::Data::new","src/btf/file_header.rs::FileHeader::detect_endianness"])
p("Only the two BTF magics are accepted, and they fix the byte order",
  "new fails with InvalidMagic iff the first two bytes can be read and are neither 9F EB nor EB 9F; with 9F EB every later integer is read little-endian, with EB 9F big-endian.",
  "every file content / Readable answer",
  "All 65536 magics times all contents.",
  ["src/btf/file_header.rs::FileHeader::new","src/btf/file_header.rs::FileHeader::detect_endianness"])
p("Type ids are dense, start at 1 and follow file order",
  "After new succeeds with n types, get() has exactly the keys 1..n in ascending order, from_id(0) is Void, from_id(t) is the t-th record for 1<=t<=n and None for t>n.",
  "every Readable on which new succeeds, every tid",
  "Quantifies over every file and all 2^32 ids.",
  [TI+"::TypeInformation::new",TI+"::TypeInformation::from_id",TI+"::TypeInformation::get"])
p("The id counter can never wrap",
  "The number of types n satisfies 12*n <= type_len, so the u32 id counter never overflows and no type overwrites another.",
  "every Readable on which new succeeds",
  "Would need a 48 GiB type section to observe.",
  [TI+"::TypeInformation::new"])
p("name_of agrees with the type itself",
  "For every id t, name_of(t) is the name carried by from_id(t) (\"void\" for 0), and is None exactly when the type is unnamed, of a nameless kind, or absent.",
  "every Readable on which new succeeds, every tid",
  "Three maps are filled independently; agreement is an invariant over all insert histories.",
  [TI+"::TypeInformation::name_of",TI+"::get_type_enum_value_name",TI+"::TypeInformation::new"])
p("id_of returns the last type with that name",
  "For every name other than \"void\", id_of(name) is Some(t) iff t is the greatest id whose type is called name, None iff no type has the name; id_of(\"void\") is Some(0); hence name_of(id_of(s)) = s.",
  "every Readable on which new succeeds, every name",
  "Kernel BTF has many duplicate names (struct/typedef/func); which one wins is a law over all insertion histories.",
  [TI+"::TypeInformation::id_of",TI+"::TypeInformation::new"])
p("Names are the NUL-terminated strings of the string section",
  "A name with offset o decodes to the bytes from hdr_len+str_off+o up to the first NUL, each byte taken as the Unicode code point of that value, provided the terminator is inside the string section; otherwise new fails with InvalidStringOffset (start outside) or InvalidString (no terminator).",
  "every string section content and every offset",
  "All contents and offsets, including offsets into the middle of strings and unterminated tails.",
  ["src/btf/string.rs::parse_string"])
p("new reads only the header, the type section and the string section",
  "Every read request issued by new lies inside bytes 0..24, the type section (plus at most 12 bytes after it) or the string section named by the header.",
  "every Readable, including failing and adversarial ones; every execution prefix",
  "Concerns all requests issued in all executions.",
  ["src/utils/reader.rs::Reader::read","src/btf/string.rs::parse_string","src/btf/define_type.rs"])
p("Bytes outside those ranges have no influence",
  "Two files that agree on the header, the type section (plus 12 bytes) and the string section give the same result from new.",
  "every pair of files",
  "A two-run (non-interference) property over all pairs of files.",
  [TI+"::TypeInformation::new"])
p("A type section that ends inside a record header is rejected",
  "If a record starts less than 12 bytes before the end of the type section, or the section bounds overflow u32, new fails with InvalidTypeSectionOffset rather than reading a partial record.",
  "every file, every header",
  "All section lengths and record mixes.",
  ["src/btf/header.rs::Header::new"])
p("Unknown kinds are rejected",
  "A record whose 5-bit kind is not 1..19 makes new fail with InvalidBTFKind; kinds 1..19 map to the documented kinds; reserved info bits are ignored.",
  "every 32-bit info word at every record position",
  "2^32 info words at unboundedly many positions.",
  ["src/btf/kind.rs::Kind::new","src/btf/header.rs::Header::new"])
p("I/O errors are never swallowed by new",
  "If any read request fails, new returns that very error kind and issues no further request; if new succeeds, every request succeeded.",
  "every Readable, every failure point",
  "Quantifies over which of the unboundedly many requests fails.",
  ["src/utils/reader.rs::Reader::read",TI+"::TypeInformation::new"])
p("Struct and union member offsets are decoded exactly",
  "With kind_flag clear, a member with raw offset r gets ByteOffset(r/8) if 8 divides r and otherwise new fails with InvalidOffset; with kind_flag set, bit offset = r mod 2^24 and size = r div 2^24, reported as ByteOffset(bit/8) exactly when size = 0 and 8 divides the bit offset.",
  "every 32-bit raw offset, both flag values, every member position",
  "2^33 cases at each of up to 65535 positions.",
  ["src/btf/struct_union.rs::Data::new"])
p("Integer and enum values are decoded exactly",
  "An Int's size/encoding/offset/bits are the documented bit ranges of its words; enum values are the two's-complement (signed) or plain (unsigned) reading of the value words according to kind_flag.",
  "every 32/64-bit word",
  "All 2^32 / 2^64 value words.",
  ["src/btf/int.rs::Data::new","src/btf/enum.rs::Data::new","src/btf/enum64.rs::Data::new"])
p("No record extends past the end of the type section",
  "When new succeeds, every record lies entirely inside the type section.",
  "every file on which new succeeds",
  "All record mixes ending at every distance from the section end.",
  ["src/btf/array.rs::Data::size","src/btf/define_type.rs"])
p("Debug and release builds parse identically",
  "On a 64-bit target, new gives the same answer with and without overflow checks.",
  "every Readable",
  "Equality of two builds over all inputs.",
  ["src/btf/define_type.rs","src/utils/reader.rs::Reader::read"])
p("The constructor is total on 32-bit targets too",
  "TypeInformation::new never panics when usize is 32 bits.",
  "every Readable",
  "Needs a section ending near 2^32.",
  ["src/btf/header.rs::Header::new","src/btf/define_type.rs"])
p("Version, flags and reserved bits are ignored",
  "Changing the version byte, flags byte or the reserved bits of info words does not change what new reports, be it types or an error, provided that the sections overlap neither each other nor the header (hdr_len is not validated).",
  "every file and every value of those bits",
  "Two-run property over all files.",
  ["src/btf/file_header.rs::FileHeader::new","src/btf/header.rs::Header::new"])
p("Offset addition is exact or fails",
  "Offset + u32 and Offset + Offset denote exact addition of bit positions; they fail with InvalidOffset iff the exact result (or the intermediate bit position) does not fit in u32, and with UnexpectedBitfield iff the left operand is a bitfield.",
  "all pairs of offsets",
  "2^64+ operand pairs.",
  ["src/btf/offset.rs::impl Add<u32> for Offset","src/btf/offset.rs::impl Add<Offset> for Offset"])
p("Accumulating offsets is order-insensitive",
  "Adding a list of byte offsets one by one succeeds iff their exact sum fits in u32, and then yields that sum: no partial order of additions can wrap or differ.",
  "every list of offsets",
  "Unbounded lists.",
  ["src/btf/offset.rs"])
p("The path syntax is exactly the documented grammar",
  "A path string is accepted by offset_of's parser iff it is name or [index] followed by any number of .name or [index] parts; it yields precisely those components in order.",
  "every path string",
  "All strings; tests list 16 of them.",
  [TI+"::TypePathComponentIter"])
p("Path parsing never panics",
  "For every &str (any valid UTF-8), parsing the path never slices inside a character nor indexes out of bounds.",
  "every UTF-8 string, every prefix of the iteration",
  "All strings including all multi-byte encodings.",
  [TI+"::TypePathComponentIter::parse_name",TI+"::TypePathComponentIter::parse_index"])
p("Index literals are read as decimal numbers or rejected",
  "[d...d] denotes the decimal value of its digits (leading zeros allowed); it is rejected with InvalidTypePath iff the value does not fit in usize or there are no digits.",
  "every digit string",
  "Unbounded digit strings.",
  [TI+"::TypePathComponentIter::parse_index"])
p("size_of is the size the type graph denotes",
  "size_of(t) = Ok(n) iff n is the size of t: the recorded size for int/float/enum/enum64/struct/union/datasec, count times element size for arrays, half of struct list_head for pointers, the size of the referenced type for typedef/const/volatile/restrict/var/type_tag.",
  "every parsed type graph and every id, any nesting depth",
  "Unbounded nesting and all graphs.",
  [TI+"::TypeInformation::size_of"])
p("Array sizes never silently overflow",
  "size_of on an array whose byte size does not fit in usize reports an error rather than a wrong number.",
  "every array nesting, both build modes",
  "Needs astronomically large nested arrays in both build modes.",
  [TI+"::TypeInformation::size_of"])
p("size_of failures are classified",
  "size_of fails with InvalidTypeID iff the reference chain reaches a missing id (or pointer size cannot be determined) and with NotSized iff it reaches void, func, func_proto, fwd or decl_tag.",
  "every type graph and id",
  "All graphs.",
  [TI+"::TypeInformation::size_of"])
p("pointee_tid follows aliases to the pointer",
  "pointee_tid(t) = Ok(p) iff following typedef/const/volatile/restrict from t reaches a pointer to p; it fails with InvalidTypeID iff the chain reaches anything else or a missing id.",
  "every type graph and id, any chain length",
  "Unbounded chains.",
  [TI+"::TypeInformation::pointee_tid"])
p("size_of and pointee_tid terminate",
  "Both queries return for every id of every successfully parsed file.",
  "every parsed type graph and id",
  "Termination over all graphs, including cyclic ones, is not testable.",
  [TI+"::TypeInformation::size_of",TI+"::TypeInformation::pointee_tid"])
p("offset_of terminates",
  "offset_of returns for every id and path of every successfully parsed file.",
  "every parsed type graph, id and path",
  "Termination over all graphs.",
  [TI+"::TypeInformation::offset_of_impl"])
p("The empty path is the identity",
  "offset_of(t, \"\") = Ok((t, ByteOffset(0))) for every t.",
  "every TypeInformation and tid",
  "All 2^32 ids.",
  [TI+"::TypeInformation::offset_of_impl"])
p("Missing ids are reported",
  "offset_of with a non-empty well-formed path on a chain that reaches a missing id fails with InvalidTypeID; no query ever invents a type.",
  "every type graph, id and path",
  "All dangling references.",
  [TI+"::TypeInformation::offset_of_impl",TI+"::TypeInformation::from_id"])
p("Array indexing is bounds-checked and exact",
  "offset_of(t, \"[i]\") on an array of c elements of size s succeeds iff i < c, the element is sized and i*s fits in u32; the answer is (element id, ByteOffset(i*s)).",
  "every array type, every index",
  "All counts, sizes and indices including overflow boundaries.",
  [TI+"::TypeInformation::offset_of_impl"])
p("Aliases and qualifiers are transparent to offset_of",
  "For a non-empty path, offset_of on a typedef/const/volatile/restrict/fwd of t gives the same answer as on t.",
  "every type graph, chain length and non-empty path",
  "Unbounded chains and paths.",
  [TI+"::TypeInformation::offset_of_impl"])
p("Soundness of offset_of",
  "If offset_of(t, path) = Ok((u, o)) then path denotes a C access from t to an object of type u (through members, anonymous members, array elements and aliases, never through a pointer) and o is the exact sum of the member offsets and index*element-size along it.",
  "every type graph, id and path; any nesting of anonymous members",
  "All graphs and paths, with backtracking.",
  [TI+"::TypeInformation::offset_of_impl"])
p("Completeness of offset_of",
  "On a well-formed type graph (no type depends on itself, member names of one struct distinct, members inside their struct, objects below 512 MiB, unnamed members are not bitfields), if path denotes a C access from t then offset_of(t, path) succeeds, in every build.",
  "every well-formed type graph, id and path",
  "All graphs and paths; the search must never miss a member hidden in nested anonymous members.",
  [TI+"::TypeInformation::offset_of_impl"])
p("offset_of is unambiguous when C is",
  "On a well-formed type graph, if the access denoted by path from t is unique then offset_of returns exactly that access; this is the case for every path if member names, including those of anonymous members, are distinct as C demands.",
  "every well-formed type graph, id and path",
  "All graphs.",
  [TI+"::TypeInformation::offset_of_impl"])
p("Lookup order: anonymous members first, then first named member",
  "When several members match, the first anonymous member (in declaration order) in which the whole remaining path resolves wins; only if none does, the first member with that name is used and no later one is tried.",
  "every struct/union and remaining path",
  "All member lists with duplicates and backtracking.",
  [TI+"::TypeInformation::offset_of_impl"])
p("Unnamed bitfields do not hide other members",
  "A struct containing an unnamed bitfield still lets its named members be looked up.",
  "every struct with an unnamed bitfield",
  "No test has such a struct.",
  [TI+"::TypeInformation::offset_of_impl"])
p("Paths compose",
  "offset_of(t, p) = (u, o1) and offset_of(u, q) = (v, o2) imply offset_of(t, p followed by q) = (v, o1+o2), when accesses are unambiguous.",
  "every well-formed unambiguous type graph, every pair of paths",
  "All pairs of paths.",
  [TI+"::TypeInformation::offset_of_impl",TI+"::TypePathComponentIter"])
p("Located objects lie inside the outer object",
  "If every member of every struct/union lies within its container, a successful byte offset o for type u from t satisfies o + size_of(u) <= size_of(t).",
  "every well-laid-out type graph, id and path",
  "A global invariant over all graphs and paths.",
  [TI+"::TypeInformation::offset_of_impl",TI+"::TypeInformation::size_of"])
p("Distinct array elements do not overlap",
  "offset_of(t,\"[i]\") and offset_of(t,\"[j]\") with i<j differ by exactly (j-i)*size, so elements are disjoint and in order.",
  "every array and all index pairs",
  "All index pairs.",
  [TI+"::TypeInformation::offset_of_impl"])
p("Nothing can be navigated inside a bitfield",
  "If a prefix of the path reaches a bitfield (and names are unambiguous), no longer path through it succeeds; a successful answer is a bit offset only if the last member is a bitfield.",
  "every type graph, id and path (without overflow checks: every well-laid-out type graph)",
  "All graphs/paths.",
  [TI+"::TypeInformation::offset_of_impl","src/btf/offset.rs"])
p("Pointers are never dereferenced",
  "A path component applied to a pointer (directly or through aliases) always fails with InvalidTypePath.",
  "every type graph, id and path",
  "All graphs/paths.",
  [TI+"::TypeInformation::offset_of_impl"])
p("Type tags are transparent",
  "A type tag around a type does not change the answers of size_of, pointee_tid and offset_of.",
  "every type graph with type tags",
  "All graphs.",
  [TI+"::TypeInformation::size_of",TI+"::TypeInformation::pointee_tid",TI+"::TypeInformation::offset_of_impl"])
p("offset_of failures have documented kinds",
  "offset_of can only fail with InvalidTypePath, InvalidTypeID, InvalidOffset, UnexpectedBitfield or NotSized.",
  "every type graph, id and path",
  "All failing executions.",
  [TI+"::OffsetError",TI+"::TypeInformation::offset_of_impl"])
p("The cache is invisible",
  "With the caching feature, every offset_of call returns what the uncached computation returns, for every history of calls by any number of threads, every interleaving of their cache reads and writes, and also when the lock gets poisoned at any point.",
  "every TypeInformation, every number of threads, every schedule, every poisoning point",
  "All interleavings.",
  [TI+"::TypeInformation::offset_of",TI+"::offset_cache"])
p("A successful lookup consumed the whole path",
  "If offset_of succeeds then every byte of the path was consumed as part of a component or separator; no suffix is ignored.",
  "every type graph, id and path",
  "All paths.",
  [TI+"::TypePathComponentIter::next",TI+"::TypeInformation::offset_of_impl"])
exec(open(os.path.join(os.path.dirname(__file__),"more_properties.py")).read()) if os.path.exists(os.path.join(os.path.dirname(__file__),"more_properties.py")) else None
out=os.path.join(os.path.dirname(__file__),"..","properties.jsonl")
with open(out,"w") as f:
    for x in P: f.write(json.dumps(x)+"\n")
print(len(P))

{"claims": [
{"property": "C01", "status": "proved", "theorems": ["Btf.Props.new_total"], "note": "Every Readable (arbitrary function of the request history), 64-bit, both build modes. The model's fuel for the record loop and string loop is shown sufficient."},
{"property": "C02", "status": "partial", "theorems": ["Btf.Props.new_sound_documented_partial", "Btf.Props.new_sound", "Btf.Props.new_record", "Btf.Props.new_sound_refuted", "Btf.Props.new_overrun_refuted"], "note": "False as stated: an array as last record may take its body from beyond the type section, and 64-bit enumerators of big-endian files have their words exchanged (both refuted by a concrete accepted file). Proved for every file without these two, and for every file in the crate's dialect (new_sound, C64)."},
{"property": "C03", "status": "partial", "theorems": ["Btf.Props.new_complete_documented_partial", "Btf.Props.new_complete", "Btf.Props.new_sound_refuted"], "note": "Every documented file with vlen 0 in arrays and without 64-bit enumerations in big-endian files; without these conditions the claim is false. new_complete: every file of the crate's dialect."},
{"property": "C04", "status": "partial", "theorems": ["Btf.Props.byte_order_irrelevant_partial", "Btf.Props.new_same_content_partial", "Btf.Props.meaning_byte_order", "Btf.Props.byte_order_refuted"], "note": "False for 64-bit enumerations (byte_order_refuted). See C66 for the exact statement."},
{"property": "C05", "status": "proved", "theorems": ["Btf.Props.new_magic", "Btf.Props.new_bad_magic", "Btf.Props.new_byte_order"], "note": "Errors of the source that happen to be called InvalidMagic are excluded by a hypothesis."},
{"property": "C06", "status": "proved", "theorems": ["Btf.Props.ids_dense", "Btf.Props.new_holds"], "note": ""},
{"property": "C07", "status": "proved", "theorems": ["Btf.Props.ids_bounded"], "note": ""},
{"property": "C08", "status": "proved", "theorems": ["Btf.Props.name_of_agrees"], "note": ""},
{"property": "C09", "status": "proved", "theorems": ["Btf.Props.id_of_last"], "note": ""},
{"property": "C10", "status": "proved", "theorems": ["Btf.Props.new_name", "Btf.Props.new_string_outside", "Btf.Props.new_string_unterminated", "Btf.Props.new_err_next"], "note": "Names of types; names of members and enumerators are part of new_members, new_enum, new_enum64 and of Decodes."},
{"property": "C11", "status": "proved", "theorems": ["Btf.Props.new_confined"], "note": ""},
{"property": "C12", "status": "proved", "theorems": ["Btf.Props.new_local", "Btf.Props.other_bytes_ignored"], "note": ""},
{"property": "C13", "status": "proved", "theorems": ["Btf.Props.new_partial_header", "Btf.Props.new_partial_body", "Btf.Props.new_section_overflow"], "note": "The body of an array is not checked (C18)."},
{"property": "C14", "status": "proved", "theorems": ["Btf.Props.new_unknown_kind", "Btf.Props.new_kind", "Btf.Props.new_same_content_partial"], "note": "new_kind: the kind, length and flag of every type are functions of bits 24-28, 0-15 and 31."},
{"property": "C15", "status": "proved", "theorems": ["Btf.Props.new_io_errors"], "note": ""},
{"property": "C16", "status": "proved", "theorems": ["Btf.Props.new_members", "Btf.Props.new_misaligned"], "note": "Exactly when the error is that of a misaligned member: new_first_flaw_iff (C86)."},
{"property": "C17", "status": "proved", "theorems": ["Btf.Props.new_int", "Btf.Props.new_enum", "Btf.Props.new_enum64"], "note": "new_enum64 states what is read in each byte order."},
{"property": "C18", "status": "partial", "theorems": ["Btf.Props.new_inside_partial", "Btf.Props.new_overrun_refuted"], "note": "False for an array that is the last record: its 12-byte body may lie after the section."},
{"property": "C19", "status": "proved", "theorems": ["Btf.Props.new_debug_release"], "note": ""},
{"property": "C20", "status": "partial", "theorems": ["Btf.Props.new_total_32_partial", "Btf.Props.new_total_32_refuted", "Btf.Props.new_total_32_release_refuted"], "note": "False: a 24-byte file makes a 32-bit debug build panic, and there is a 4 GiB file on which a 32-bit release build never returns. Proved when the sections end before the last MiB of the address space. See C90 for the exact condition for sources below 4 GiB - 1 MiB."},
{"property": "C21", "status": "proved", "theorems": ["Btf.Props.reserved_ignored", "Btf.Props.version_flags_ignored", "Btf.Props.reserved_overlap_refuted"], "note": "Errors included, also errors in the record whose bits are changed. The condition on the sections is necessary (reserved_overlap_refuted)."},
{"property": "C22", "status": "proved", "theorems": ["Btf.Props.offset_add_u32_ok", "Btf.Props.offset_add_u32_err", "Btf.Props.offset_add_ok", "Btf.Props.offset_add_err"], "note": ""},
{"property": "C23", "status": "proved", "theorems": ["Btf.Props.accumulate_exact", "Btf.Props.accumulate_perm"], "note": ""},
{"property": "C24", "status": "partial", "theorems": ["Btf.Props.path_language_partial", "Btf.Props.path_language", "Btf.Props.path_rejected", "Btf.Props.path_dangling_dot_accepted", "Btf.Props.path_dangling_open_accepted"], "note": "False for a dangling '.' or '['; exact on all other strings. See C63."},
{"property": "C25", "status": "proved", "theorems": ["Btf.Props.path_never_panics"], "note": ""},
{"property": "C26", "status": "proved", "theorems": ["Btf.Props.index_literal"], "note": ""},
{"property": "C27", "status": "proved", "theorems": ["Btf.Props.size_of_ok_iff", "Btf.Props.size_of_exact"], "note": "iff with overflow checks; without them, exact whenever the arrays on the way fit (C58 otherwise)."},
{"property": "C28", "status": "partial", "theorems": ["Btf.Props.size_of_no_wrong_number_partial", "Btf.Props.size_of_overflow_refuted"], "note": "False: the release build wraps, the debug build panics (see C58)."},
{"property": "C29", "status": "proved", "theorems": ["Btf.Props.size_of_invalid_type_id_iff", "Btf.Props.size_of_not_sized_iff", "Btf.Props.size_of_err_kinds"], "note": ""},
{"property": "C30", "status": "proved", "theorems": ["Btf.Props.pointee_tid_ok_iff", "Btf.Props.pointee_tid_err_iff"], "note": ""},
{"property": "C31", "status": "partial", "theorems": ["Btf.Props.queries_return_of_ranked_partial", "Btf.Props.queries_terminate_refuted"], "note": "False: a typedef of itself is accepted by new and makes both recurse for ever. See C57 for the exact condition."},
{"property": "C32", "status": "partial", "theorems": ["Btf.Props.offset_of_terminates_partial", "Btf.Props.offset_of_terminates_refuted"], "note": "False for types that depend on themselves; proved for all others. See C89 for the exact condition."},
{"property": "C33", "status": "proved", "theorems": ["Btf.Props.offset_of_empty"], "note": ""},
{"property": "C34", "status": "proved", "theorems": ["Btf.Props.offset_of_missing", "Btf.Props.offset_of_no_invention"], "note": ""},
{"property": "C35", "status": "proved", "theorems": ["Btf.Props.offset_of_index_ok", "Btf.Props.offset_of_index_bounds", "Btf.Props.offset_of_index_err"], "note": ""},
{"property": "C36", "status": "proved", "theorems": ["Btf.Props.offset_of_alias", "Btf.Props.offset_of_alias_chain"], "note": ""},
{"property": "C37", "status": "partial", "theorems": ["Btf.Props.offset_of_sound_partial", "Btf.Props.offset_of_sound", "Btf.Props.offset_of_sound_parsed_partial", "Btf.Props.offset_of_sound_refuted"], "note": "Full with overflow checks (offset_of_sound). Without, proved if no type is larger than usize can express; false otherwise (offset_of_sound_refuted)."},
{"property": "C38", "status": "proved", "theorems": ["Btf.Props.offset_of_complete"], "note": ""},
{"property": "C39", "status": "proved", "theorems": ["Btf.Props.offset_of_unique", "Btf.Props.offset_of_iff"], "note": ""},
{"property": "C40", "status": "proved", "theorems": ["Btf.Props.lookup_anonymous", "Btf.Props.lookup_named", "Btf.Props.lookup_bitfield", "Btf.Props.lookup_not_found"], "note": "On graphs whose members lie inside their structs (so that no offset overflows)."},
{"property": "C41", "status": "partial", "theorems": ["Btf.Props.unnamed_bitfield_partial", "Btf.Props.unnamed_bitfield_refuted", "Btf.Props.lookup_named"], "note": "False: see C60 for the exact behaviour. The parts that hold: unnamed bitfields do not hide what is inside of unnamed members before them (unnamed_bitfield_partial), and unnamed members that are not bitfields do not hide named ones (lookup_named)."},
{"property": "C42", "status": "proved", "theorems": ["Btf.Props.offset_of_compose"], "note": ""},
{"property": "C43", "status": "proved", "theorems": ["Btf.Props.offset_of_inside"], "note": ""},
{"property": "C44", "status": "proved", "theorems": ["Btf.Props.offset_of_elements_disjoint"], "note": ""},
{"property": "C45", "status": "proved", "theorems": ["Btf.Props.offset_of_bitfield_last", "Btf.Props.offset_of_inside_bitfield"], "note": ""},
{"property": "C46", "status": "proved", "theorems": ["Btf.Props.offset_of_pointer", "Btf.Props.offset_of_scalar"], "note": ""},
{"property": "C47", "status": "partial", "theorems": ["Btf.Props.type_tag_transparent_partial", "Btf.Props.type_tag_refuted"], "note": "True for size_of, false for pointee_tid and offset_of. See C61."},
{"property": "C48", "status": "proved", "theorems": ["Btf.Props.offset_of_error_kinds"], "note": ""},
{"property": "C49", "status": "proved", "theorems": ["Btf.Props.cache_invisible", "Btf.Props.cache_repeatable"], "note": ""},
{"property": "C50", "status": "partial", "theorems": ["Btf.Props.path_consumed_partial", "Btf.Props.path_dangling_dot_accepted", "Btf.Props.path_dangling_open_accepted", "Btf.Props.offset_of_consumes"], "note": "One trailing '.' or '[' is ignored by the crate."},
{"property": "C51", "status": "proved", "theorems": ["Btf.Props.types_sane"], "note": ""},
{"property": "C52", "status": "proved", "theorems": ["Btf.Props.new_error_kinds"], "note": ""},
{"property": "C53", "status": "proved", "theorems": ["Btf.Props.buffer_read", "Btf.Props.buffer_read_32", "Btf.Props.buffer_total", "Btf.Props.buffer_errors", "Btf.Props.buffer_read_32_refuted"], "note": "buffer_read_32_refuted: the restriction to 64 bits is needed."},
{"property": "C54", "status": "proved", "theorems": ["Btf.Props.cache_entries", "Btf.Props.cache_poison", "Btf.Props.cache_frozen", "Btf.Props.cache_no_deadlock", "Btf.Props.cache_exclusive", "Btf.Props.cache_matched"], "note": ""},
{"property": "C55", "status": "proved", "theorems": ["Btf.Props.new_err_sound", "Btf.Props.new_err_complete", "Btf.Props.new_err_of_only", "Btf.Props.new_err_record"], "note": ""},
{"property": "C56", "status": "proved", "theorems": ["Btf.Props.size_of_depth", "Btf.Props.pointee_tid_depth", "Btf.Props.offset_of_depth"], "note": ""},
{"property": "C57", "status": "proved", "theorems": ["Btf.Props.size_of_diverges_iff_cycle", "Btf.Props.pointee_tid_diverges_iff_cycle", "Btf.Props.size_of_diverges_iff", "Btf.Props.pointee_tid_diverges_iff"], "note": ""},
{"property": "C58", "status": "proved", "theorems": ["Btf.Props.size_of_unchecked", "Btf.Props.size_of_checked", "Btf.Props.size_of_release_parsed", "Btf.Props.size_of_ok_iff", "Btf.Props.parsed_sizes_fit"], "note": ""},
{"property": "C59", "status": "proved", "theorems": ["Btf.Props.new_determined", "Btf.Props.content_unique"], "note": ""},
{"property": "C60", "status": "proved", "theorems": ["Btf.Props.unnamed_bitfield_exact", "Btf.Props.lookup_blocked"], "note": ""},
{"property": "C61", "status": "proved", "theorems": ["Btf.Props.size_of_alias", "Btf.Props.type_tag_opaque"], "note": ""},
{"property": "C62", "status": "proved", "theorems": ["Btf.Props.offset_of_panics", "Btf.Props.path_never_panics"], "note": ""},
{"property": "C63", "status": "proved", "theorems": ["Btf.Props.path_language", "Btf.Props.path_rejected", "Btf.Props.path_or_breaks", "Btf.Props.breaks_unique", "Btf.Props.offset_of_consumes", "Btf.Props.offset_of_rejects"], "note": "What exactly is wrong with a rejected text: C91."},
{"property": "C64", "status": "proved", "theorems": ["Btf.Props.new_accepts_iff", "Btf.Props.new_sound", "Btf.Props.new_complete"], "note": ""},
{"property": "C65", "status": "proved", "theorems": ["Btf.Props.offset_of_deterministic"], "note": ""},
{"property": "C66", "status": "proved", "theorems": ["Btf.Props.byte_order_exact"], "note": ""},
{"property": "C67", "status": "proved", "theorems": ["Btf.Props.size_of_builds", "Btf.Props.offset_of_builds", "Btf.Props.offset_of_builds_diverge"], "note": ""},
{"property": "C68", "status": "proved", "theorems": ["Btf.Props.size_of_widths", "Btf.Props.offset_of_widths"], "note": ""},
{"property": "C69", "status": "proved", "theorems": ["Btf.Props.size_of_renumber", "Btf.Props.pointee_tid_renumber", "Btf.Props.offset_of_renumber", "Btf.Props.offset_of_renumber_diverges"], "note": ""},
{"property": "C70", "status": "proved", "theorems": ["Btf.Props.offset_of_local", "Btf.Props.size_of_local"], "note": ""},
{"property": "C71", "status": "proved", "theorems": ["Btf.Props.examples_usage", "Btf.Props.examples_no_silent_failure"], "note": ""},
{"property": "C72", "status": "proved", "theorems": ["Btf.Props.dump_btf_iff"], "note": ""},
{"property": "C73", "status": "proved", "theorems": ["Btf.Props.get_type_size_answers", "Btf.Props.get_type_size_prints"], "note": "get_type_size_prints is for builds with overflow checks; see C58 for sizes that do not fit in builds without."},
{"property": "C74", "status": "proved", "theorems": ["Btf.Props.get_type_offset_answers", "Btf.Props.get_type_offset_prints"], "note": "get_type_offset_prints is for builds with overflow checks; see C37 for the others."},
{"property": "C75", "status": "proved", "theorems": ["Btf.Props.file_io_error", "Btf.Props.file_io_text"], "note": ""},
{"property": "C76", "status": "proved", "theorems": ["Btf.Props.round_trip", "Btf.Props.round_trip_lookup", "Btf.Props.encode_fits"], "note": "The writer is Spec.encode; the exclusion of big-endian 64-bit enumerations is needed, see C64."},
{"property": "C77", "status": "proved", "theorems": ["Btf.Props.new_truncated", "Btf.Props.new_prefix", "Btf.Props.new_extends", "Btf.Props.buffer_extends"], "note": ""},
{"property": "C78", "status": "proved", "theorems": ["Btf.Props.new_widths"], "note": "When it panics: C20, C90. Without overflow checks 32-bit builds may do something else (new_total_32_release_refuted)."},
{"property": "C79", "status": "proved", "theorems": ["Btf.Props.offset_of_join", "Btf.Props.offset_of_beginning", "Btf.Props.offset_of_continue"], "note": ""},
{"property": "C80", "status": "proved", "theorems": ["Btf.Props.declared_member", "Btf.Props.declared_size", "Btf.Props.declared_id", "Btf.Props.offset_of_member", "Btf.Props.offset_of_no_member"], "note": "The writer is Spec.encode, as in C76."},
{"property": "C81", "status": "proved", "theorems": ["Btf.Props.offset_of_steps", "Btf.Props.offset_of_steps_bytes", "Btf.Props.offset_of_steps_plain", "Btf.Props.offset_of_steps_plain_ok", "Btf.Props.offset_of_exponential", "Btf.Props.offset_of_exponential_found", "Btf.Props.offset_of_takes", "Btf.Props.offset_of_takes_unique"], "note": "The steps counted are the calls of the path iterator (Model/Cost.lean); the work between two of them is bounded by C56 and the length of the member list."},
{"property": "C82", "status": "proved", "theorems": ["Btf.Props.offset_of_reason", "Btf.Props.offset_of_reason_accepted", "Btf.Props.offset_of_says_character", "Btf.Props.offset_of_says_bounds", "Btf.Props.offset_of_says_member", "Btf.Props.message_text", "Btf.Props.message_unique", "Btf.Props.message_determines", "Btf.Props.offset_of_never", "Btf.Props.size_of_reason", "Btf.Props.pointee_tid_reason", "Btf.Props.told_same", "Btf.Props.member_not_found_refuted"], "note": "The reasons are made where the code makes the errors (Model/Message.lean); told_same shows that the kinds and all other results are those of the model without messages. member_not_found_refuted is the counterexample to the stronger reading of that message. Which of several possible reasons is reported: C91. Messages of errors of new: C85."},
{"property": "C83", "status": "proved", "theorems": ["Btf.Props.offset_of_disjoint", "Btf.Props.offset_of_nested"], "note": "NoOverlap is what C guarantees about structs; the example zoo_noOverlap shows that the sample graph meets it."},
{"property": "C84", "status": "proved", "theorems": ["Btf.Props.new_requests_bound", "Btf.Props.new_requests_header", "Btf.Props.new_requests_exact", "Btf.Props.new_requests_quadratic"], "note": "Addressable: section ends fit the address width; new_requests_quadratic gives the worst case (finding 15)."},
{"property": "C85", "status": "proved", "theorems": ["Btf.Props.load_error_text", "Btf.Props.load_error_any", "Btf.Props.load_text_determines"], "note": "The table is Spec/LoadMessage.lean; FileFlaw (Spec/Flaws.lean) says where the values come from. wrongKind, an error the code can make, never reaches the user. Finding 16: texts about strings give the place in the file."},
{"property": "C86", "status": "proved", "theorems": ["Btf.Props.new_first_flaw", "Btf.Props.new_first_flaw_iff", "Btf.Props.first_flaw_facts", "Btf.Props.buffer_first_flaw", "Btf.Props.buffer_missing"], "note": "Spec/FirstFlaw.lean lists the needs of the parser in order; the first unmet need is the error. The converse needs a source that gives the same error for the same request (a buffer does)."},
{"property": "C87", "status": "proved", "theorems": ["Btf.Props.debug_text", "Btf.Props.debug_specified", "Btf.Props.debug_unique", "Btf.Props.dump_determines", "Btf.Props.message_determines", "Btf.Props.size_of_unsized_text", "Btf.Props.examples_text", "Btf.Props.dump_btf_output", "Btf.Props.examples_output_determines", "Btf.Props.answer_output"], "note": "The formats are those of the standard library for derived Debug (trusted, Model/Debug.lean); the specification (Spec/Debug.lean) uses Lean's string interpolation. How a path is printed is a parameter."},
{"property": "C88", "status": "proved", "theorems": ["Btf.Props.offset_of_search", "Btf.Props.offset_of_search_breaks", "Btf.Props.path_or_breaks", "Btf.Props.breaks_unique", "Btf.Props.search_determined"], "note": "Search (Spec/Search.lean) is an inductive definition over the type graph; sizes of elements are what size_of returns, which C27, C28 and C57 describe."},
{"property": "C89", "status": "proved", "theorems": ["Btf.Props.offset_of_diverges_iff", "Btf.Props.offset_of_diverges_iff_breaks", "Btf.Props.leads_circle", "Btf.Props.offset_of_returns", "Btf.Props.offset_of_diverges"], "note": "The exact complement to the refuted C32."},
{"property": "C90", "status": "proved", "theorems": ["Btf.Props.new_short", "Btf.Props.new_short_end", "Btf.Props.new_short_panics", "Btf.Props.new_short_returns", "Btf.Props.new_file_32", "Btf.Props.new_file_32_types"], "note": "The exact complement to the refuted C20 for sources below 4 GiB - 1 MiB. Files beyond are covered only as far as C20 and C78 go."},
{"property": "C91", "status": "proved", "theorems": ["Btf.Props.flaw_breaks", "Btf.Props.flaw_unique", "Btf.Props.offset_of_first", "Btf.Props.offset_of_first_flaw", "Btf.Props.first_obstacle_unique", "Btf.Props.offset_of_first_plain"], "note": "Whether there is an error at all in a graph with unnamed members: C63 and C82."},
{"property": "C92", "status": "proved", "theorems": ["Btf.Props.new_reads_once", "Btf.Props.new_snapshot", "Btf.Props.new_changing", "Btf.Props.new_consistent", "Btf.Props.new_names_only", "Btf.Props.only_names_read"], "note": "That the names must not change for the result to be that of one file: example with the source `twice`."},
{"property": "C93", "status": "proved", "theorems": ["Btf.Props.new_fills", "Btf.Props.new_size_bound", "Btf.Props.new_size_attained"], "note": "The exception for the array occurs: example with the file of new_overrun_refuted. For the requests see new_requests_quadratic (C84)."},
{"property": "C94", "status": "proved", "theorems": ["Btf.Props.new_keeps", "Btf.Props.new_keeps_all", "Btf.Props.new_keeps_iff", "Btf.Props.new_tells_apart"], "note": "Where the words of a record come from: Spec/Keep.lean (cells). Both byte orders; the two files are in the same one because of 64-bit enumerators (C04)."},
{"property": "C95", "status": "proved", "theorems": ["Btf.Props.cache_remembers", "Btf.Props.cache_keeps", "Btf.Props.cache_used", "Btf.Props.cache_bounded", "Btf.Props.cache_can_finish"], "note": "That a call ends under every schedule does not follow from the code: std::sync::RwLock does not promise that a waiting writer is served before new readers."},
{"property": "C96", "status": "proved", "theorems": ["Btf.Props.reader_unsigned", "Btf.Props.reader_signed", "Btf.Props.reader_refused", "Btf.Props.reader_string"], "note": "Reader is used inside the crate only. If the end of the read cannot be addressed: C20, C78."},
{"property": "C97", "status": "proved", "theorems": ["Btf.Props.path_fused", "Btf.Props.path_ends"], "note": ""},
{"property": "C98", "status": "proved", "theorems": ["Btf.Props.offset_eq_iff", "Btf.Props.offset_add_assoc", "Btf.Props.offset_add_zero", "Btf.Props.offset_add_cancel"], "note": ""},
{"property": "C99", "status": "proved", "theorems": ["Btf.Props.new_requests_list", "Btf.Props.new_requests_same", "Btf.Props.new_request_sizes"], "note": "The list is Spec/Trail.lean; it is built on the needs of the parser in Spec/FirstFlaw.lean."},
{"property": "C100", "status": "proved", "theorems": ["Btf.Props.new_moved", "Btf.Props.new_added", "Btf.Props.lookup_added", "Btf.Props.id_of_added", "Btf.Props.size_of_added", "Btf.Props.pointee_tid_added", "Btf.Props.offset_of_added", "Btf.Props.taken_fileOf", "Btf.Props.size_of_added_refuted"], "note": "size_of_added_refuted is the exception named in the statement: a second list_head of 4 bytes turns 8-byte pointers into 2-byte ones."},
{"property": "C101", "status": "proved", "theorems": ["Btf.Props.refused_requests_list", "Btf.Props.requests_verdict", "Btf.Props.places_same"], "note": "The list is FileStops in Spec/Trail.lean. That only the last request can have failed: C15."},
{"property": "C102", "status": "proved", "theorems": ["Btf.Props.offset_of_relabel", "Btf.Props.offset_of_relabel_breaks", "Btf.Props.offset_of_relabel_diverges", "Btf.Props.offset_of_other_names", "Btf.Props.size_of_relabel", "Btf.Props.pointee_tid_relabel"], "note": "Relabels in Spec/Relabel.lean says which type graphs are compared; pointers must have the same size if there are any (the crate finds it by the name of a type, list_head)."},
{"property": "C103", "status": "proved", "theorems": ["Btf.Props.writable_iff", "Btf.Props.writable_component", "Btf.Props.offset_of_writable", "Btf.Props.offset_of_unwritable", "Btf.Props.latin1_self"], "note": "Structs and unions with unnamed members: C88 and C102."},
{"property": "C104", "status": "proved", "theorems": ["Btf.Props.offset_of_cell", "Btf.Props.offset_of_no_cell", "Btf.Props.offset_of_small_grid", "Btf.Props.nested_size", "Btf.Props.cellsBefore_lt", "Btf.Props.cellsBefore_surj", "Btf.Props.cellsBefore_inj"], "note": "The array must have a size that fits in usize (HasSize); other arrays: C35, C57, C58."},
{"property": "C105", "status": "proved", "theorems": ["Btf.Props.offset_of_regroup", "Btf.Props.offset_of_regroup_fails", "Btf.Props.size_of_regroup", "Btf.Props.pointee_tid_regroup", "Btf.Props.offset_of_order_matters"], "note": "Regroups in Spec/Regroup.lean says which type graphs are compared. Only the graph before the change is assumed to be well-formed; the other one is shown to be. Errors may be of another kind."},
{"property": "C106", "status": "proved", "theorems": ["Btf.Props.new_restring_iff", "Btf.Props.lookup_restring", "Btf.Props.size_of_restring", "Btf.Props.pointee_tid_restring", "Btf.Props.offset_of_restring"], "note": "forgetOffsets in Spec/Restring.lean erases the string offsets of a reported type; slots says what each word of a record has to be when they are not known. The names of pointers, arrays, function prototypes and qualifiers are not read and may be anything."},
{"property": "C107", "status": "proved", "theorems": ["Btf.Props.cache_entries_le", "Btf.Props.cache_exactly", "Btf.Props.cache_all_ids", "Btf.Props.cache_unlimited"], "note": "Entries in Spec/CacheSize.lean: the number of keys the cache has a value for. That entries are never removed: cache_keeps (C95). The memory of an entry is not modelled."},
{"property": "C108", "status": "proved", "theorems": ["Btf.Props.offset_of_spelling", "Btf.Props.offset_of_spelling_breaks", "Btf.Props.spell_path", "Btf.Props.offset_of_spell", "Btf.Props.spell_injective", "Btf.Props.different_components", "Btf.Props.same_answers_iff", "Btf.Props.possible_leads", "Btf.Props.possible_of_ok"], "note": "spell and Possible in Spec/Spelling.lean. The file for a pair of paths is written with the encoder of C76, so that all of this is about what new returns. Error messages show the spelling (C91); this property is about kinds and answers."},
{"property": "C109", "status": "proved", "theorems": ["Btf.Props.c_size_of", "Btf.Props.c_offset_of", "Btf.Props.c_offset_of_text", "Btf.Props.c_program", "Btf.Props.c_answers", "Btf.Props.reach_proper"], "note": "CType, CType.size, CType.reach and CType.Proper in Spec/CTypes.lean mention neither ids nor parsed types (a pointer has the number of its target, which matters for C116 only). Represents says when an id stands for a C type; c_program shows that the encoder of C76 makes such a file, with struct list_head in it so that pointers have 8 bytes. What pointers point to: C116. Unnamed bitfields are excluded."},
{"property": "C110", "status": "proved", "theorems": ["Btf.Props.c_places", "Btf.Props.places_iff", "Btf.Props.places_nodup", "Btf.Props.reach_within"], "note": "CType.places in Spec/Places.lean. With c_program (C109) this is about files; an example gives the 19 places of a type."},
{"property": "C111", "status": "proved", "theorems": ["Btf.Props.says_same", "Btf.Props.dump_btf_complains", "Btf.Props.dump_btf_first_flaw", "Btf.Props.get_type_size_complains", "Btf.Props.get_type_offset_complains", "Btf.Props.complaint_determines", "Btf.Props.complaint_text", "Btf.Props.load_complaint"], "note": "Model/Complaint.lean repeats the programs of Model/Examples.lean with what is said; says_same relates them. The Debug of str for arbitrary characters, of io::Error and the texts of overflows are parameters (Quoting in Spec/Complaint.lean says what is assumed of the first; quoting_exists is a witness)."},
{"property": "C112", "status": "proved", "theorems": ["Btf.Props.c_header"], "note": "Spec/CHeader.lean; AnswersFor, in Props/CHeader.lean, says that the answers are those of C109. The example is the one of the README of the crate: offset_of dentry d_name.len is byte 36."},
{"property": "C113", "status": "proved", "theorems": ["Btf.Props.c_printed", "Btf.Props.c_threads", "Btf.Props.c_threads_text"], "note": "From C112 with C73, C74, C111 and C49. The example is the run of get-type-offset shown in the README of the crate."},
{"property": "C114", "status": "proved", "theorems": ["Btf.Props.written_accepted_iff", "Btf.Props.written_refused_iff", "Btf.Props.split_accepted_iff", "Btf.Props.split_refused_iff", "Btf.Props.split_refused", "Btf.Props.split_names", "Btf.Props.merged_read", "Btf.Props.merged_keeps"], "note": "Modules are written by a writer in Spec/Split (names of the base are not stored again, others go to a table without leading NUL, offsets behind the base). Values of enumerations are assumed to have names. Example: a module refused, and one that is accepted with wrong names."},
{"property": "C115", "status": "proved", "theorems": ["Btf.Props.c_named", "Btf.Props.c_module"], "note": "When an id stands for a C type is said by Represents (Spec/CTypes), which does not mention how files are written. The size of pointers is that the crate takes from list_head."},
{"property": "C116", "status": "proved", "theorems": ["Btf.Props.c_walk", "Btf.Props.c_module_walk", "Btf.Props.c_pointee", "Btf.Props.walk_read", "Btf.Props.walk_unique"], "note": "CWalk in Spec/CWalk.lean is what C says; Walk in Props/CWalk.lean is what a user of the crate does. Types are referred to by number (typeNumber), which is how the writer lets pointers go in circles. The example is struct dentry, which points to itself."},
{"property": "C117", "status": "proved", "theorems": ["Btf.Props.c_incomplete"], "note": "The record of such a declaration refers to no type (id 0), as the format says. Examples: struct qstr with a declaration before (found), and after (hidden)."},
{"property": "C118", "status": "proved", "theorems": ["Btf.Props.c_among"], "note": "Examples: a function called qstr before struct qstr (the struct is found) and after it (the function is found, and size_of fails). The other declarations must not be called list_head (the crate takes the size of pointers from there)."},
{"property": "C119", "status": "proved", "theorems": ["Btf.Props.trail_any", "Btf.Props.c_among_walk", "Btf.Props.leaf_dead"], "note": "CTrail in Spec/CTrail.lean is what C says, for any numbering of types. The example is a struct that points to itself and to a struct that is only declared."},
{"property": "C120", "status": "proved", "theorems": ["Btf.Props.c_same", "Btf.Props.c_same_programs", "Btf.Props.same_answers"], "note": "SameAnswers in Props/CSame.lean compares the answers of the two files directly, without the C types. The examples compare struct qstr in two headers, big-endian in a debug build and little-endian in a release build, and a struct by two other programs."},
{"property": "C121", "status": "proved", "theorems": ["Btf.Props.c_layout", "Btf.Props.c_layout_printed", "Btf.Props.c_layout_threads", "Btf.Props.answers_laidOut", "Btf.Props.offset_facts", "Btf.Props.member_start", "Btf.Props.bitfield_start"], "note": "CSource in Spec/CLayout.lean: types without positions, the rules of layout, and offsetof by these rules, independent of CType. Unnamed bitfields are left out. Types are smaller than 512 MiB (structs with bitfields: 2 MiB, as the format demands). The example is struct s { char a; int b; struct { short c; char d[3]; }; void *e; int f : 3; int g : 30; }."},
{"property": "C122", "status": "proved", "theorems": ["Btf.Props.c_grow", "Btf.Props.c_grow_size", "Btf.Props.append_offset"], "note": "LaidOut is the conclusion of c_layout (C121), which holds of every file that a compiler writes for such a header, under every id and name of the type. The example adds a member to the struct of C121: the size goes from 32 to 40, the places stay."},
{"property": "C123", "status": "proved", "theorems": ["Btf.Props.c_portable", "Btf.Props.not_portable", "Btf.Props.size_portable", "Btf.Props.offset_portable"], "note": "LaidOut is the conclusion of c_layout (C121), SameAnswers that of C120. The example is a struct in a file for 64 bits, big-endian, and one for 32 bits, little-endian."},
{"property": "C124", "status": "proved", "theorems": ["Btf.Props.c_common", "Btf.Props.c_base", "Btf.Props.c_base_unnamed", "Btf.Props.same_place"], "note": "LaidOut is the conclusion of c_layout (C121). The examples are the structs of C121 and C122, and struct t { struct s x; long c; }, where x.b[1] is at the place of b[1]."},
{"property": "C125", "status": "proved", "theorems": ["Btf.Props.c_ordered", "Btf.Props.append_earlier", "Btf.Props.append_later", "Btf.Props.place_le"], "note": "LaidOut is the conclusion of c_layout (C121). The example is the struct of C121: d[2], in an unnamed member, and g, a bitfield."}
]}

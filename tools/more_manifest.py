c(67,"proved","size_of_builds offset_of_builds offset_of_builds_diverge")
c(68,"proved","size_of_widths offset_of_widths")
c(69,"proved","size_of_renumber pointee_tid_renumber offset_of_renumber offset_of_renumber_diverges")
c(70,"proved","offset_of_local size_of_local")
c(71,"proved","examples_usage examples_no_silent_failure")
c(72,"proved","dump_btf_iff")
c(73,"proved","get_type_size_answers get_type_size_prints","get_type_size_prints is for builds with overflow checks; see C58 for sizes that do not fit in builds without.")
c(74,"proved","get_type_offset_answers get_type_offset_prints","get_type_offset_prints is for builds with overflow checks; see C37 for the others.")
c(75,"proved","file_io_error file_io_text")
c(76,"proved","round_trip round_trip_lookup encode_fits","The writer is Spec.encode; the exclusion of big-endian 64-bit enumerations is needed, see C64.")
c(77,"proved","new_truncated new_prefix new_extends buffer_extends")
c(78,"proved","new_widths","When it panics: C20, C90. Without overflow checks 32-bit builds may do something else (new_total_32_release_refuted).")
c(79,"proved","offset_of_join offset_of_beginning offset_of_continue")
c(80,"proved","declared_member declared_size declared_id offset_of_member offset_of_no_member","The writer is Spec.encode, as in C76.")
c(81,"proved","offset_of_steps offset_of_steps_bytes offset_of_steps_plain offset_of_steps_plain_ok offset_of_exponential offset_of_exponential_found offset_of_takes offset_of_takes_unique","The steps counted are the calls of the path iterator (Model/Cost.lean); the work between two of them is bounded by C56 and the length of the member list.")
c(82,"proved","offset_of_reason offset_of_reason_accepted offset_of_says_character offset_of_says_bounds offset_of_says_member message_text message_unique message_determines offset_of_never size_of_reason pointee_tid_reason told_same member_not_found_refuted","The reasons are made where the code makes the errors (Model/Message.lean); told_same shows that the kinds and all other results are those of the model without messages. member_not_found_refuted is the counterexample to the stronger reading of that message. Which of several possible reasons is reported: C91. Messages of errors of new: C85.")
c(83,"proved","offset_of_disjoint offset_of_nested","NoOverlap is what C guarantees about structs; the example zoo_noOverlap shows that the sample graph meets it.")
c(84,"proved","new_requests_bound new_requests_header new_requests_exact new_requests_quadratic","Addressable: section ends fit the address width; new_requests_quadratic gives the worst case (finding 15).")
c(85,"proved","load_error_text load_error_any load_text_determines","The table is Spec/LoadMessage.lean; FileFlaw (Spec/Flaws.lean) says where the values come from. wrongKind, an error the code can make, never reaches the user. Finding 16: texts about strings give the place in the file.")
c(86,"proved","new_first_flaw new_first_flaw_iff first_flaw_facts buffer_first_flaw buffer_missing","Spec/FirstFlaw.lean lists the needs of the parser in order; the first unmet need is the error. The converse needs a source that gives the same error for the same request (a buffer does).")
c(87,"proved","debug_text debug_specified debug_unique dump_determines message_determines size_of_unsized_text examples_text dump_btf_output examples_output_determines answer_output","The formats are those of the standard library for derived Debug (trusted, Model/Debug.lean); the specification (Spec/Debug.lean) uses Lean's string interpolation. How a path is printed is a parameter.")
c(88,"proved","offset_of_search offset_of_search_breaks path_or_breaks breaks_unique search_determined","Search (Spec/Search.lean) is an inductive definition over the type graph; sizes of elements are what size_of returns, which C27, C28 and C57 describe.")
c(89,"proved","offset_of_diverges_iff offset_of_diverges_iff_breaks leads_circle offset_of_returns offset_of_diverges","The exact complement to the refuted C32.")
c(90,"proved","new_short new_short_end new_short_panics new_short_returns new_file_32 new_file_32_types","The exact complement to the refuted C20 for sources below 4 GiB - 1 MiB. Files beyond are covered only as far as C20 and C78 go.")
c(91,"proved","flaw_breaks flaw_unique offset_of_first offset_of_first_flaw first_obstacle_unique offset_of_first_plain","Whether there is an error at all in a graph with unnamed members: C63 and C82.")
c(92,"proved","new_reads_once new_snapshot new_changing new_consistent new_names_only only_names_read","That the names must not change for the result to be that of one file: example with the source `twice`.")
c(93,"proved","new_fills new_size_bound new_size_attained","The exception for the array occurs: example with the file of new_overrun_refuted. For the requests see new_requests_quadratic (C84).")
c(94,"proved","new_keeps new_keeps_all new_keeps_iff new_tells_apart","Where the words of a record come from: Spec/Keep.lean (cells). Both byte orders; the two files are in the same one because of 64-bit enumerators (C04).")
c(95,"proved","cache_remembers cache_keeps cache_used cache_bounded cache_can_finish","That a call ends under every schedule does not follow from the code: std::sync::RwLock does not promise that a waiting writer is served before new readers.")
c(96,"proved","reader_unsigned reader_signed reader_refused reader_string","Reader is used inside the crate only. If the end of the read cannot be addressed: C20, C78.")
c(97,"proved","path_fused path_ends","")
c(98,"proved","offset_eq_iff offset_add_assoc offset_add_zero offset_add_cancel","")
c(99,"proved","new_requests_list new_requests_same new_request_sizes","The list is Spec/Trail.lean; it is built on the needs of the parser in Spec/FirstFlaw.lean.")
c(100,"proved","new_moved new_added lookup_added id_of_added size_of_added pointee_tid_added offset_of_added taken_fileOf size_of_added_refuted","size_of_added_refuted is the exception named in the statement: a second list_head of 4 bytes turns 8-byte pointers into 2-byte ones.")
c(101,"proved","refused_requests_list requests_verdict places_same","The list is FileStops in Spec/Trail.lean. That only the last request can have failed: C15.")
c(102,"proved","offset_of_relabel offset_of_relabel_breaks offset_of_relabel_diverges offset_of_other_names size_of_relabel pointee_tid_relabel","Relabels in Spec/Relabel.lean says which type graphs are compared; pointers must have the same size if there are any (the crate finds it by the name of a type, list_head).")
c(103,"proved","writable_iff writable_component offset_of_writable offset_of_unwritable latin1_self","Structs and unions with unnamed members: C88 and C102.")
c(104,"proved","offset_of_cell offset_of_no_cell offset_of_small_grid nested_size cellsBefore_lt cellsBefore_surj cellsBefore_inj","The array must have a size that fits in usize (HasSize); other arrays: C35, C57, C58.")
c(105,"proved","offset_of_regroup offset_of_regroup_fails size_of_regroup pointee_tid_regroup offset_of_order_matters","Regroups in Spec/Regroup.lean says which type graphs are compared. Only the graph before the change is assumed to be well-formed; the other one is shown to be. Errors may be of another kind.")
c(106,"proved","new_restring_iff lookup_restring size_of_restring pointee_tid_restring offset_of_restring","forgetOffsets in Spec/Restring.lean erases the string offsets of a reported type; slots says what each word of a record has to be when they are not known. The names of pointers, arrays, function prototypes and qualifiers are not read and may be anything.")
c(107,"proved","cache_entries_le cache_exactly cache_all_ids cache_unlimited","Entries in Spec/CacheSize.lean: the number of keys the cache has a value for. That entries are never removed: cache_keeps (C95). The memory of an entry is not modelled.")
c(108,"proved","offset_of_spelling offset_of_spelling_breaks spell_path offset_of_spell spell_injective different_components same_answers_iff possible_leads possible_of_ok","spell and Possible in Spec/Spelling.lean. The file for a pair of paths is written with the encoder of C76, so that all of this is about what new returns. Error messages show the spelling (C91); this property is about kinds and answers.")
c(109,"proved","c_size_of c_offset_of c_offset_of_text c_program c_answers reach_proper","CType, CType.size, CType.reach and CType.Proper in Spec/CTypes.lean mention neither ids nor parsed types (a pointer has the number of its target, which matters for C116 only). Represents says when an id stands for a C type; c_program shows that the encoder of C76 makes such a file, with struct list_head in it so that pointers have 8 bytes. What pointers point to: C116. Unnamed bitfields are excluded.")
c(110,"proved","c_places places_iff places_nodup reach_within","CType.places in Spec/Places.lean. With c_program (C109) this is about files; an example gives the 19 places of a type.")
c(111,"proved","says_same dump_btf_complains dump_btf_first_flaw get_type_size_complains get_type_offset_complains complaint_determines complaint_text load_complaint","Model/Complaint.lean repeats the programs of Model/Examples.lean with what is said; says_same relates them. The Debug of str for arbitrary characters, of io::Error and the texts of overflows are parameters (Quoting in Spec/Complaint.lean says what is assumed of the first; quoting_exists is a witness).")
c(112,"proved","c_header","Spec/CHeader.lean; AnswersFor, in Props/CHeader.lean, says that the answers are those of C109. The example is the one of the README of the crate: offset_of dentry d_name.len is byte 36.")
c(113,"proved","c_printed c_threads c_threads_text","From C112 with C73, C74, C111 and C49. The example is the run of get-type-offset shown in the README of the crate.")
c(114,"proved","written_accepted_iff written_refused_iff split_accepted_iff split_refused_iff split_refused split_names merged_read merged_keeps","Modules are written by a writer in Spec/Split (names of the base are not stored again, others go to a table without leading NUL, offsets behind the base). Values of enumerations are assumed to have names. Example: a module refused, and one that is accepted with wrong names.")
c(115,"proved","c_named c_module","When an id stands for a C type is said by Represents (Spec/CTypes), which does not mention how files are written. The size of pointers is that the crate takes from list_head.")
c(116,"proved","c_walk c_module_walk c_pointee walk_read walk_unique","CWalk in Spec/CWalk.lean is what C says; Walk in Props/CWalk.lean is what a user of the crate does. Types are referred to by number (typeNumber), which is how the writer lets pointers go in circles. The example is struct dentry, which points to itself.")
c(117,"proved","c_incomplete","The record of such a declaration refers to no type (id 0), as the format says. Examples: struct qstr with a declaration before (found), and after (hidden).")
c(118,"proved","c_among","Examples: a function called qstr before struct qstr (the struct is found) and after it (the function is found, and size_of fails). The other declarations must not be called list_head (the crate takes the size of pointers from there).")
c(119,"proved","trail_any c_among_walk leaf_dead","CTrail in Spec/CTrail.lean is what C says, for any numbering of types. The example is a struct that points to itself and to a struct that is only declared.")
c(120,"proved","c_same c_same_programs same_answers","SameAnswers in Props/CSame.lean compares the answers of the two files directly, without the C types. The examples compare struct qstr in two headers, big-endian in a debug build and little-endian in a release build, and a struct by two other programs.")
c(121,"proved","c_layout c_layout_printed c_layout_threads answers_laidOut offset_facts member_start bitfield_start","CSource in Spec/CLayout.lean: types without positions, the rules of layout, and offsetof by these rules, independent of CType. Unnamed bitfields are left out. Types are smaller than 512 MiB (structs with bitfields: 2 MiB, as the format demands). The example is struct s { char a; int b; struct { short c; char d[3]; }; void *e; int f : 3; int g : 30; }.")
c(122,"proved","c_grow c_grow_size append_offset","LaidOut is the conclusion of c_layout (C121), which holds of every file that a compiler writes for such a header, under every id and name of the type. The example adds a member to the struct of C121: the size goes from 32 to 40, the places stay.")
c(123,"proved","c_portable not_portable size_portable offset_portable","LaidOut is the conclusion of c_layout (C121), SameAnswers that of C120. The example is a struct in a file for 64 bits, big-endian, and one for 32 bits, little-endian.")
c(124,"proved","c_common c_base c_base_unnamed same_place","LaidOut is the conclusion of c_layout (C121). The examples are the structs of C121 and C122, and struct t { struct s x; long c; }, where x.b[1] is at the place of b[1].")
c(125,"proved","c_ordered append_earlier append_later place_le","LaidOut is the conclusion of c_layout (C121). The example is the struct of C121: d[2], in an unnamed member, and g, a bitfield.")

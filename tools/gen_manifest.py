#!/usr/bin/env python3
"""Writes /verif/MANIFEST.json."""
import json, os
C=[]
def c(i,status,thms,note=""):
    C.append(dict(property="C%02d"%i,status=status,theorems=["Btf.Props."+t for t in thms.split()],note=note))
c(1,"proved","new_total","Every Readable (arbitrary function of the request history), 64-bit, both build modes. The model's fuel for the record loop and string loop is shown sufficient.")
c(2,"partial","new_sound_documented_partial new_sound new_record new_sound_refuted new_overrun_refuted","False as stated: an array as last record may take its body from beyond the type section, and 64-bit enumerators of big-endian files have their words exchanged (both refuted by a concrete accepted file). Proved for every file without these two, and for every file in the crate's dialect (new_sound, C64).")
c(3,"partial","new_complete_documented_partial new_complete new_sound_refuted","Every documented file with vlen 0 in arrays and without 64-bit enumerations in big-endian files; without these conditions the claim is false. new_complete: every file of the crate's dialect.")
c(4,"partial","byte_order_irrelevant_partial new_same_content_partial meaning_byte_order byte_order_refuted","False for 64-bit enumerations (byte_order_refuted). See C66 for the exact statement.")
c(5,"proved","new_magic new_bad_magic new_byte_order","Errors of the source that happen to be called InvalidMagic are excluded by a hypothesis.")
c(6,"proved","ids_dense new_holds")
c(7,"proved","ids_bounded")
c(8,"proved","name_of_agrees")
c(9,"proved","id_of_last")
c(10,"proved","new_name new_string_outside new_string_unterminated new_err_next","Names of types; names of members and enumerators are part of new_members, new_enum, new_enum64 and of Decodes.")
c(11,"proved","new_confined")
c(12,"proved","new_local other_bytes_ignored")
c(13,"proved","new_partial_header new_partial_body new_section_overflow","The body of an array is not checked (C18).")
c(14,"proved","new_unknown_kind new_kind new_same_content_partial","new_kind: the kind, length and flag of every type are functions of bits 24-28, 0-15 and 31.")
c(15,"proved","new_io_errors")
c(16,"proved","new_members new_misaligned","Exactly when the error is that of a misaligned member: new_first_flaw_iff (C86).")
c(17,"proved","new_int new_enum new_enum64","new_enum64 states what is read in each byte order.")
c(18,"partial","new_inside_partial new_overrun_refuted","False for an array that is the last record: its 12-byte body may lie after the section.")
c(19,"proved","new_debug_release")
c(20,"partial","new_total_32_partial new_total_32_refuted new_total_32_release_refuted","False: a 24-byte file makes a 32-bit debug build panic, and there is a 4 GiB file on which a 32-bit release build never returns. Proved when the sections end before the last MiB of the address space. See C90 for the exact condition for sources below 4 GiB - 1 MiB.")
c(21,"proved","reserved_ignored version_flags_ignored reserved_overlap_refuted","Errors included, also errors in the record whose bits are changed. The condition on the sections is necessary (reserved_overlap_refuted).")
c(22,"proved","offset_add_u32_ok offset_add_u32_err offset_add_ok offset_add_err")
c(23,"proved","accumulate_exact accumulate_perm")
c(24,"partial","path_language_partial path_language path_rejected path_dangling_dot_accepted path_dangling_open_accepted","False for a dangling '.' or '['; exact on all other strings. See C63.")
c(25,"proved","path_never_panics")
c(26,"proved","index_literal")
c(27,"proved","size_of_ok_iff size_of_exact","iff with overflow checks; without them, exact whenever the arrays on the way fit (C58 otherwise).")
c(28,"partial","size_of_no_wrong_number_partial size_of_overflow_refuted","False: the release build wraps, the debug build panics (see C58).")
c(29,"proved","size_of_invalid_type_id_iff size_of_not_sized_iff size_of_err_kinds")
c(30,"proved","pointee_tid_ok_iff pointee_tid_err_iff")
c(31,"partial","queries_return_of_ranked_partial queries_terminate_refuted","False: a typedef of itself is accepted by new and makes both recurse for ever. See C57 for the exact condition.")
c(32,"partial","offset_of_terminates_partial offset_of_terminates_refuted","False for types that depend on themselves; proved for all others. See C89 for the exact condition.")
c(33,"proved","offset_of_empty")
c(34,"proved","offset_of_missing offset_of_no_invention")
c(35,"proved","offset_of_index_ok offset_of_index_bounds offset_of_index_err")
c(36,"proved","offset_of_alias offset_of_alias_chain")
c(37,"partial","offset_of_sound_partial offset_of_sound offset_of_sound_parsed_partial offset_of_sound_refuted","Full with overflow checks (offset_of_sound). Without, proved if no type is larger than usize can express; false otherwise (offset_of_sound_refuted).")
c(38,"proved","offset_of_complete")
c(39,"proved","offset_of_unique offset_of_iff")
c(40,"proved","lookup_anonymous lookup_named lookup_bitfield lookup_not_found","On graphs whose members lie inside their structs (so that no offset overflows).")
c(41,"partial","unnamed_bitfield_partial unnamed_bitfield_refuted lookup_named","False: see C60 for the exact behaviour. The parts that hold: unnamed bitfields do not hide what is inside of unnamed members before them (unnamed_bitfield_partial), and unnamed members that are not bitfields do not hide named ones (lookup_named).")
c(42,"proved","offset_of_compose")
c(43,"proved","offset_of_inside")
c(44,"proved","offset_of_elements_disjoint")
c(45,"proved","offset_of_bitfield_last offset_of_inside_bitfield")
c(46,"proved","offset_of_pointer offset_of_scalar")
c(47,"partial","type_tag_transparent_partial type_tag_refuted","True for size_of, false for pointee_tid and offset_of. See C61.")
c(48,"proved","offset_of_error_kinds")
c(49,"proved","cache_invisible cache_repeatable")
c(50,"partial","path_consumed_partial path_dangling_dot_accepted path_dangling_open_accepted offset_of_consumes","One trailing '.' or '[' is ignored by the crate.")
c(51,"proved","types_sane")
c(52,"proved","new_error_kinds")
c(53,"proved","buffer_read buffer_read_32 buffer_total buffer_errors buffer_read_32_refuted","buffer_read_32_refuted: the restriction to 64 bits is needed.")
c(54,"proved","cache_entries cache_poison cache_frozen cache_no_deadlock cache_exclusive cache_matched")
c(55,"proved","new_err_sound new_err_complete new_err_of_only new_err_record")
c(56,"proved","size_of_depth pointee_tid_depth offset_of_depth")
c(57,"proved","size_of_diverges_iff_cycle pointee_tid_diverges_iff_cycle size_of_diverges_iff pointee_tid_diverges_iff")
c(58,"proved","size_of_unchecked size_of_checked size_of_release_parsed size_of_ok_iff parsed_sizes_fit")
c(59,"proved","new_determined content_unique")
c(60,"proved","unnamed_bitfield_exact lookup_blocked")
c(61,"proved","size_of_alias type_tag_opaque")
c(62,"proved","offset_of_panics path_never_panics")
c(63,"proved","path_language path_rejected path_or_breaks breaks_unique offset_of_consumes offset_of_rejects","What exactly is wrong with a rejected text: C91.")
c(64,"proved","new_accepts_iff new_sound new_complete")
c(65,"proved","offset_of_deterministic")
c(66,"proved","byte_order_exact")
try: exec(open(os.path.join(os.path.dirname(__file__),"more_manifest.py")).read())
except FileNotFoundError: pass
out=os.path.join(os.path.dirname(__file__),"..","MANIFEST.json")
open(out,"w").write('{"claims": [\n'+",\n".join(json.dumps(x) for x in C)+"\n]}\n")
props=[json.loads(l)["id"] for l in open(os.path.join(os.path.dirname(__file__),"..","properties.jsonl"))]
got=[x["property"] for x in C]
assert props==got,(set(props)^set(got))
print(len(C))

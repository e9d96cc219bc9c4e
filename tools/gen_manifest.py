#!/usr/bin/env python3
"""Writes MANIFEST.json. Theorem names are all in namespace Mabo.Props unless they contain a dot."""
import json, os
C = []
def c(p, status, thms, note=""):
    C.append({"property": p, "status": status,
              "theorems": [t if "." in t else "Mabo.Props." + t for t in thms.split()], "note": note})
c("C01","proved","C01_unsigned_roundtrip C01_encoding_denotes_value C01_encoder_never_exhausts_buffer")
c("C02","proved","C02_signed_roundtrip C02_zigzag_meaning C02_zigzag_bijective")
c("C03","proved","C03_unsigned_size_exact C03_signed_size_exact C03_size_boundaries")
c("C04","proved","C04_decode_ok_iff C04_decode_err_iff C04_decode_bounded_lookahead C04_signed_decode_iff C04_shift_in_range")
c("C05","proved","C05_prefix_free C05_prefix_free_signed C05_minimal C05_decoder_accepts_noncanonical")
c("C06","proved","C06_pack_unpack C06_packed_value C06_unpack_fails_iff C06_unpack_pack C06_large_ids_do_not_survive C06_wire_roundtrip")
c("C07","proved","C07_bytes_roundtrip C07_string_roundtrip C07_non_utf8 C07_length_too_large C07_never_over_reads")
c("C08","proved","C08_fixed_roundtrip C08_insufficient C08_fixed_decode_total")
c("C09","proved","C09_option_roundtrip C09_option_other_tag C09_option_size")
c("C10","proved","C10_vec_roundtrip C10_hash_map_roundtrip C10_hash_set_roundtrip C10_array_roundtrip C10_array_shrinks C10_map_last_value_wins")
c("C11","proved","C11_nonzero_int C11_nonzero_int_roundtrip C11_nonzero_byte_roundtrip C11_nonzero_collections_nonempty C11_nonzero_never_panics C11_empty_gives_zero C11_nonzero_agrees_with_plain")
c("C22","proved","C22_window_confines C22_consumes_declared_length")
c("C13","proved","C13_roundtrip C13_roundtrip_any_type C13_roundtrip_shallow_schema C13_roundtrip_when_size_exact C13_decoder_equation C13_messages_concatenate C13_encoding_injective C13_fails_for_nested_collections C13_zero_byte_elements_are_lost","the property as stated carries its side conditions; the last two theorems show that they cannot be dropped")
c("C14","partial","C14_size_partial C14_size_exact_plain_partial C14_announced_size_exact_partial C14_fails_for_collections C14_fails_for_tuple_fields","equality for every value is false of the code; proved: upper bound, exact characterisation of equality, and equality for schemas without collections and tuple fields")
c("C12","partial","C12_skip_partial C12_skip_leaf_partial C12_skip_shallow_partial C12_fails_for_structs C12_fails_for_nested_options C12_fails_for_generic_parameters","skipping every field type is false of the code (named types, nested options and generic parameters are tagged length-prefixed without a length): refuted; proved for all other types")
c("C15","partial","C15_unknown_field_ignored_partial C15_reader_sees_view_partial C15_view_of_same_schema C15_added_fields_ignored_partial C15_example C15_fails_for_struct_fields","false for new fields of a type that cannot be skipped (see C12): refuted; proved for every pair of schemas where the reader's view is defined")
c("C16","proved","C16_missing_required C16_absent_options C16_example")
c("C17","proved","C17_order_irrelevant C17_permuted_value")
c("C18","proved","C18_earlier_occurrence_ignored C18_last_wins")
c("C19","proved","C19_unknown_variant C19_known_variant C19_unit_variant C19_decoded_variant")
c("C20","partial","C20_decode_total_partial C20_example C20_fails_for_arrays C20_fails_for_unit_elements C20_hang_is_divergence C20_loop_bound_irrelevant","false for fixed-size arrays and zero-byte elements: refuted; proved for all other schemas")
c("C21","proved","C21_consumes_prefix C21_append C21_no_strict_prefix C21_truncated_encoding_rejected C21_any_type")
c("C23","partial","C23_any_chunking_partial C23_clean_boundaries_partial C23_roundtrip_partial C23_fails_for_split_varint C23_split_witness","false when a varint crosses a piece boundary: refuted; proved: never a wrong value for any cut, exact agreement when no boundary is inside a varint")
c("C24","proved","C24_assignment_unique C24_generated_field_ids C24_generated_variant_ids C24_panic_only_at_max")
c("C25","proved","C25_validate_exact C25_duplicate_ids_rejected C25_reported_clash")
c("C26","proved","C25_validate_exact C26_scope_names_rejected C26_member_names_rejected C26_reported_name")
c("C27","proved","C25_validate_exact C27_generics_rejected C27_reported_generic")
c("C28","proved","C25_validate_exact C28_tuples_rejected C28_reported_tuple")
c("C29","partial","C29_generator_exact C29_validated_compiles_partial C29_fails_for_non_zero C29_fails_for_hidden_tuple C29_fails_for_const","false: validation does not look inside non_zero nor at const types; the exact set of schemas the generator finishes on is characterised")
c("C30","partial","C30_wire_ids_partial C30_implicit_ids C30_fails_zero C30_fails_large C30_zero_breaks_round_trip","false: 0 and ids >= 2^29 are accepted; proved when the explicit ids are in range")
c("C31","proved","C31_simplify C31_simplify_panics C31_validated_simplifies")
c("C32","proved","C32_resolve_exact C32_sound C32_dangling_rejected C32_order_irrelevant")
c("C33","partial","C33_complete_partial C32_resolve_exact C33_fails_for_module_imports C33_paths_never_remote C33_fails_for_inner_imports C33_inner_imports_unchecked","false for references through an imported module and for imports inside modules: refuted; the accepted set is characterised exactly")
c("C34","proved","Mabo.Props.C34_next_variant_id Mabo.Props.C34_next_field_id Mabo.Props.C34_unit Mabo.Props.C34_extend Mabo.Props.C34_at_max","The hypothesis that no id is u32::MAX is in the English property; C34_at_max shows what happens otherwise.")
c("C35","partial","Mabo.Props.C35_element_partial Mabo.Props.C35_field_partial Mabo.Props.C35_tuple_counterexample Mabo.Props.C35_array_max_counterexample Mabo.Props.C35_array_min_counterexample","False of the code for tuple fields (length prefix not counted) and arrays whose byte length needs a different varint than the element count: counterexamples proved. Proved for everything else.")
c("C36","proved","C36_print_parse C36_exact C36_formatting_preserves C36_print_injective C36_example C36_keyword_paths C36_keyword_path_never_read","For the types that can be written at all; C36_exact shows the side condition (valid names, path not starting like a keyword) is necessary.")
c("C38","proved","C38_types C38_any_list C38_never_empty C38_len C38_iter C38_iterator_len C38_iterator_len_at_end")
c("C40","proved","C40_accepts_exactly C40_prints_back C40_round_trip C40_example")
c("C37","proved","C37_print_parse C37_integers C37_booleans C37_bytes C37_strings C37_nul_is_an_error C37_nul_readable C37_integral_floats C37_formatting_preserves C37_range C37_example","NUL is the only character whose escape is not understood. Floats are not part of the property; C37_integral_floats shows that a float printed without a point comes back as an integer.")
c("C41","partial","C41_fmt_preserves_partial C41_without_literals_partial C41_rejected_untouched C41_print_parse C41_fails_for_nul C41_fails_for_floats C41_exact C42_forms_example C41_example","false for strings with NUL and floats printed without a point: refuted; C41_exact proves that these are exactly the exceptions (files without -0.0)")
c("C42","partial","C42_idempotent_partial C42_idempotent_all_partial C42_canonical C42_fails_for_negative_zero C42_forms_example","false for -0.0 (refuted); proved for every other text, accepted or not")
c("C43","partial","C43_kept_partial C43_attributes_lost C43_import_comment_lost C43_fails","false for all definitions but structs and enums: exactly what is lost is proved")
c("C44","proved","C44_accepted_is_well_formed C44_well_formed_is_writable C41_example")
c("C45","proved","C45_print_injective C41_example")
c("C46","partial","C46_in_sync_partial C46_others_untouched C46_client C46_fails_for_several_changes C46_fails_with_a_panic C46_fails_for_two_full_changes C46_deleted_while_open C46_example","false when one notification holds several changes not ordered back to front (all ranges are resolved against the old text; wrong text or panic) or two whole-text changes: refuted. Proved for all other histories.")
c("C39","proved","Mabo.Props.C39_semantic_tokens Mabo.Props.C39_no_tokens Mabo.Props.C39_no_panic Mabo.Props.C39_in_session","Parameter: the line index (PositionContract, met by searchPosition_contract). Attributes, array sizes, string literals and the angles of type parameters have no token in the code, hence none in the specification. Concrete response: C39_example.")
c("C47","partial","C47_references_partial C47_definitions_partial C47_nothing_else C47_usable_ids C47_roundtrip_partial clear_of_plain wireDefs_ok C47_fails_for_inner_uses C47_fails_for_inner_imports C47_fails_inside_non_zero C47_fails_for_parameters_with_arguments C47_fails_for_aliases","false for references the resolver does not check as Rust does (four refutations); proved for all definitions without such references (Clear), in particular all plain top-level definitions (clear_of_plain); round trip with the side conditions of C13")
c("C48","partial","C48_succeeds_iff C48_nothing_on_bad_input C48_written_partial C48_order_irrelevant C48_fails_for_equal_names C48_fails_for_late_errors","false for files of equal names and for code generation errors (refuted); proved otherwise")
c("C49","proved","C49_document_symbols C49_no_symbols C49_no_panic C49_in_session C49_example","Parameter: the line index (PositionContract, met by searchPosition_contract).")
c("C50","proved","C50_hover C50_no_hover C50_no_panic C50_in_session placed_unique resolves_exists C50_example","Parameters: the line index (PositionContract, OffsetContract). The bounds shown for a size are those of C35. Release builds show the next id 0 behind u32::MAX (C34).")
c("C51","proved","C51_diagnostic C51_accepts C51_unparsed C51_no_panic C51_in_session C51_kept C51_type_span Mabo.Lsp.Spans.validateSchema_same C51_example","Parameters: the line index (PositionContract, OffsetContract), the iteration order of hash maps (PickContract), the place and message of parser errors (FailureContract), terminal highlighting. Closing or deleting a document does not withdraw its diagnostics (C51_kept).")
c("C52","proved","C52_definition_text C52_field_list C52_variant_list C52_next_id C53_example","Pages are modelled as the data the templates insert, not as HTML.")
c("C53","proved","C53_pages C53_distinct C53_heading C53_tables C53_reachable C53_no_dead_links C53_file_documented C53_project C53_project_stops C53_stems C53_stylesheet_missing C53_equal_stems_overwrite C53_fails_unvalidated C53_example","Distinct paths for validated schemas (mabo doc itself does not validate: C53_fails_unvalidated). The style sheet and equal stems are exceptions named in the property.")
c("C54","partial","C54_constant_text_partial C54_fails_for_nul C54_fails_for_floats","false for strings with NUL and floats printed without a point: refuted; proved otherwise")
c("C55","proved","C55_answers C55_at_once C55_questions C55_shutdown C55_stops_when_asked","for every list of messages and pauses; the contents of requests are read by serde_json, a parameter")
c("C56","partial","C56_session_partial C56_tokens_partial C56_symbols_partial C56_hover_partial C56_exit_partial C56_settings_from_answer C56_fails_first_document C56_fails_request C56_fails_lost_message C56_fails_late_settings C56_example","false when a message arrives while the server waits for an answer of the client: refuted; proved for clients that answer first, with the restrictions of C46 and C51")
c("C57","proved","C57_announced_encoding C57_sessions C57_in_sync_partial C57_unknown_encoding","The crate line-index is modelled from its documentation; texts below 4 GiB. C57_in_sync_partial carries the restriction of C46.")
c("C58","partial","C58_denoted_place_partial C58_behind_the_line C58_fails C58_fails_with_a_panic C58_no_such_line","false for every position to the right of its line: refuted, exact behaviour proved")
c("C59","proved","C59_explained C59_same C59_contract C59_shown C59_example C59_example'","the parser with its errors is proved to accept the same texts as the parser of the other claims; winnow's choice of errors is modelled from its documentation")
c("C60","partial","C60_about_partial C60_struct C60_id C60_examples C60_refuted","false for attributes, modules, type parameters, imports: refuted; what each message is about is proved for all texts")
c("C61","partial","C61_range_partial C61_empty C61_example C61_refuted","false for declarations that do not start the file, and for enums and aliases: refuted, exact ranges proved")
c("C62","partial","C62_postcard C62_postcard_signed C62_postcard_bytes C62_postcard_small C62_bincode C62_bincode_signed C62_vu128 C62_vu128_signed C62_vu128_floats C62_vu128_bytes_partial C62_vu128_bytes_refuted","false for the 8 bit numbers of vu128 from 15 to 239 (encode and decode use different bounds): refuted, exactly these; proved for everything else")
c("C63","partial","C63_postcard C63_bincode C63_vu128_partial C63_vu128_refuted","false for vu128 (the mask is shifted by bytes instead of bits): refuted; proved for the others")
c("C64","partial","C64_finishes_exact C64_validated_finishes_partial C64_fails_for_large_arrays C64_fails_for_empty_arrays C64_fails_for_non_zero_floats","false for arrays of 0 or more than 32 elements and non_zero floats (refuted), and for the schemas of C29; the set of schemas for which code is produced is characterised exactly")
c("C65","partial","C65_succeeds_iff C65_nothing_on_bad_input C65_disk_exact C65_files_partial C65_last_file_wins C65_fails_for_several_files C65_fails_for_late_errors","false for projects of several schema files (all are written to the same file, the last wins: proved for every project) and for code generation errors; proved for projects of one file, and what is on disk is characterised for all")
c("C66","proved","C66_encode C66_decode C66_roundtrip C66_decode_total","for every crate whose emitted functions compile (Compiles; which crates these are is C67); type checking and execution of Rust are those of Rust/Elab.lean, written for the syntax that is emitted")
c("C67","partial","C67_exact C67_compiles_partial C67_fails_for_tuples_in_tuples C67_fails_for_options_in_tuples C67_fails_for_keys C67_fails_for_type_arguments C67_fails_for_field_names C67_fails_for_prelude_names C67_fails_for_boxed_bytes C67_fails_for_recursion","false for the schemas of the refutations; the exact condition on names and types is proved in both directions, per type and per crate; only bodies of functions are checked (not that emitted types have finite size)")
c("C68","proved","C68_success C68_success_repeated C68_exit C68_second_run C68_keeps_schemas C68_order_irrelevant C68_failure C68_fails_for_twice C68_example","the exception named in the statement (-0.0 in a file that is selected twice) is C68_fails_for_twice; it is the one of C42")
c("C69","partial","C69_check_partial C69_fails_for_syntax_errors C69_fails_silently","the documentation of the command is false (refuted); exact behaviour proved for all disks and selections")
c("C70","partial","C70_selected C70_patterns_as_set C70_given_files C70_build_inputs C70_fails_for_directories C70_example","false for directories named *.mabo (refuted); the walk and glob matching of third-party crates are parameters")
c("C71","partial","C71_interrupted_partial C71_failed_is_killed C71_fails_while_writing","false for the file being written (refuted); all other files proved, at every moment")
c("C72","partial","C72_error_true_partial C72_reported_iff C72_rejection_explained C72_no_false_alarm C72_fails_for_nested_paths C72_fails_for_module_imports C72_two_words","false for paths through imported modules (refuted); what every error says is proved for all schemas; the labels are C77")
c("C73","partial","C73_written C73_tree_exists C73_valid_iff_partial C73_valid_needs_partial C73_references_partial C73_fails_without_runtime_types C73_fails_for_own_types goSample_valid goSample_plain goSample_good C73_fails_for_plain_fields C73_fails_for_struct_fields C73_fails_for_generics C73_fails_for_tuples C73_fails_for_wide_integers C73_fails_for_map_keys C73_fails_for_names C73_fails_for_constants","false for most schemas (refuted); exact condition for definitions without references and type parameters, necessary conditions for all; rules that depend on the runtime packages, and full type checking, are not part of the specification")
c("C74","partial","C74_roundtrip_partial C74_valid_roundtrip_partial C74_valid_nil_options_fail C74_nil_options_fail C74_variants_encode_nothing C74_decode_takes_everything C74_unknown_ids C74_set_options_lost C74_wire_types C74_wire_types_rust goPlainValues_fit Mabo.Go.Witness.faithful Mabo.Go.Witness.fieldOptions","mostly false (refuted in six ways); the round trip is proved for structs of non-optional fields without references and tuples, for every runtime library that meets the contract Spec.GoRun.Faithful; generated Go is run by a definitional interpreter, not by a Go compiler")
c("C75","partial","C75_fields C75_collections_partial C75_fails","exact for fields and options; refuted for collections (C75_fails), whose exact condition and error bound are proved")
c("C76","proved","C76_documents C76_paths C76_no_markup C76_definition_shown","for every conversion of Markdown to well-formed HTML (comrak is a parameter); escaping as askama does it")
c("C77","partial","C77_labels_partial C77_same_errors C77_used_in_text C77_fails_for_imported_kinds C77_fails_for_missing_modules","refuted for two kinds of error (imports of aliases and constants: range of the other file; missing modules in types: on the type's name); all other labels exact")
c("C78","proved","C78_reported C78_inside C78_place C78_unlabelled","Messages, codes, labels and nesting of the reports; help texts, links and the rendering by miette are not modelled. Labels of structs, fields, modules, constants and imports may be empty or end too early (C61).")
c("C79","proved","C79_touches_nothing_else C79_places C79_outside C79_sources_kept C79_deletes_nothing C79_success C79_all_pages C79_exit C79_run_again C79_directories C79_command C79_directory_selected C79_double_extension C79_example C79_example_kept C79_example_interrupted","The file system is a tree without links; the walk, glob patterns and Markdown are parameters. Files with the same name in different directories overwrite each other's pages (C53_equal_stems_overwrite); a file named x.mabo.mabo makes a directory that a second run may select (C79_double_extension).")
c("C80","partial","C80_log_partial C80_lines_partial C80_filter C80_readable C80_never_stuck C80_possible C80_fails_for_stderr C80_fails_for_processes C80_forged","proved for the file of one server process; refuted for standard error, for several servers and for messages with line breaks. Values that log while they are being formatted (none in this project) are not modelled")
c("C81","partial","C81_told_partial C81_accepted C81_same_as_editor C81_fails_for_places C81_fails_for_unresolved C81_fails_for_go C81_example C81_example_syntax C81_example_unresolved","the file is right for errors of single files; places are never shown for invalid schemas, the path is empty for errors of the resolver, and the Go tool names no file (each proved). Rendering by miette and anyhow is not modelled")
c("C82","partial","C82_definitions_partial C82_size_partial C82_size_exact C82_size_once C82_mentioned C82_matters_mentioned C82_known C82_derives C82_recursive_partial C82_instances_partial C82_instances_plain_partial C82_trees C82_fails_for_direct_recursion C82_fails_for_unused C82_fails_for_aliases C82_fails_for_keys C82_fails_for_growing_arguments","holds without recursion; with recursion through vectors, maps and sets all but the use of type parameters and finitely many instances (the latter also without type parameters); refuted in general. Rust's own rules are a specification (Spec/Layout.lean), not proved of rustc")
c("C83","partial","C83_types_exact C83_values C83_imports_partial C83_modules_partial C83_crate_partial C83_example C83_fails_for_trait_names C83_fails_for_inner_imports","refuted for types called like the imported traits and for imports in inner modules; without these the whole crate is accepted. Rust's rules for names are a specification (Spec/Clash.lean), not proved of rustc")
c("C84","partial","C84_discover C84_loaded C84_complete C84_folder_partial C84_harmless_partial C84_same_session_partial C84_fails_for_clients C84_fails_for_broken_neighbours C84_fails_for_escapes C84_fails_for_links C84_example","false: loaded documents are never found by clients (refuted for every workspace); exactly what is loaded, and that it does no harm, is proved. Walks and what is a URI are parameters")
# --- append above ---
C.sort(key=lambda x: x["property"])
out = os.path.join(os.path.dirname(__file__), "..", "MANIFEST.json")
with open(out, "w") as f:
    f.write('{"claims": [\n' + ",\n".join(json.dumps(x) for x in C) + "\n]}\n")

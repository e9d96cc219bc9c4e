{"claims": [
{"property": "C01", "status": "proved", "theorems": ["Mabo.Props.C01_unsigned_roundtrip", "Mabo.Props.C01_encoding_denotes_value", "Mabo.Props.C01_encoder_never_exhausts_buffer"], "note": ""},
{"property": "C02", "status": "proved", "theorems": ["Mabo.Props.C02_signed_roundtrip", "Mabo.Props.C02_zigzag_meaning", "Mabo.Props.C02_zigzag_bijective"], "note": ""},
{"property": "C03", "status": "proved", "theorems": ["Mabo.Props.C03_unsigned_size_exact", "Mabo.Props.C03_signed_size_exact", "Mabo.Props.C03_size_boundaries"], "note": ""},
{"property": "C04", "status": "proved", "theorems": ["Mabo.Props.C04_decode_ok_iff", "Mabo.Props.C04_decode_err_iff", "Mabo.Props.C04_decode_bounded_lookahead", "Mabo.Props.C04_signed_decode_iff", "Mabo.Props.C04_shift_in_range"], "note": ""},
{"property": "C05", "status": "proved", "theorems": ["Mabo.Props.C05_prefix_free", "Mabo.Props.C05_prefix_free_signed", "Mabo.Props.C05_minimal", "Mabo.Props.C05_decoder_accepts_noncanonical"], "note": ""},
{"property": "C06", "status": "proved", "theorems": ["Mabo.Props.C06_pack_unpack", "Mabo.Props.C06_packed_value", "Mabo.Props.C06_unpack_fails_iff", "Mabo.Props.C06_unpack_pack", "Mabo.Props.C06_large_ids_do_not_survive", "Mabo.Props.C06_wire_roundtrip"], "note": ""},
{"property": "C07", "status": "proved", "theorems": ["Mabo.Props.C07_bytes_roundtrip", "Mabo.Props.C07_string_roundtrip", "Mabo.Props.C07_non_utf8", "Mabo.Props.C07_length_too_large", "Mabo.Props.C07_never_over_reads"], "note": ""},
{"property": "C08", "status": "proved", "theorems": ["Mabo.Props.C08_fixed_roundtrip", "Mabo.Props.C08_insufficient", "Mabo.Props.C08_fixed_decode_total"], "note": ""},
{"property": "C09", "status": "proved", "theorems": ["Mabo.Props.C09_option_roundtrip", "Mabo.Props.C09_option_other_tag", "Mabo.Props.C09_option_size"], "note": ""},
{"property": "C10", "status": "proved", "theorems": ["Mabo.Props.C10_vec_roundtrip", "Mabo.Props.C10_hash_map_roundtrip", "Mabo.Props.C10_hash_set_roundtrip", "Mabo.Props.C10_array_roundtrip", "Mabo.Props.C10_array_shrinks", "Mabo.Props.C10_map_last_value_wins"], "note": ""},
{"property": "C11", "status": "proved", "theorems": ["Mabo.Props.C11_nonzero_int", "Mabo.Props.C11_nonzero_int_roundtrip", "Mabo.Props.C11_nonzero_byte_roundtrip", "Mabo.Props.C11_nonzero_collections_nonempty", "Mabo.Props.C11_nonzero_never_panics", "Mabo.Props.C11_empty_gives_zero", "Mabo.Props.C11_nonzero_agrees_with_plain"], "note": ""},
{"property": "C12", "status": "partial", "theorems": ["Mabo.Props.C12_skip_partial", "Mabo.Props.C12_skip_leaf_partial", "Mabo.Props.C12_skip_shallow_partial", "Mabo.Props.C12_fails_for_structs", "Mabo.Props.C12_fails_for_nested_options", "Mabo.Props.C12_fails_for_generic_parameters"], "note": "skipping every field type is false of the code (named types, nested options and generic parameters are tagged length-prefixed without a length): refuted; proved for all other types"},
{"property": "C13", "status": "proved", "theorems": ["Mabo.Props.C13_roundtrip", "Mabo.Props.C13_roundtrip_any_type", "Mabo.Props.C13_roundtrip_shallow_schema", "Mabo.Props.C13_roundtrip_when_size_exact", "Mabo.Props.C13_decoder_equation", "Mabo.Props.C13_messages_concatenate", "Mabo.Props.C13_encoding_injective", "Mabo.Props.C13_fails_for_nested_collections", "Mabo.Props.C13_zero_byte_elements_are_lost"], "note": "the property as stated carries its side conditions; the last two theorems show that they cannot be dropped"},
{"property": "C14", "status": "partial", "theorems": ["Mabo.Props.C14_size_partial", "Mabo.Props.C14_size_exact_plain_partial", "Mabo.Props.C14_announced_size_exact_partial", "Mabo.Props.C14_fails_for_collections", "Mabo.Props.C14_fails_for_tuple_fields"], "note": "equality for every value is false of the code; proved: upper bound, exact characterisation of equality, and equality for schemas without collections and tuple fields"},
{"property": "C15", "status": "partial", "theorems": ["Mabo.Props.C15_unknown_field_ignored_partial", "Mabo.Props.C15_reader_sees_view_partial", "Mabo.Props.C15_view_of_same_schema", "Mabo.Props.C15_added_fields_ignored_partial", "Mabo.Props.C15_example", "Mabo.Props.C15_fails_for_struct_fields"], "note": "false for new fields of a type that cannot be skipped (see C12): refuted; proved for every pair of schemas where the reader's view is defined"},
{"property": "C16", "status": "proved", "theorems": ["Mabo.Props.C16_missing_required", "Mabo.Props.C16_absent_options", "Mabo.Props.C16_example"], "note": ""},
{"property": "C17", "status": "proved", "theorems": ["Mabo.Props.C17_order_irrelevant", "Mabo.Props.C17_permuted_value"], "note": ""},
{"property": "C18", "status": "proved", "theorems": ["Mabo.Props.C18_earlier_occurrence_ignored", "Mabo.Props.C18_last_wins"], "note": ""},
{"property": "C19", "status": "proved", "theorems": ["Mabo.Props.C19_unknown_variant", "Mabo.Props.C19_known_variant", "Mabo.Props.C19_unit_variant", "Mabo.Props.C19_decoded_variant"], "note": ""},
{"property": "C20", "status": "partial", "theorems": ["Mabo.Props.C20_decode_total_partial", "Mabo.Props.C20_example", "Mabo.Props.C20_fails_for_arrays", "Mabo.Props.C20_fails_for_unit_elements", "Mabo.Props.C20_hang_is_divergence", "Mabo.Props.C20_loop_bound_irrelevant"], "note": "false for fixed-size arrays and zero-byte elements: refuted; proved for all other schemas"},
{"property": "C21", "status": "proved", "theorems": ["Mabo.Props.C21_consumes_prefix", "Mabo.Props.C21_append", "Mabo.Props.C21_no_strict_prefix", "Mabo.Props.C21_truncated_encoding_rejected", "Mabo.Props.C21_any_type"], "note": ""},
{"property": "C22", "status": "proved", "theorems": ["Mabo.Props.C22_window_confines", "Mabo.Props.C22_consumes_declared_length"], "note": ""},
{"property": "C23", "status": "partial", "theorems": ["Mabo.Props.C23_any_chunking_partial", "Mabo.Props.C23_clean_boundaries_partial", "Mabo.Props.C23_roundtrip_partial", "Mabo.Props.C23_fails_for_split_varint", "Mabo.Props.C23_split_witness"], "note": "false when a varint crosses a piece boundary: refuted; proved: never a wrong value for any cut, exact agreement when no boundary is inside a varint"},
{"property": "C24", "status": "proved", "theorems": ["Mabo.Props.C24_assignment_unique", "Mabo.Props.C24_generated_field_ids", "Mabo.Props.C24_generated_variant_ids", "Mabo.Props.C24_panic_only_at_max"], "note": ""},
{"property": "C25", "status": "proved", "theorems": ["Mabo.Props.C25_validate_exact", "Mabo.Props.C25_duplicate_ids_rejected", "Mabo.Props.C25_reported_clash"], "note": ""},
{"property": "C26", "status": "proved", "theorems": ["Mabo.Props.C25_validate_exact", "Mabo.Props.C26_scope_names_rejected", "Mabo.Props.C26_member_names_rejected", "Mabo.Props.C26_reported_name"], "note": ""},
{"property": "C27", "status": "proved", "theorems": ["Mabo.Props.C25_validate_exact", "Mabo.Props.C27_generics_rejected", "Mabo.Props.C27_reported_generic"], "note": ""},
{"property": "C28", "status": "proved", "theorems": ["Mabo.Props.C25_validate_exact", "Mabo.Props.C28_tuples_rejected", "Mabo.Props.C28_reported_tuple"], "note": ""},
{"property": "C29", "status": "partial", "theorems": ["Mabo.Props.C29_generator_exact", "Mabo.Props.C29_validated_compiles_partial", "Mabo.Props.C29_fails_for_non_zero", "Mabo.Props.C29_fails_for_hidden_tuple", "Mabo.Props.C29_fails_for_const"], "note": "false: validation does not look inside non_zero nor at const types; the exact set of schemas the generator finishes on is characterised"},
{"property": "C30", "status": "partial", "theorems": ["Mabo.Props.C30_wire_ids_partial", "Mabo.Props.C30_implicit_ids", "Mabo.Props.C30_fails_zero", "Mabo.Props.C30_fails_large", "Mabo.Props.C30_zero_breaks_round_trip"], "note": "false: 0 and ids >= 2^29 are accepted; proved when the explicit ids are in range"},
{"property": "C31", "status": "proved", "theorems": ["Mabo.Props.C31_simplify", "Mabo.Props.C31_simplify_panics", "Mabo.Props.C31_validated_simplifies"], "note": ""},
{"property": "C32", "status": "proved", "theorems": ["Mabo.Props.C32_resolve_exact", "Mabo.Props.C32_sound", "Mabo.Props.C32_dangling_rejected", "Mabo.Props.C32_order_irrelevant"], "note": ""},
{"property": "C33", "status": "partial", "theorems": ["Mabo.Props.C33_complete_partial", "Mabo.Props.C32_resolve_exact", "Mabo.Props.C33_fails_for_module_imports", "Mabo.Props.C33_paths_never_remote", "Mabo.Props.C33_fails_for_inner_imports", "Mabo.Props.C33_inner_imports_unchecked"], "note": "false for references through an imported module and for imports inside modules: refuted; the accepted set is characterised exactly"},
{"property": "C34", "status": "proved", "theorems": ["Mabo.Props.C34_next_variant_id", "Mabo.Props.C34_next_field_id", "Mabo.Props.C34_unit", "Mabo.Props.C34_extend", "Mabo.Props.C34_at_max"], "note": "The hypothesis that no id is u32::MAX is in the English property; C34_at_max shows what happens otherwise."},
{"property": "C35", "status": "partial", "theorems": ["Mabo.Props.C35_element_partial", "Mabo.Props.C35_field_partial", "Mabo.Props.C35_tuple_counterexample", "Mabo.Props.C35_array_max_counterexample", "Mabo.Props.C35_array_min_counterexample"], "note": "False of the code for tuple fields (length prefix not counted) and arrays whose byte length needs a different varint than the element count: counterexamples proved. Proved for everything else."},
{"property": "C36", "status": "proved", "theorems": ["Mabo.Props.C36_print_parse", "Mabo.Props.C36_exact", "Mabo.Props.C36_formatting_preserves", "Mabo.Props.C36_print_injective", "Mabo.Props.C36_example", "Mabo.Props.C36_keyword_paths", "Mabo.Props.C36_keyword_path_never_read"], "note": "For the types that can be written at all; C36_exact shows the side condition (valid names, path not starting like a keyword) is necessary."},
{"property": "C37", "status": "proved", "theorems": ["Mabo.Props.C37_print_parse", "Mabo.Props.C37_integers", "Mabo.Props.C37_booleans", "Mabo.Props.C37_bytes", "Mabo.Props.C37_strings", "Mabo.Props.C37_nul_is_an_error", "Mabo.Props.C37_nul_readable", "Mabo.Props.C37_integral_floats", "Mabo.Props.C37_formatting_preserves", "Mabo.Props.C37_range", "Mabo.Props.C37_example"], "note": "NUL is the only character whose escape is not understood. Floats are not part of the property; C37_integral_floats shows that a float printed without a point comes back as an integer."},
{"property": "C38", "status": "proved", "theorems": ["Mabo.Props.C38_types", "Mabo.Props.C38_any_list", "Mabo.Props.C38_never_empty", "Mabo.Props.C38_len", "Mabo.Props.C38_iter", "Mabo.Props.C38_iterator_len", "Mabo.Props.C38_iterator_len_at_end"], "note": ""},
{"property": "C39", "status": "proved", "theorems": ["Mabo.Props.C39_semantic_tokens", "Mabo.Props.C39_no_tokens", "Mabo.Props.C39_no_panic", "Mabo.Props.C39_in_session"], "note": "Parameter: the line index (PositionContract, met by searchPosition_contract). Attributes, array sizes, string literals and the angles of type parameters have no token in the code, hence none in the specification. Concrete response: C39_example."},
{"property": "C40", "status": "proved", "theorems": ["Mabo.Props.C40_accepts_exactly", "Mabo.Props.C40_prints_back", "Mabo.Props.C40_round_trip", "Mabo.Props.C40_example"], "note": ""},
{"property": "C41", "status": "partial", "theorems": ["Mabo.Props.C41_fmt_preserves_partial", "Mabo.Props.C41_without_literals_partial", "Mabo.Props.C41_rejected_untouched", "Mabo.Props.C41_print_parse", "Mabo.Props.C41_fails_for_nul", "Mabo.Props.C41_fails_for_floats", "Mabo.Props.C41_exact", "Mabo.Props.C42_forms_example", "Mabo.Props.C41_example"], "note": "false for strings with NUL and floats printed without a point: refuted; C41_exact proves that these are exactly the exceptions (files without -0.0)"},
{"property": "C42", "status": "partial", "theorems": ["Mabo.Props.C42_idempotent_partial", "Mabo.Props.C42_idempotent_all_partial", "Mabo.Props.C42_canonical", "Mabo.Props.C42_fails_for_negative_zero", "Mabo.Props.C42_forms_example"], "note": "false for -0.0 (refuted); proved for every other text, accepted or not"},
{"property": "C43", "status": "partial", "theorems": ["Mabo.Props.C43_kept_partial", "Mabo.Props.C43_attributes_lost", "Mabo.Props.C43_import_comment_lost", "Mabo.Props.C43_fails"], "note": "false for all definitions but structs and enums: exactly what is lost is proved"},
{"property": "C44", "status": "proved", "theorems": ["Mabo.Props.C44_accepted_is_well_formed", "Mabo.Props.C44_well_formed_is_writable", "Mabo.Props.C41_example"], "note": ""},
{"property": "C45", "status": "proved", "theorems": ["Mabo.Props.C45_print_injective", "Mabo.Props.C41_example"], "note": ""},
{"property": "C46", "status": "partial", "theorems": ["Mabo.Props.C46_in_sync_partial", "Mabo.Props.C46_others_untouched", "Mabo.Props.C46_client", "Mabo.Props.C46_fails_for_several_changes", "Mabo.Props.C46_fails_with_a_panic", "Mabo.Props.C46_fails_for_two_full_changes", "Mabo.Props.C46_deleted_while_open", "Mabo.Props.C46_example"], "note": "false when one notification holds several changes not ordered back to front (all ranges are resolved against the old text; wrong text or panic) or two whole-text changes: refuted. Proved for all other histories."},
{"property": "C47", "status": "partial", "theorems": ["Mabo.Props.C47_references_partial", "Mabo.Props.C47_definitions_partial", "Mabo.Props.C47_nothing_else", "Mabo.Props.C47_usable_ids", "Mabo.Props.C47_roundtrip_partial", "Mabo.Props.clear_of_plain", "Mabo.Props.wireDefs_ok", "Mabo.Props.C47_fails_for_inner_uses", "Mabo.Props.C47_fails_for_inner_imports", "Mabo.Props.C47_fails_inside_non_zero", "Mabo.Props.C47_fails_for_parameters_with_arguments", "Mabo.Props.C47_fails_for_aliases"], "note": "false for references the resolver does not check as Rust does (four refutations); proved for all definitions without such references (Clear), in particular all plain top-level definitions (clear_of_plain); round trip with the side conditions of C13"},
{"property": "C48", "status": "partial", "theorems": ["Mabo.Props.C48_succeeds_iff", "Mabo.Props.C48_nothing_on_bad_input", "Mabo.Props.C48_written_partial", "Mabo.Props.C48_order_irrelevant", "Mabo.Props.C48_fails_for_equal_names", "Mabo.Props.C48_fails_for_late_errors"], "note": "false for files of equal names and for code generation errors (refuted); proved otherwise"},
{"property": "C49", "status": "proved", "theorems": ["Mabo.Props.C49_document_symbols", "Mabo.Props.C49_no_symbols", "Mabo.Props.C49_no_panic", "Mabo.Props.C49_in_session", "Mabo.Props.C49_example"], "note": "Parameter: the line index (PositionContract, met by searchPosition_contract)."},
{"property": "C50", "status": "proved", "theorems": ["Mabo.Props.C50_hover", "Mabo.Props.C50_no_hover", "Mabo.Props.C50_no_panic", "Mabo.Props.C50_in_session", "Mabo.Props.placed_unique", "Mabo.Props.resolves_exists", "Mabo.Props.C50_example"], "note": "Parameters: the line index (PositionContract, OffsetContract). The bounds shown for a size are those of C35. Release builds show the next id 0 behind u32::MAX (C34)."},
{"property": "C51", "status": "proved", "theorems": ["Mabo.Props.C51_diagnostic", "Mabo.Props.C51_accepts", "Mabo.Props.C51_unparsed", "Mabo.Props.C51_no_panic", "Mabo.Props.C51_in_session", "Mabo.Props.C51_kept", "Mabo.Props.C51_type_span", "Mabo.Lsp.Spans.validateSchema_same", "Mabo.Props.C51_example"], "note": "Parameters: the line index (PositionContract, OffsetContract), the iteration order of hash maps (PickContract), the place and message of parser errors (FailureContract), terminal highlighting. Closing or deleting a document does not withdraw its diagnostics (C51_kept)."},
{"property": "C52", "status": "proved", "theorems": ["Mabo.Props.C52_definition_text", "Mabo.Props.C52_field_list", "Mabo.Props.C52_variant_list", "Mabo.Props.C52_next_id", "Mabo.Props.C53_example"], "note": "Pages are modelled as the data the templates insert, not as HTML."},
{"property": "C53", "status": "proved", "theorems": ["Mabo.Props.C53_pages", "Mabo.Props.C53_distinct", "Mabo.Props.C53_heading", "Mabo.Props.C53_tables", "Mabo.Props.C53_reachable", "Mabo.Props.C53_no_dead_links", "Mabo.Props.C53_file_documented", "Mabo.Props.C53_project", "Mabo.Props.C53_project_stops", "Mabo.Props.C53_stems", "Mabo.Props.C53_stylesheet_missing", "Mabo.Props.C53_equal_stems_overwrite", "Mabo.Props.C53_fails_unvalidated", "Mabo.Props.C53_example"], "note": "Distinct paths for validated schemas (mabo doc itself does not validate: C53_fails_unvalidated). The style sheet and equal stems are exceptions named in the property."},
{"property": "C54", "status": "partial", "theorems": ["Mabo.Props.C54_constant_text_partial", "Mabo.Props.C54_fails_for_nul", "Mabo.Props.C54_fails_for_floats"], "note": "false for strings with NUL and floats printed without a point: refuted; proved otherwise"},
{"property": "C55", "status": "proved", "theorems": ["Mabo.Props.C55_answers", "Mabo.Props.C55_at_once", "Mabo.Props.C55_questions", "Mabo.Props.C55_shutdown", "Mabo.Props.C55_stops_when_asked"], "note": "for every list of messages and pauses; the contents of requests are read by serde_json, a parameter"},
{"property": "C56", "status": "partial", "theorems": ["Mabo.Props.C56_session_partial", "Mabo.Props.C56_tokens_partial", "Mabo.Props.C56_symbols_partial", "Mabo.Props.C56_hover_partial", "Mabo.Props.C56_exit_partial", "Mabo.Props.C56_settings_from_answer", "Mabo.Props.C56_fails_first_document", "Mabo.Props.C56_fails_request", "Mabo.Props.C56_fails_lost_message", "Mabo.Props.C56_fails_late_settings", "Mabo.Props.C56_example"], "note": "false when a message arrives while the server waits for an answer of the client: refuted; proved for clients that answer first, with the restrictions of C46 and C51"},
{"property": "C57", "status": "proved", "theorems": ["Mabo.Props.C57_announced_encoding", "Mabo.Props.C57_sessions", "Mabo.Props.C57_in_sync_partial", "Mabo.Props.C57_unknown_encoding"], "note": "The crate line-index is modelled from its documentation; texts below 4 GiB. C57_in_sync_partial carries the restriction of C46."},
{"property": "C58", "status": "partial", "theorems": ["Mabo.Props.C58_denoted_place_partial", "Mabo.Props.C58_behind_the_line", "Mabo.Props.C58_fails", "Mabo.Props.C58_fails_with_a_panic", "Mabo.Props.C58_no_such_line"], "note": "false for every position to the right of its line: refuted, exact behaviour proved"},
{"property": "C59", "status": "proved", "theorems": ["Mabo.Props.C59_explained", "Mabo.Props.C59_same", "Mabo.Props.C59_contract", "Mabo.Props.C59_shown", "Mabo.Props.C59_example", "Mabo.Props.C59_example'"], "note": "the parser with its errors is proved to accept the same texts as the parser of the other claims; winnow's choice of errors is modelled from its documentation"},
{"property": "C60", "status": "partial", "theorems": ["Mabo.Props.C60_about_partial", "Mabo.Props.C60_struct", "Mabo.Props.C60_id", "Mabo.Props.C60_examples", "Mabo.Props.C60_refuted"], "note": "false for attributes, modules, type parameters, imports: refuted; what each message is about is proved for all texts"},
{"property": "C61", "status": "partial", "theorems": ["Mabo.Props.C61_range_partial", "Mabo.Props.C61_empty", "Mabo.Props.C61_example", "Mabo.Props.C61_refuted"], "note": "false for declarations that do not start the file, and for enums and aliases: refuted, exact ranges proved"},
{"property": "C62", "status": "partial", "theorems": ["Mabo.Props.C62_postcard", "Mabo.Props.C62_postcard_signed", "Mabo.Props.C62_postcard_bytes", "Mabo.Props.C62_postcard_small", "Mabo.Props.C62_bincode", "Mabo.Props.C62_bincode_signed", "Mabo.Props.C62_vu128", "Mabo.Props.C62_vu128_signed", "Mabo.Props.C62_vu128_floats", "Mabo.Props.C62_vu128_bytes_partial", "Mabo.Props.C62_vu128_bytes_refuted"], "note": "false for the 8 bit numbers of vu128 from 15 to 239 (encode and decode use different bounds): refuted, exactly these; proved for everything else"},
{"property": "C63", "status": "partial", "theorems": ["Mabo.Props.C63_postcard", "Mabo.Props.C63_bincode", "Mabo.Props.C63_vu128_partial", "Mabo.Props.C63_vu128_refuted"], "note": "false for vu128 (the mask is shifted by bytes instead of bits): refuted; proved for the others"},
{"property": "C64", "status": "partial", "theorems": ["Mabo.Props.C64_finishes_exact", "Mabo.Props.C64_validated_finishes_partial", "Mabo.Props.C64_fails_for_large_arrays", "Mabo.Props.C64_fails_for_empty_arrays", "Mabo.Props.C64_fails_for_non_zero_floats"], "note": "false for arrays of 0 or more than 32 elements and non_zero floats (refuted), and for the schemas of C29; the set of schemas for which code is produced is characterised exactly"},
{"property": "C65", "status": "partial", "theorems": ["Mabo.Props.C65_succeeds_iff", "Mabo.Props.C65_nothing_on_bad_input", "Mabo.Props.C65_disk_exact", "Mabo.Props.C65_files_partial", "Mabo.Props.C65_last_file_wins", "Mabo.Props.C65_fails_for_several_files", "Mabo.Props.C65_fails_for_late_errors"], "note": "false for projects of several schema files (all are written to the same file, the last wins: proved for every project) and for code generation errors; proved for projects of one file, and what is on disk is characterised for all"},
{"property": "C66", "status": "proved", "theorems": ["Mabo.Props.C66_encode", "Mabo.Props.C66_decode", "Mabo.Props.C66_roundtrip", "Mabo.Props.C66_decode_total"], "note": "for every crate whose emitted functions compile (Compiles; which crates these are is C67); type checking and execution of Rust are those of Rust/Elab.lean, written for the syntax that is emitted"},
{"property": "C67", "status": "partial", "theorems": ["Mabo.Props.C67_exact", "Mabo.Props.C67_compiles_partial", "Mabo.Props.C67_fails_for_tuples_in_tuples", "Mabo.Props.C67_fails_for_options_in_tuples", "Mabo.Props.C67_fails_for_keys", "Mabo.Props.C67_fails_for_type_arguments", "Mabo.Props.C67_fails_for_field_names", "Mabo.Props.C67_fails_for_prelude_names", "Mabo.Props.C67_fails_for_boxed_bytes", "Mabo.Props.C67_fails_for_recursion"], "note": "false for the schemas of the refutations; the exact condition on names and types is proved in both directions, per type and per crate; only bodies of functions are checked (not that emitted types have finite size)"},
{"property": "C68", "status": "proved", "theorems": ["Mabo.Props.C68_success", "Mabo.Props.C68_success_repeated", "Mabo.Props.C68_exit", "Mabo.Props.C68_second_run", "Mabo.Props.C68_keeps_schemas", "Mabo.Props.C68_order_irrelevant", "Mabo.Props.C68_failure", "Mabo.Props.C68_fails_for_twice", "Mabo.Props.C68_example"], "note": "the exception named in the statement (-0.0 in a file that is selected twice) is C68_fails_for_twice; it is the one of C42"},
{"property": "C69", "status": "partial", "theorems": ["Mabo.Props.C69_check_partial", "Mabo.Props.C69_fails_for_syntax_errors", "Mabo.Props.C69_fails_silently"], "note": "the documentation of the command is false (refuted); exact behaviour proved for all disks and selections"},
{"property": "C70", "status": "partial", "theorems": ["Mabo.Props.C70_selected", "Mabo.Props.C70_patterns_as_set", "Mabo.Props.C70_given_files", "Mabo.Props.C70_build_inputs", "Mabo.Props.C70_fails_for_directories", "Mabo.Props.C70_example"], "note": "false for directories named *.mabo (refuted); the walk and glob matching of third-party crates are parameters"},
{"property": "C71", "status": "partial", "theorems": ["Mabo.Props.C71_interrupted_partial", "Mabo.Props.C71_failed_is_killed", "Mabo.Props.C71_fails_while_writing"], "note": "false for the file being written (refuted); all other files proved, at every moment"},
{"property": "C72", "status": "partial", "theorems": ["Mabo.Props.C72_error_true_partial", "Mabo.Props.C72_reported_iff", "Mabo.Props.C72_rejection_explained", "Mabo.Props.C72_no_false_alarm", "Mabo.Props.C72_fails_for_nested_paths", "Mabo.Props.C72_fails_for_module_imports", "Mabo.Props.C72_two_words"], "note": "false for paths through imported modules (refuted); what every error says is proved for all schemas; the labels are C77"},
{"property": "C73", "status": "partial", "theorems": ["Mabo.Props.C73_written", "Mabo.Props.C73_tree_exists", "Mabo.Props.C73_valid_iff_partial", "Mabo.Props.C73_valid_needs_partial", "Mabo.Props.C73_references_partial", "Mabo.Props.C73_fails_without_runtime_types", "Mabo.Props.C73_fails_for_own_types", "Mabo.Props.goSample_valid", "Mabo.Props.goSample_plain", "Mabo.Props.goSample_good", "Mabo.Props.C73_fails_for_plain_fields", "Mabo.Props.C73_fails_for_struct_fields", "Mabo.Props.C73_fails_for_generics", "Mabo.Props.C73_fails_for_tuples", "Mabo.Props.C73_fails_for_wide_integers", "Mabo.Props.C73_fails_for_map_keys", "Mabo.Props.C73_fails_for_names", "Mabo.Props.C73_fails_for_constants"], "note": "false for most schemas (refuted); exact condition for definitions without references and type parameters, necessary conditions for all; rules that depend on the runtime packages, and full type checking, are not part of the specification"},
{"property": "C74", "status": "partial", "theorems": ["Mabo.Props.C74_roundtrip_partial", "Mabo.Props.C74_valid_roundtrip_partial", "Mabo.Props.C74_valid_nil_options_fail", "Mabo.Props.C74_nil_options_fail", "Mabo.Props.C74_variants_encode_nothing", "Mabo.Props.C74_decode_takes_everything", "Mabo.Props.C74_unknown_ids", "Mabo.Props.C74_set_options_lost", "Mabo.Props.C74_wire_types", "Mabo.Props.C74_wire_types_rust", "Mabo.Props.goPlainValues_fit", "Mabo.Go.Witness.faithful", "Mabo.Go.Witness.fieldOptions"], "note": "mostly false (refuted in six ways); the round trip is proved for structs of non-optional fields without references and tuples, for every runtime library that meets the contract Spec.GoRun.Faithful; generated Go is run by a definitional interpreter, not by a Go compiler"},
{"property": "C75", "status": "partial", "theorems": ["Mabo.Props.C75_fields", "Mabo.Props.C75_collections_partial", "Mabo.Props.C75_fails"], "note": "exact for fields and options; refuted for collections (C75_fails), whose exact condition and error bound are proved"},
{"property": "C76", "status": "proved", "theorems": ["Mabo.Props.C76_documents", "Mabo.Props.C76_paths", "Mabo.Props.C76_no_markup", "Mabo.Props.C76_definition_shown"], "note": "for every conversion of Markdown to well-formed HTML (comrak is a parameter); escaping as askama does it"},
{"property": "C77", "status": "partial", "theorems": ["Mabo.Props.C77_labels_partial", "Mabo.Props.C77_same_errors", "Mabo.Props.C77_used_in_text", "Mabo.Props.C77_fails_for_imported_kinds", "Mabo.Props.C77_fails_for_missing_modules"], "note": "refuted for two kinds of error (imports of aliases and constants: range of the other file; missing modules in types: on the type's name); all other labels exact"},
{"property": "C78", "status": "proved", "theorems": ["Mabo.Props.C78_reported", "Mabo.Props.C78_inside", "Mabo.Props.C78_place", "Mabo.Props.C78_unlabelled"], "note": "Messages, codes, labels and nesting of the reports; help texts, links and the rendering by miette are not modelled. Labels of structs, fields, modules, constants and imports may be empty or end too early (C61)."},
{"property": "C79", "status": "proved", "theorems": ["Mabo.Props.C79_touches_nothing_else", "Mabo.Props.C79_places", "Mabo.Props.C79_outside", "Mabo.Props.C79_sources_kept", "Mabo.Props.C79_deletes_nothing", "Mabo.Props.C79_success", "Mabo.Props.C79_all_pages", "Mabo.Props.C79_exit", "Mabo.Props.C79_run_again", "Mabo.Props.C79_directories", "Mabo.Props.C79_command", "Mabo.Props.C79_directory_selected", "Mabo.Props.C79_double_extension", "Mabo.Props.C79_example", "Mabo.Props.C79_example_kept", "Mabo.Props.C79_example_interrupted"], "note": "The file system is a tree without links; the walk, glob patterns and Markdown are parameters. Files with the same name in different directories overwrite each other's pages (C53_equal_stems_overwrite); a file named x.mabo.mabo makes a directory that a second run may select (C79_double_extension)."},
{"property": "C80", "status": "partial", "theorems": ["Mabo.Props.C80_log_partial", "Mabo.Props.C80_lines_partial", "Mabo.Props.C80_filter", "Mabo.Props.C80_readable", "Mabo.Props.C80_never_stuck", "Mabo.Props.C80_possible", "Mabo.Props.C80_fails_for_stderr", "Mabo.Props.C80_fails_for_processes", "Mabo.Props.C80_forged"], "note": "proved for the file of one server process; refuted for standard error, for several servers and for messages with line breaks. Values that log while they are being formatted (none in this project) are not modelled"},
{"property": "C81", "status": "partial", "theorems": ["Mabo.Props.C81_told_partial", "Mabo.Props.C81_accepted", "Mabo.Props.C81_same_as_editor", "Mabo.Props.C81_fails_for_places", "Mabo.Props.C81_fails_for_unresolved", "Mabo.Props.C81_fails_for_go", "Mabo.Props.C81_example", "Mabo.Props.C81_example_syntax", "Mabo.Props.C81_example_unresolved"], "note": "the file is right for errors of single files; places are never shown for invalid schemas, the path is empty for errors of the resolver, and the Go tool names no file (each proved). Rendering by miette and anyhow is not modelled"},
{"property": "C82", "status": "partial", "theorems": ["Mabo.Props.C82_definitions_partial", "Mabo.Props.C82_size_partial", "Mabo.Props.C82_size_exact", "Mabo.Props.C82_size_once", "Mabo.Props.C82_mentioned", "Mabo.Props.C82_matters_mentioned", "Mabo.Props.C82_known", "Mabo.Props.C82_derives", "Mabo.Props.C82_recursive_partial", "Mabo.Props.C82_instances_partial", "Mabo.Props.C82_instances_plain_partial", "Mabo.Props.C82_trees", "Mabo.Props.C82_fails_for_direct_recursion", "Mabo.Props.C82_fails_for_unused", "Mabo.Props.C82_fails_for_aliases", "Mabo.Props.C82_fails_for_keys", "Mabo.Props.C82_fails_for_growing_arguments"], "note": "holds without recursion; with recursion through vectors, maps and sets all but the use of type parameters and finitely many instances (the latter also without type parameters); refuted in general. Rust's own rules are a specification (Spec/Layout.lean), not proved of rustc"},
{"property": "C83", "status": "partial", "theorems": ["Mabo.Props.C83_types_exact", "Mabo.Props.C83_values", "Mabo.Props.C83_imports_partial", "Mabo.Props.C83_modules_partial", "Mabo.Props.C83_crate_partial", "Mabo.Props.C83_example", "Mabo.Props.C83_fails_for_trait_names", "Mabo.Props.C83_fails_for_inner_imports"], "note": "refuted for types called like the imported traits and for imports in inner modules; without these the whole crate is accepted. Rust's rules for names are a specification (Spec/Clash.lean), not proved of rustc"},
{"property": "C84", "status": "partial", "theorems": ["Mabo.Props.C84_discover", "Mabo.Props.C84_loaded", "Mabo.Props.C84_complete", "Mabo.Props.C84_folder_partial", "Mabo.Props.C84_harmless_partial", "Mabo.Props.C84_same_session_partial", "Mabo.Props.C84_fails_for_clients", "Mabo.Props.C84_fails_for_broken_neighbours", "Mabo.Props.C84_fails_for_escapes", "Mabo.Props.C84_fails_for_links", "Mabo.Props.C84_example"], "note": "false: loaded documents are never found by clients (refuted for every workspace); exactly what is loaded, and that it does no harm, is proved. Walks and what is a URI are parameters"}
]}

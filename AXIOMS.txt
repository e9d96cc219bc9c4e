Mabo.Go.Witness.faithful: propext, Classical.choice, Quot.sound
Mabo.Go.Witness.fieldOptions: propext, Classical.choice, Quot.sound
Mabo.Lsp.Spans.validateSchema_same: propext, Classical.choice, Quot.sound
Mabo.Props.C01_encoder_never_exhausts_buffer: propext, Classical.choice, Quot.sound
Mabo.Props.C01_encoding_denotes_value: propext, Classical.choice, Quot.sound
Mabo.Props.C01_unsigned_roundtrip: propext, Classical.choice, Quot.sound
Mabo.Props.C02_signed_roundtrip: propext, Classical.choice, Quot.sound
Mabo.Props.C02_zigzag_bijective: propext, Classical.choice, Quot.sound
Mabo.Props.C02_zigzag_meaning: propext, Classical.choice, Quot.sound
Mabo.Props.C03_signed_size_exact: propext, Classical.choice, Quot.sound
Mabo.Props.C03_size_boundaries: propext, Classical.choice, Quot.sound
Mabo.Props.C03_unsigned_size_exact: propext, Classical.choice, Quot.sound
Mabo.Props.C04_decode_bounded_lookahead: propext, Classical.choice, Quot.sound
Mabo.Props.C04_decode_err_iff: propext, Classical.choice, Quot.sound
Mabo.Props.C04_decode_ok_iff: propext, Classical.choice, Quot.sound
Mabo.Props.C04_shift_in_range: propext, Quot.sound
Mabo.Props.C04_signed_decode_iff: propext, Classical.choice, Quot.sound
Mabo.Props.C05_decoder_accepts_noncanonical: propext, Quot.sound
Mabo.Props.C05_minimal: propext, Classical.choice, Quot.sound
Mabo.Props.C05_prefix_free: propext, Classical.choice, Quot.sound
Mabo.Props.C05_prefix_free_signed: propext, Classical.choice, Quot.sound
Mabo.Props.C06_large_ids_do_not_survive: propext, Classical.choice, Quot.sound
Mabo.Props.C06_pack_unpack: propext, Classical.choice, Quot.sound
Mabo.Props.C06_packed_value: propext, Quot.sound
Mabo.Props.C06_unpack_fails_iff: propext, Classical.choice, Quot.sound
Mabo.Props.C06_unpack_pack: propext, Classical.choice, Quot.sound
Mabo.Props.C06_wire_roundtrip: propext, Classical.choice, Quot.sound
Mabo.Props.C07_bytes_roundtrip: propext, Classical.choice, Quot.sound
Mabo.Props.C07_length_too_large: propext, Classical.choice, Quot.sound
Mabo.Props.C07_never_over_reads: propext, Classical.choice, Quot.sound
Mabo.Props.C07_non_utf8: propext, Classical.choice, Quot.sound
Mabo.Props.C07_string_roundtrip: propext, Classical.choice, Quot.sound
Mabo.Props.C08_fixed_decode_total: propext, Quot.sound
Mabo.Props.C08_fixed_roundtrip: propext, Classical.choice, Quot.sound
Mabo.Props.C08_insufficient: propext
Mabo.Props.C09_option_other_tag: propext
Mabo.Props.C09_option_roundtrip: none
Mabo.Props.C09_option_size: propext, Quot.sound
Mabo.Props.C10_array_roundtrip: propext, Classical.choice, Quot.sound
Mabo.Props.C10_array_shrinks: propext, Classical.choice, Quot.sound
Mabo.Props.C10_hash_map_roundtrip: propext, Classical.choice, Quot.sound
Mabo.Props.C10_hash_set_roundtrip: propext, Classical.choice, Quot.sound
Mabo.Props.C10_map_last_value_wins: propext, Quot.sound
Mabo.Props.C10_vec_roundtrip: propext, Classical.choice, Quot.sound
Mabo.Props.C11_empty_gives_zero: propext, Classical.choice, Quot.sound
Mabo.Props.C11_nonzero_agrees_with_plain: propext, Quot.sound
Mabo.Props.C11_nonzero_byte_roundtrip: propext, Classical.choice, Quot.sound
Mabo.Props.C11_nonzero_collections_nonempty: propext, Classical.choice, Quot.sound
Mabo.Props.C11_nonzero_int: propext, Quot.sound
Mabo.Props.C11_nonzero_int_roundtrip: propext, Classical.choice, Quot.sound
Mabo.Props.C11_nonzero_never_panics: propext, Classical.choice, Quot.sound
Mabo.Props.C12_fails_for_generic_parameters: propext, Quot.sound
Mabo.Props.C12_fails_for_nested_options: propext, Classical.choice, Quot.sound
Mabo.Props.C12_fails_for_structs: propext, Quot.sound
Mabo.Props.C12_skip_leaf_partial: propext, Classical.choice, Quot.sound
Mabo.Props.C12_skip_partial: propext, Classical.choice, Quot.sound
Mabo.Props.C12_skip_shallow_partial: propext, Classical.choice, Quot.sound
Mabo.Props.C13_decoder_equation: propext, Classical.choice, Quot.sound
Mabo.Props.C13_encoding_injective: propext, Classical.choice, Quot.sound
Mabo.Props.C13_fails_for_nested_collections: propext, Classical.choice, Quot.sound
Mabo.Props.C13_messages_concatenate: propext, Classical.choice, Quot.sound
Mabo.Props.C13_roundtrip: propext, Classical.choice, Quot.sound
Mabo.Props.C13_roundtrip_any_type: propext, Classical.choice, Quot.sound
Mabo.Props.C13_roundtrip_shallow_schema: propext, Classical.choice, Quot.sound
Mabo.Props.C13_roundtrip_when_size_exact: propext, Classical.choice, Quot.sound
Mabo.Props.C13_zero_byte_elements_are_lost: propext, Classical.choice, Quot.sound
Mabo.Props.C14_announced_size_exact_partial: propext, Classical.choice, Quot.sound
Mabo.Props.C14_fails_for_collections: propext, Quot.sound
Mabo.Props.C14_fails_for_tuple_fields: propext, Quot.sound
Mabo.Props.C14_size_exact_plain_partial: propext, Classical.choice, Quot.sound
Mabo.Props.C14_size_partial: propext, Classical.choice, Quot.sound
Mabo.Props.C15_added_fields_ignored_partial: propext, Classical.choice, Quot.sound
Mabo.Props.C15_example: propext, Classical.choice, Quot.sound
Mabo.Props.C15_fails_for_struct_fields: propext, Classical.choice, Quot.sound
Mabo.Props.C15_reader_sees_view_partial: propext, Classical.choice, Quot.sound
Mabo.Props.C15_unknown_field_ignored_partial: propext, Classical.choice, Quot.sound
Mabo.Props.C15_view_of_same_schema: propext, Classical.choice, Quot.sound
Mabo.Props.C16_absent_options: propext, Classical.choice, Quot.sound
Mabo.Props.C16_example: propext, Classical.choice, Quot.sound
Mabo.Props.C16_missing_required: propext, Classical.choice, Quot.sound
Mabo.Props.C17_order_irrelevant: propext, Classical.choice, Quot.sound
Mabo.Props.C17_permuted_value: propext, Classical.choice, Quot.sound
Mabo.Props.C18_earlier_occurrence_ignored: propext, Classical.choice, Quot.sound
Mabo.Props.C18_last_wins: propext, Classical.choice, Quot.sound
Mabo.Props.C19_decoded_variant: propext, Classical.choice, Quot.sound
Mabo.Props.C19_known_variant: propext, Classical.choice, Quot.sound
Mabo.Props.C19_unit_variant: propext, Classical.choice, Quot.sound
Mabo.Props.C19_unknown_variant: propext, Classical.choice, Quot.sound
Mabo.Props.C20_decode_total_partial: propext, Classical.choice, Quot.sound
Mabo.Props.C20_example: propext, Classical.choice, Quot.sound
Mabo.Props.C20_fails_for_arrays: propext, Classical.choice, Quot.sound
Mabo.Props.C20_fails_for_unit_elements: propext, Classical.choice, Quot.sound
Mabo.Props.C20_hang_is_divergence: none
Mabo.Props.C20_loop_bound_irrelevant: propext, Quot.sound
Mabo.Props.C21_any_type: propext, Classical.choice, Quot.sound
Mabo.Props.C21_append: propext, Classical.choice, Quot.sound
Mabo.Props.C21_consumes_prefix: propext, Classical.choice, Quot.sound
Mabo.Props.C21_no_strict_prefix: propext, Classical.choice, Quot.sound
Mabo.Props.C21_truncated_encoding_rejected: propext, Classical.choice, Quot.sound
Mabo.Props.C22_consumes_declared_length: propext, Classical.choice, Quot.sound
Mabo.Props.C22_window_confines: propext, Classical.choice, Quot.sound
Mabo.Props.C23_any_chunking_partial: propext, Classical.choice, Quot.sound
Mabo.Props.C23_clean_boundaries_partial: propext, Classical.choice, Quot.sound
Mabo.Props.C23_fails_for_split_varint: propext, Classical.choice, Quot.sound
Mabo.Props.C23_roundtrip_partial: propext, Classical.choice, Quot.sound
Mabo.Props.C23_split_witness: propext, Classical.choice, Quot.sound
Mabo.Props.C24_assignment_unique: propext, Quot.sound
Mabo.Props.C24_generated_field_ids: propext, Classical.choice, Quot.sound
Mabo.Props.C24_generated_variant_ids: propext, Classical.choice, Quot.sound
Mabo.Props.C24_panic_only_at_max: propext, Classical.choice, Quot.sound
Mabo.Props.C25_duplicate_ids_rejected: propext, Classical.choice, Quot.sound
Mabo.Props.C25_reported_clash: propext, Quot.sound
Mabo.Props.C25_validate_exact: propext, Classical.choice, Quot.sound
Mabo.Props.C26_member_names_rejected: propext, Classical.choice, Quot.sound
Mabo.Props.C26_reported_name: propext, Quot.sound
Mabo.Props.C26_scope_names_rejected: propext, Classical.choice, Quot.sound
Mabo.Props.C27_generics_rejected: propext, Classical.choice, Quot.sound
Mabo.Props.C27_reported_generic: propext, Quot.sound
Mabo.Props.C28_reported_tuple: propext, Quot.sound
Mabo.Props.C28_tuples_rejected: propext, Classical.choice, Quot.sound
Mabo.Props.C29_fails_for_const: propext
Mabo.Props.C29_fails_for_hidden_tuple: propext
Mabo.Props.C29_fails_for_non_zero: propext
Mabo.Props.C29_generator_exact: propext, Quot.sound
Mabo.Props.C29_validated_compiles_partial: propext, Classical.choice, Quot.sound
Mabo.Props.C30_fails_large: propext, Quot.sound
Mabo.Props.C30_fails_zero: propext, Quot.sound
Mabo.Props.C30_implicit_ids: propext, Quot.sound
Mabo.Props.C30_wire_ids_partial: propext, Quot.sound
Mabo.Props.C30_zero_breaks_round_trip: propext, Classical.choice, Quot.sound
Mabo.Props.C31_simplify: propext, Classical.choice, Quot.sound
Mabo.Props.C31_simplify_panics: propext, Classical.choice, Quot.sound
Mabo.Props.C31_validated_simplifies: propext, Classical.choice, Quot.sound
Mabo.Props.C32_dangling_rejected: propext, Classical.choice, Quot.sound
Mabo.Props.C32_order_irrelevant: propext, Classical.choice, Quot.sound
Mabo.Props.C32_resolve_exact: propext, Classical.choice, Quot.sound
Mabo.Props.C32_sound: propext, Classical.choice, Quot.sound
Mabo.Props.C33_complete_partial: propext, Classical.choice, Quot.sound
Mabo.Props.C33_fails_for_inner_imports: propext
Mabo.Props.C33_fails_for_module_imports: propext, Classical.choice, Quot.sound
Mabo.Props.C33_inner_imports_unchecked: propext
Mabo.Props.C33_paths_never_remote: propext, Classical.choice, Quot.sound
Mabo.Props.C34_at_max: propext, Classical.choice, Quot.sound
Mabo.Props.C34_extend: propext, Quot.sound
Mabo.Props.C34_next_field_id: propext, Quot.sound
Mabo.Props.C34_next_variant_id: propext, Quot.sound
Mabo.Props.C34_unit: none
Mabo.Props.C35_array_max_counterexample: propext, Quot.sound
Mabo.Props.C35_array_min_counterexample: propext, Quot.sound
Mabo.Props.C35_element_partial: propext, Classical.choice, Quot.sound
Mabo.Props.C35_field_partial: propext, Classical.choice, Quot.sound
Mabo.Props.C35_tuple_counterexample: propext, Quot.sound
Mabo.Props.C36_exact: propext, Classical.choice, Quot.sound
Mabo.Props.C36_example: propext, Classical.choice, Quot.sound
Mabo.Props.C36_formatting_preserves: propext, Classical.choice, Quot.sound
Mabo.Props.C36_keyword_path_never_read: propext, Classical.choice, Quot.sound
Mabo.Props.C36_keyword_paths: propext, Classical.choice, Quot.sound
Mabo.Props.C36_print_injective: propext, Classical.choice, Quot.sound
Mabo.Props.C36_print_parse: propext, Classical.choice, Quot.sound
Mabo.Props.C37_booleans: propext, Classical.choice, Quot.sound
Mabo.Props.C37_bytes: propext, Classical.choice, Quot.sound
Mabo.Props.C37_example: propext, Classical.choice, Quot.sound
Mabo.Props.C37_formatting_preserves: propext, Classical.choice, Quot.sound
Mabo.Props.C37_integers: propext, Classical.choice, Quot.sound
Mabo.Props.C37_integral_floats: propext, Classical.choice, Quot.sound
Mabo.Props.C37_nul_is_an_error: propext, Classical.choice, Quot.sound
Mabo.Props.C37_nul_readable: propext, Classical.choice, Quot.sound
Mabo.Props.C37_print_parse: propext, Classical.choice, Quot.sound
Mabo.Props.C37_range: propext, Classical.choice, Quot.sound
Mabo.Props.C37_strings: propext, Classical.choice, Quot.sound
Mabo.Props.C38_any_list: propext, Classical.choice, Quot.sound
Mabo.Props.C38_iter: propext, Classical.choice, Quot.sound
Mabo.Props.C38_iterator_len: propext, Classical.choice, Quot.sound
Mabo.Props.C38_iterator_len_at_end: none
Mabo.Props.C38_len: propext, Classical.choice, Quot.sound
Mabo.Props.C38_never_empty: propext, Quot.sound
Mabo.Props.C38_types: propext, Classical.choice, Quot.sound
Mabo.Props.C39_in_session: propext, Classical.choice, Quot.sound
Mabo.Props.C39_no_panic: propext, Classical.choice, Quot.sound
Mabo.Props.C39_no_tokens: propext, Classical.choice, Quot.sound
Mabo.Props.C39_semantic_tokens: propext, Classical.choice, Quot.sound
Mabo.Props.C40_accepts_exactly: propext, Classical.choice, Quot.sound
Mabo.Props.C40_example: propext, Classical.choice, Quot.sound
Mabo.Props.C40_prints_back: propext, Classical.choice, Quot.sound
Mabo.Props.C40_round_trip: propext, Classical.choice, Quot.sound
Mabo.Props.C41_exact: propext, Classical.choice, Quot.sound
Mabo.Props.C41_example: propext, Classical.choice, Quot.sound
Mabo.Props.C41_fails_for_floats: propext, Classical.choice, Quot.sound
Mabo.Props.C41_fails_for_nul: propext, Classical.choice, Quot.sound
Mabo.Props.C41_fmt_preserves_partial: propext, Classical.choice, Quot.sound
Mabo.Props.C41_print_parse: propext, Classical.choice, Quot.sound
Mabo.Props.C41_rejected_untouched: propext, Classical.choice, Quot.sound
Mabo.Props.C41_without_literals_partial: propext, Classical.choice, Quot.sound
Mabo.Props.C42_canonical: propext, Classical.choice, Quot.sound
Mabo.Props.C42_fails_for_negative_zero: propext, Classical.choice, Quot.sound
Mabo.Props.C42_forms_example: propext, Classical.choice, Quot.sound
Mabo.Props.C42_idempotent_all_partial: propext, Classical.choice, Quot.sound
Mabo.Props.C42_idempotent_partial: propext, Classical.choice, Quot.sound
Mabo.Props.C43_attributes_lost: propext, Classical.choice, Quot.sound
Mabo.Props.C43_fails: propext, Classical.choice, Quot.sound
Mabo.Props.C43_import_comment_lost: propext, Classical.choice, Quot.sound
Mabo.Props.C43_kept_partial: propext, Classical.choice, Quot.sound
Mabo.Props.C44_accepted_is_well_formed: propext, Classical.choice, Quot.sound
Mabo.Props.C44_well_formed_is_writable: propext, Classical.choice, Quot.sound
Mabo.Props.C45_print_injective: propext, Classical.choice, Quot.sound
Mabo.Props.C46_client: propext, Classical.choice, Quot.sound
Mabo.Props.C46_deleted_while_open: propext, Quot.sound
Mabo.Props.C46_example: propext, Classical.choice, Quot.sound
Mabo.Props.C46_fails_for_several_changes: propext, Classical.choice, Quot.sound
Mabo.Props.C46_fails_for_two_full_changes: propext
Mabo.Props.C46_fails_with_a_panic: propext, Classical.choice, Quot.sound
Mabo.Props.C46_in_sync_partial: propext, Quot.sound
Mabo.Props.C46_others_untouched: propext, Quot.sound
Mabo.Props.C47_definitions_partial: propext, Classical.choice, Quot.sound
Mabo.Props.C47_fails_for_aliases: propext, Classical.choice, Quot.sound
Mabo.Props.C47_fails_for_inner_imports: propext, Classical.choice, Quot.sound
Mabo.Props.C47_fails_for_inner_uses: propext, Classical.choice, Quot.sound
Mabo.Props.C47_fails_for_parameters_with_arguments: propext, Classical.choice, Quot.sound
Mabo.Props.C47_fails_inside_non_zero: propext, Classical.choice, Quot.sound
Mabo.Props.C47_nothing_else: propext, Classical.choice, Quot.sound
Mabo.Props.C47_references_partial: propext, Classical.choice, Quot.sound
Mabo.Props.C47_roundtrip_partial: propext, Classical.choice, Quot.sound
Mabo.Props.C47_usable_ids: propext, Classical.choice, Quot.sound
Mabo.Props.C48_fails_for_equal_names: propext, Classical.choice, Quot.sound
Mabo.Props.C48_fails_for_late_errors: propext, Classical.choice, Quot.sound
Mabo.Props.C48_nothing_on_bad_input: propext, Classical.choice, Quot.sound
Mabo.Props.C48_order_irrelevant: propext, Classical.choice, Quot.sound
Mabo.Props.C48_succeeds_iff: propext, Classical.choice, Quot.sound
Mabo.Props.C48_written_partial: propext, Classical.choice, Quot.sound
Mabo.Props.C49_document_symbols: propext, Classical.choice, Quot.sound
Mabo.Props.C49_example: propext, Classical.choice, Quot.sound
Mabo.Props.C49_in_session: propext, Classical.choice, Quot.sound
Mabo.Props.C49_no_panic: propext, Classical.choice, Quot.sound
Mabo.Props.C49_no_symbols: propext, Classical.choice, Quot.sound
Mabo.Props.C50_example: propext, Classical.choice, Quot.sound
Mabo.Props.C50_hover: propext, Classical.choice, Quot.sound
Mabo.Props.C50_in_session: propext, Classical.choice, Quot.sound
Mabo.Props.C50_no_hover: propext, Classical.choice, Quot.sound
Mabo.Props.C50_no_panic: propext, Classical.choice, Quot.sound
Mabo.Props.C51_accepts: propext, Classical.choice, Quot.sound
Mabo.Props.C51_diagnostic: propext, Classical.choice, Quot.sound
Mabo.Props.C51_example: propext, Classical.choice, Quot.sound
Mabo.Props.C51_in_session: propext, Classical.choice, Quot.sound
Mabo.Props.C51_kept: propext, Classical.choice, Quot.sound
Mabo.Props.C51_no_panic: propext, Classical.choice, Quot.sound
Mabo.Props.C51_type_span: propext, Classical.choice, Quot.sound
Mabo.Props.C51_unparsed: propext, Classical.choice, Quot.sound
Mabo.Props.C52_definition_text: propext, Classical.choice, Quot.sound
Mabo.Props.C52_field_list: propext, Classical.choice, Quot.sound
Mabo.Props.C52_next_id: propext, Classical.choice, Quot.sound
Mabo.Props.C52_variant_list: propext, Classical.choice, Quot.sound
Mabo.Props.C53_distinct: propext, Classical.choice, Quot.sound
Mabo.Props.C53_equal_stems_overwrite: propext, Classical.choice, Quot.sound
Mabo.Props.C53_example: propext, Classical.choice, Quot.sound
Mabo.Props.C53_fails_unvalidated: propext, Classical.choice, Quot.sound
Mabo.Props.C53_file_documented: propext, Classical.choice, Quot.sound
Mabo.Props.C53_heading: propext, Classical.choice, Quot.sound
Mabo.Props.C53_no_dead_links: propext, Classical.choice, Quot.sound
Mabo.Props.C53_pages: propext, Classical.choice, Quot.sound
Mabo.Props.C53_project: propext, Classical.choice, Quot.sound
Mabo.Props.C53_project_stops: propext, Classical.choice, Quot.sound
Mabo.Props.C53_reachable: propext, Classical.choice, Quot.sound
Mabo.Props.C53_stems: propext, Classical.choice, Quot.sound
Mabo.Props.C53_stylesheet_missing: propext, Classical.choice, Quot.sound
Mabo.Props.C53_tables: propext, Classical.choice, Quot.sound
Mabo.Props.C54_constant_text_partial: propext, Classical.choice, Quot.sound
Mabo.Props.C54_fails_for_floats: propext, Classical.choice, Quot.sound
Mabo.Props.C54_fails_for_nul: propext, Classical.choice, Quot.sound
Mabo.Props.C55_answers: propext, Classical.choice, Quot.sound
Mabo.Props.C55_at_once: propext, Classical.choice, Quot.sound
Mabo.Props.C55_questions: propext, Classical.choice, Quot.sound
Mabo.Props.C55_shutdown: propext, Classical.choice, Quot.sound
Mabo.Props.C55_stops_when_asked: propext, Classical.choice, Quot.sound
Mabo.Props.C56_example: propext, Classical.choice, Quot.sound
Mabo.Props.C56_exit_partial: propext, Classical.choice, Quot.sound
Mabo.Props.C56_fails_first_document: propext, Classical.choice, Quot.sound
Mabo.Props.C56_fails_late_settings: propext
Mabo.Props.C56_fails_lost_message: propext, Classical.choice, Quot.sound
Mabo.Props.C56_fails_request: propext, Classical.choice, Quot.sound
Mabo.Props.C56_hover_partial: propext, Classical.choice, Quot.sound
Mabo.Props.C56_session_partial: propext, Classical.choice, Quot.sound
Mabo.Props.C56_settings_from_answer: propext
Mabo.Props.C56_symbols_partial: propext, Classical.choice, Quot.sound
Mabo.Props.C56_tokens_partial: propext, Classical.choice, Quot.sound
Mabo.Props.C57_announced_encoding: propext, Classical.choice, Quot.sound
Mabo.Props.C57_in_sync_partial: propext, Classical.choice, Quot.sound
Mabo.Props.C57_sessions: propext, Classical.choice, Quot.sound
Mabo.Props.C57_unknown_encoding: propext, Classical.choice, Quot.sound
Mabo.Props.C58_behind_the_line: propext, Classical.choice, Quot.sound
Mabo.Props.C58_denoted_place_partial: propext, Classical.choice, Quot.sound
Mabo.Props.C58_fails: propext, Classical.choice, Quot.sound
Mabo.Props.C58_fails_with_a_panic: propext, Classical.choice, Quot.sound
Mabo.Props.C58_no_such_line: propext, Classical.choice, Quot.sound
Mabo.Props.C59_contract: propext, Classical.choice, Quot.sound
Mabo.Props.C59_example: propext, Classical.choice, Quot.sound
Mabo.Props.C59_example: propext, Classical.choice, Quot.sound
Mabo.Props.C59_explained: propext, Classical.choice, Quot.sound
Mabo.Props.C59_same: propext, Classical.choice, Quot.sound
Mabo.Props.C59_shown: propext, Classical.choice, Quot.sound
Mabo.Props.C60_about_partial: propext, Classical.choice, Quot.sound
Mabo.Props.C60_examples: propext, Classical.choice, Quot.sound
Mabo.Props.C60_id: propext, Classical.choice, Quot.sound
Mabo.Props.C60_refuted: propext, Classical.choice, Quot.sound
Mabo.Props.C60_struct: propext, Classical.choice, Quot.sound
Mabo.Props.C61_empty: propext, Classical.choice, Quot.sound
Mabo.Props.C61_example: propext, Classical.choice, Quot.sound
Mabo.Props.C61_range_partial: propext, Classical.choice, Quot.sound
Mabo.Props.C61_refuted: propext, Classical.choice, Quot.sound
Mabo.Props.C62_bincode: propext, Classical.choice, Quot.sound
Mabo.Props.C62_bincode_signed: propext, Classical.choice, Quot.sound
Mabo.Props.C62_postcard: propext, Classical.choice, Quot.sound
Mabo.Props.C62_postcard_bytes: propext, Classical.choice, Quot.sound
Mabo.Props.C62_postcard_signed: propext, Classical.choice, Quot.sound
Mabo.Props.C62_postcard_small: propext, Quot.sound
Mabo.Props.C62_vu128: propext, Classical.choice, Quot.sound
Mabo.Props.C62_vu128_bytes_partial: propext, Classical.choice, Quot.sound
Mabo.Props.C62_vu128_bytes_refuted: propext, Quot.sound
Mabo.Props.C62_vu128_floats: propext, Classical.choice, Quot.sound
Mabo.Props.C62_vu128_signed: propext, Classical.choice, Quot.sound
Mabo.Props.C63_bincode: propext, Classical.choice, Quot.sound
Mabo.Props.C63_postcard: propext, Classical.choice, Quot.sound
Mabo.Props.C63_vu128_partial: propext, Classical.choice, Quot.sound
Mabo.Props.C63_vu128_refuted: propext, Quot.sound
Mabo.Props.C64_fails_for_empty_arrays: propext, Classical.choice, Quot.sound
Mabo.Props.C64_fails_for_large_arrays: propext, Classical.choice, Quot.sound
Mabo.Props.C64_fails_for_non_zero_floats: propext, Classical.choice, Quot.sound
Mabo.Props.C64_finishes_exact: propext, Classical.choice, Quot.sound
Mabo.Props.C64_validated_finishes_partial: propext, Classical.choice, Quot.sound
Mabo.Props.C65_disk_exact: propext, Classical.choice, Quot.sound
Mabo.Props.C65_fails_for_late_errors: propext, Classical.choice, Quot.sound
Mabo.Props.C65_fails_for_several_files: propext, Classical.choice, Quot.sound
Mabo.Props.C65_files_partial: propext, Classical.choice, Quot.sound
Mabo.Props.C65_last_file_wins: propext, Classical.choice, Quot.sound
Mabo.Props.C65_nothing_on_bad_input: propext, Classical.choice, Quot.sound
Mabo.Props.C65_succeeds_iff: propext, Classical.choice, Quot.sound
Mabo.Props.C66_decode: propext, Classical.choice, Quot.sound
Mabo.Props.C66_decode_total: propext, Classical.choice, Quot.sound
Mabo.Props.C66_encode: propext, Classical.choice, Quot.sound
Mabo.Props.C66_roundtrip: propext, Classical.choice, Quot.sound
Mabo.Props.C67_compiles_partial: propext, Classical.choice, Quot.sound
Mabo.Props.C67_exact: propext, Classical.choice, Quot.sound
Mabo.Props.C67_fails_for_boxed_bytes: propext, Classical.choice, Quot.sound
Mabo.Props.C67_fails_for_field_names: propext, Classical.choice, Quot.sound
Mabo.Props.C67_fails_for_keys: propext, Classical.choice, Quot.sound
Mabo.Props.C67_fails_for_options_in_tuples: propext, Classical.choice, Quot.sound
Mabo.Props.C67_fails_for_prelude_names: propext, Classical.choice, Quot.sound
Mabo.Props.C67_fails_for_recursion: propext, Classical.choice, Quot.sound
Mabo.Props.C67_fails_for_tuples_in_tuples: propext, Classical.choice, Quot.sound
Mabo.Props.C67_fails_for_type_arguments: propext, Classical.choice, Quot.sound
Mabo.Props.C68_example: propext, Classical.choice, Quot.sound
Mabo.Props.C68_exit: propext, Classical.choice, Quot.sound
Mabo.Props.C68_fails_for_twice: propext, Classical.choice, Quot.sound
Mabo.Props.C68_failure: propext, Classical.choice, Quot.sound
Mabo.Props.C68_keeps_schemas: propext, Classical.choice, Quot.sound
Mabo.Props.C68_order_irrelevant: propext, Classical.choice, Quot.sound
Mabo.Props.C68_second_run: propext, Classical.choice, Quot.sound
Mabo.Props.C68_success: propext, Classical.choice, Quot.sound
Mabo.Props.C68_success_repeated: propext, Classical.choice, Quot.sound
Mabo.Props.C69_check_partial: propext, Classical.choice, Quot.sound
Mabo.Props.C69_fails_for_syntax_errors: propext, Classical.choice, Quot.sound
Mabo.Props.C69_fails_silently: propext, Classical.choice, Quot.sound
Mabo.Props.C70_build_inputs: propext, Classical.choice, Quot.sound
Mabo.Props.C70_example: propext, Classical.choice, Quot.sound
Mabo.Props.C70_fails_for_directories: propext, Classical.choice, Quot.sound
Mabo.Props.C70_given_files: propext, Classical.choice, Quot.sound
Mabo.Props.C70_patterns_as_set: propext, Classical.choice, Quot.sound
Mabo.Props.C70_selected: propext, Classical.choice, Quot.sound
Mabo.Props.C71_failed_is_killed: propext, Classical.choice, Quot.sound
Mabo.Props.C71_fails_while_writing: propext, Classical.choice, Quot.sound
Mabo.Props.C71_interrupted_partial: propext, Classical.choice, Quot.sound
Mabo.Props.C72_error_true_partial: propext, Classical.choice, Quot.sound
Mabo.Props.C72_fails_for_module_imports: propext
Mabo.Props.C72_fails_for_nested_paths: propext
Mabo.Props.C72_no_false_alarm: propext, Classical.choice, Quot.sound
Mabo.Props.C72_rejection_explained: propext, Classical.choice, Quot.sound
Mabo.Props.C72_reported_iff: propext, Quot.sound
Mabo.Props.C72_two_words: propext
Mabo.Props.C73_fails_for_constants: propext, Classical.choice, Quot.sound
Mabo.Props.C73_fails_for_generics: propext, Classical.choice, Quot.sound
Mabo.Props.C73_fails_for_map_keys: propext, Classical.choice, Quot.sound
Mabo.Props.C73_fails_for_names: propext, Classical.choice, Quot.sound
Mabo.Props.C73_fails_for_own_types: propext, Classical.choice, Quot.sound
Mabo.Props.C73_fails_for_plain_fields: propext, Classical.choice, Quot.sound
Mabo.Props.C73_fails_for_struct_fields: propext, Classical.choice, Quot.sound
Mabo.Props.C73_fails_for_tuples: propext, Classical.choice, Quot.sound
Mabo.Props.C73_fails_for_wide_integers: propext, Classical.choice, Quot.sound
Mabo.Props.C73_fails_without_runtime_types: propext, Classical.choice, Quot.sound
Mabo.Props.C73_references_partial: propext, Classical.choice, Quot.sound
Mabo.Props.C73_tree_exists: propext, Classical.choice, Quot.sound
Mabo.Props.C73_valid_iff_partial: propext, Classical.choice, Quot.sound
Mabo.Props.C73_valid_needs_partial: propext, Classical.choice, Quot.sound
Mabo.Props.C73_written: propext, Classical.choice, Quot.sound
Mabo.Props.C74_decode_takes_everything: propext, Classical.choice, Quot.sound
Mabo.Props.C74_nil_options_fail: propext, Classical.choice, Quot.sound
Mabo.Props.C74_roundtrip_partial: propext, Classical.choice, Quot.sound
Mabo.Props.C74_set_options_lost: propext, Classical.choice, Quot.sound
Mabo.Props.C74_unknown_ids: propext, Classical.choice, Quot.sound
Mabo.Props.C74_valid_nil_options_fail: propext, Classical.choice, Quot.sound
Mabo.Props.C74_valid_roundtrip_partial: propext, Classical.choice, Quot.sound
Mabo.Props.C74_variants_encode_nothing: propext, Classical.choice, Quot.sound
Mabo.Props.C74_wire_types: propext, Classical.choice, Quot.sound
Mabo.Props.C74_wire_types_rust: propext, Quot.sound
Mabo.Props.C75_collections_partial: propext, Classical.choice, Quot.sound
Mabo.Props.C75_fails: propext, Classical.choice, Quot.sound
Mabo.Props.C75_fields: propext, Classical.choice, Quot.sound
Mabo.Props.C76_definition_shown: propext, Classical.choice, Quot.sound
Mabo.Props.C76_documents: propext, Classical.choice, Quot.sound
Mabo.Props.C76_no_markup: propext, Classical.choice, Quot.sound
Mabo.Props.C76_paths: propext, Classical.choice, Quot.sound
Mabo.Props.C77_fails_for_imported_kinds: propext, Classical.choice, Quot.sound
Mabo.Props.C77_fails_for_missing_modules: propext, Classical.choice, Quot.sound
Mabo.Props.C77_labels_partial: propext, Classical.choice, Quot.sound
Mabo.Props.C77_same_errors: propext, Quot.sound
Mabo.Props.C77_used_in_text: propext, Classical.choice, Quot.sound
Mabo.Props.C78_inside: propext, Classical.choice, Quot.sound
Mabo.Props.C78_place: propext, Classical.choice, Quot.sound
Mabo.Props.C78_reported: propext, Classical.choice, Quot.sound
Mabo.Props.C78_unlabelled: propext, Classical.choice, Quot.sound
Mabo.Props.C79_all_pages: propext, Classical.choice, Quot.sound
Mabo.Props.C79_command: propext, Classical.choice, Quot.sound
Mabo.Props.C79_deletes_nothing: propext, Classical.choice, Quot.sound
Mabo.Props.C79_directories: propext, Classical.choice, Quot.sound
Mabo.Props.C79_directory_selected: propext, Classical.choice, Quot.sound
Mabo.Props.C79_double_extension: propext, Classical.choice, Quot.sound
Mabo.Props.C79_example: propext, Classical.choice, Quot.sound
Mabo.Props.C79_example_interrupted: propext, Classical.choice, Quot.sound
Mabo.Props.C79_example_kept: propext, Classical.choice, Quot.sound
Mabo.Props.C79_exit: propext, Classical.choice, Quot.sound
Mabo.Props.C79_outside: propext, Classical.choice, Quot.sound
Mabo.Props.C79_places: propext, Classical.choice, Quot.sound
Mabo.Props.C79_run_again: propext, Classical.choice, Quot.sound
Mabo.Props.C79_sources_kept: propext, Classical.choice, Quot.sound
Mabo.Props.C79_success: propext, Classical.choice, Quot.sound
Mabo.Props.C79_touches_nothing_else: propext, Classical.choice, Quot.sound
Mabo.Props.C80_fails_for_processes: propext, Classical.choice, Quot.sound
Mabo.Props.C80_fails_for_stderr: propext, Classical.choice, Quot.sound
Mabo.Props.C80_filter: propext, Classical.choice, Quot.sound
Mabo.Props.C80_forged: propext, Classical.choice, Quot.sound
Mabo.Props.C80_lines_partial: propext, Classical.choice, Quot.sound
Mabo.Props.C80_log_partial: propext, Classical.choice, Quot.sound
Mabo.Props.C80_never_stuck: propext, Classical.choice, Quot.sound
Mabo.Props.C80_possible: propext, Classical.choice, Quot.sound
Mabo.Props.C80_readable: propext, Classical.choice, Quot.sound
Mabo.Props.C81_accepted: propext, Classical.choice, Quot.sound
Mabo.Props.C81_example: propext, Classical.choice, Quot.sound
Mabo.Props.C81_example_syntax: propext, Classical.choice, Quot.sound
Mabo.Props.C81_example_unresolved: propext, Classical.choice, Quot.sound
Mabo.Props.C81_fails_for_go: propext, Classical.choice, Quot.sound
Mabo.Props.C81_fails_for_places: propext, Classical.choice, Quot.sound
Mabo.Props.C81_fails_for_unresolved: propext, Classical.choice, Quot.sound
Mabo.Props.C81_same_as_editor: propext, Classical.choice, Quot.sound
Mabo.Props.C81_told_partial: propext, Classical.choice, Quot.sound
Mabo.Props.C82_definitions_partial: propext, Classical.choice, Quot.sound
Mabo.Props.C82_derives: propext, Classical.choice, Quot.sound
Mabo.Props.C82_fails_for_aliases: propext, Classical.choice, Quot.sound
Mabo.Props.C82_fails_for_direct_recursion: propext, Classical.choice, Quot.sound
Mabo.Props.C82_fails_for_growing_arguments: propext, Classical.choice, Quot.sound
Mabo.Props.C82_fails_for_keys: propext, Classical.choice, Quot.sound
Mabo.Props.C82_fails_for_unused: propext, Classical.choice, Quot.sound
Mabo.Props.C82_instances_partial: propext, Quot.sound
Mabo.Props.C82_instances_plain_partial: propext, Quot.sound
Mabo.Props.C82_known: propext, Classical.choice, Quot.sound
Mabo.Props.C82_matters_mentioned: propext, Quot.sound
Mabo.Props.C82_mentioned: propext, Classical.choice, Quot.sound
Mabo.Props.C82_recursive_partial: propext, Classical.choice, Quot.sound
Mabo.Props.C82_size_exact: propext, Quot.sound
Mabo.Props.C82_size_once: propext, Quot.sound
Mabo.Props.C82_size_partial: propext, Quot.sound
Mabo.Props.C82_trees: propext, Classical.choice, Quot.sound
Mabo.Props.C83_crate_partial: propext, Classical.choice, Quot.sound
Mabo.Props.C83_example: propext, Classical.choice, Quot.sound
Mabo.Props.C83_fails_for_inner_imports: propext, Classical.choice, Quot.sound
Mabo.Props.C83_fails_for_trait_names: propext, Classical.choice, Quot.sound
Mabo.Props.C83_imports_partial: propext, Classical.choice, Quot.sound
Mabo.Props.C83_modules_partial: propext, Classical.choice, Quot.sound
Mabo.Props.C83_types_exact: propext, Classical.choice, Quot.sound
Mabo.Props.C83_values: propext, Classical.choice, Quot.sound
Mabo.Props.C84_complete: propext, Classical.choice, Quot.sound
Mabo.Props.C84_discover: propext, Classical.choice, Quot.sound
Mabo.Props.C84_example: propext, Classical.choice, Quot.sound
Mabo.Props.C84_fails_for_broken_neighbours: propext, Classical.choice, Quot.sound
Mabo.Props.C84_fails_for_clients: propext, Classical.choice, Quot.sound
Mabo.Props.C84_fails_for_escapes: propext, Classical.choice, Quot.sound
Mabo.Props.C84_fails_for_links: propext, Classical.choice, Quot.sound
Mabo.Props.C84_folder_partial: propext, Classical.choice, Quot.sound
Mabo.Props.C84_harmless_partial: propext, Classical.choice, Quot.sound
Mabo.Props.C84_loaded: propext, Classical.choice, Quot.sound
Mabo.Props.C84_same_session_partial: propext, Classical.choice, Quot.sound
Mabo.Props.clear_of_plain: propext, Quot.sound
Mabo.Props.goPlainValues_fit: propext, Classical.choice, Quot.sound
Mabo.Props.goSample_good: propext, Classical.choice, Quot.sound
Mabo.Props.goSample_plain: propext, Classical.choice, Quot.sound
Mabo.Props.goSample_valid: propext, Classical.choice, Quot.sound
Mabo.Props.placed_unique: propext, Quot.sound
Mabo.Props.resolves_exists: none
Mabo.Props.wireDefs_ok: propext, Quot.sound

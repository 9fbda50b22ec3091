# Axioms per theorem

Output of `#print axioms` for every theorem of MANIFEST.json (tools/axioms.py).  Names are in the namespace `Ethabi.Props`.

## propext, Classical.choice, Quot.sound

C01_counterexample_zero_length_dynamic_array, C01_counterexample_zero_width, C01_round_trip, C01_round_trip_solidity, C02_encode_conforms, C02_encode_conforms_solidity, C04_injective, C04_prefix_free, C05_decoded_typed, C06_counterexample_fixed_array, C06_counterexample_fixed_array_general, C06_counterexample_wide_bytes, C06_decode_no_panic_partial, C06_panics_exactly, C07_trailing_bytes, C08_truncation, C09_reencode, C100_any_layout, C100_counterexample, C100_reload_partial, C101_injective, C101_plain, C101_reads, C101_text, C102_derive, C102_execute, C102_layout, C102_output, C102_values, C103_areas, C103_conforms, C103_constructor, C103_counterexample, C103_debug, C103_exact, C103_function, C103_limit, C103_same_code, C103_same_or_panic, C104_counterexample_filter, C104_counterexample_log, C104_decode, C104_filter, C104_log_accepts, C104_log_otherwise_same, C104_log_wraps, C104_round_trip, C104_same_code, C105_derive, C105_err, C105_execute, C105_not_utf8, C105_ok, C105_output, C105_panic, C105_text, C105_values, C106_counterexample_unicode, C106_enough, C106_enough_bytes, C106_needed, C106_no_bound, C106_three, C107_linear, C107_quadratic, C107_reached, C107_same, C107_work, C108_any_order, C108_commands, C108_joined, C108_neighbours, C108_refused, C108_same, C109_at_least, C109_counterexample_zero_width, C109_polynomial, C109_reached, C109_same, C109_static, C109_work, C10_array_length_bound, C10_counterexample_zero_width, C110_at_least, C110_flat, C110_reached, C110_work, C111_reached, C111_same, C111_work, C112_at_least, C112_large, C112_outside_ascii, C112_size, C112_work, C113_any_value, C113_calls, C113_decode, C113_filters, C113_logs, C113_signature, C113_tokenize, C113_tool, C114_address, C114_bool, C114_every_byte, C114_exactly, C114_fixedBytes, C115_decode, C115_decode_exactly, C115_no_bound, C115_same, C115_tokenize, C115_tokenize_exactly, C116_counterexample_shorter, C116_fixed_points, C116_full, C116_static, C116_values, C117_display, C117_encode, C117_encode_exactly, C117_no_bound, C117_type_check, C117_type_check_exactly, C117_write, C117_write_for_abi, C118_decode_function, C118_decode_log, C118_decode_params, C118_encode_function, C118_encode_params, C118_same_outcome, C118_texts_tell, C118_tokenizers, C119_decoded, C119_logged, C119_tokenized, C11_large_length_rejected, C11_large_offset_rejected, C120_accepted, C120_counterexample_dropped, C120_same_code, C120_same_or_refused, C120_too_large, C120_written, C121_accepted, C121_counterexample_bool, C121_encode, C121_other, C121_read_back, C121_refused, C121_same_layout, C121_without_bools, C122_counterexample_decode, C122_counterexample_large, C122_counterexample_type, C122_decode_wraps, C122_decoded, C122_encode_function_large, C122_encode_large, C122_encoded, C122_printed, C122_refused, C122_same_code, C122_same_or, C123_constructor, C123_counterexample_decode, C123_counterexample_encode, C123_counterexample_filter, C123_counterexample_log, C123_decode_output, C123_encode_input, C123_encode_panics, C123_filter, C123_parse_emitted, C123_parse_log, C123_parse_log_panics, C123_returned, C123_same_code, C123_wildcard, C12_bool_partial, C12_counterexample, C13_empty_data_rejected, C13_no_types, C13_zero_length_accepted, C14_bytes_payload, C14_string_payload, C15_counterexample_empty, C15_short_fixed_bytes, C16_static_size, C17_accepts_exactly, C17_panics_exactly, C17_refuses_exactly, C17_short_is_value, C17_types_check_partial, C17_types_check_tuple_free, C17_values_accepted, C18_function_round_trip, C18_function_round_trip_solidity, C19_decode_output, C19_selector, C20_constructor_outcomes, C20_counterexample_long_tuple, C20_counterexample_short_tuple, C20_function_outcomes, C20_ill_typed_rejected_partial, C20_ill_typed_rejected_tuple_free, C20_wrong_count_rejected, C21_constructor, C22_collision, C22_signature_injective, C22_write_injective, C23_signature_injective, C23_suffix, C24_counterexample_depth, C24_counterexample_empty, C24_counterexample_error, C24_counterexample_leak, C24_exactly, C24_tuple_free, C24_type_string_round_trip_partial, C25_abi_type_string, C25_text, C26_counterexample_bracket, C26_counterexample_unicode, C26_no_panic_elementary, C26_no_panic_partial, C26_terminates, C26_type_texts, C27_any_text, C27_array_suffix, C27_counterexample_accepted, C27_counterexample_unicode, C28_event_param, C28_member_names_dropped, C28_param, C28_tuple_param, C29_built, C29_contract_round_trip, C30_constructor_flags, C30_loads, C30_lookup, C31_iterators, C32_event_name, C32_function_name, C32_loaded, C33_parse_emitted, C34_topic_count, C34_wrong_count_is_error, C34_wrong_signature, C35_declaration_order, C35_no_panic, C36_counterexample_unnamed, C36_last_of_name, C36_positional_partial, C36_renaming_partial, C37_slots, C38_counterexample_tuple, C38_outcomes, C38_outcomes_release, C38_rejects_exactly_partial, C38_rejects_exactly_tuple_free, C39_matches, C39_matches_short, C40_counterexample_contents, C40_counterexample_keccak_array, C40_counterexample_keccak_string, C40_counterexample_no_match, C40_counterexample_one_word, C40_exactly, C40_static_aggregates_partial, C40_what_is_hashed, C41_index, C42_faithful, C42_injective, C42_shape, C43_empty_element, C43_round_trip, C43_string, C44_decimal, C44_false, C44_hex, C44_non_digit, C44_number_partial, C44_too_big, C45_decimal, C45_false, C45_hex, C45_number_partial, C45_out_of_range, C46_lenient_extends_strict, C47_args, C47_has_type, C47_shape, C47_type_checks, C48_false, C48_no_panic_elementary, C48_no_panic_partial, C48_panics_exactly, C49_empty, C49_exactly, C49_false, C49_malformed_accepted, C49_split_fixed_partial, C49_split_partial, C50_exactly, C50_false, C50_members_partial, C50_split_partial, C51_event_by_name, C51_event_by_signature, C51_event_no_collision, C51_function_by_name, C51_function_by_signature, C51_function_text_injective, C51_no_unreachable, C52_counterexample_short_tuple, C52_round_trip_partial, C52_round_trip_tuple_free, C53_counterexample, C53_counterexample_debug, C53_debug_partial, C53_words_true_partial, C54_counterexample_indexed, C54_counterexample_unnamed, C54_decode_output, C54_events_exactly, C54_matching_fields, C54_no_outputs, C54_parse_emitted, C54_parse_log_exactly, C54_parse_log_partial, C55_constructor, C55_conversion, C55_counterexample_huge, C55_debug_exactly, C55_encode_input_partial, C55_encode_input_release, C56_contract, C56_direct, C56_operation, C56_parameters, C57_mixed_fail, C57_tuple_round_trip, C58_contract, C58_failures_differ, C58_operation, C58_parameters, C59_counterexample_surplus, C59_odd_params, C59_too_few_partial, C60_encode_function, C61_decode_function, C62_decode_log, C63_filter_debug_exactly, C63_filter_release, C63_wildcard, C64_counterexample, C64_counterexample_heck, C64_counterexample_keccak, C64_signature_partial, C65_components, C65_event_components, C65_inline_members, C65_member_components, C65_missing, C66_decode, C66_decode_any, C66_filter, C66_function_encode_input, C66_parse_log, C67_debug_overflow, C67_size, C68_counterexample, C68_large, C68_lenient_misread, C68_lenient_partial, C68_strict, C69_generates, C69_tuples, C70_constructor, C70_counterexample_constructor, C70_counterexample_f, C70_counterexample_keyword, C70_counterexample_numbered, C70_decodes, C70_encodes, C70_function, C71_counterexample_event, C71_event, C71_parses, C72_bound, C72_type, C73_contract, C73_distinct, C73_overloads, C74_decodes_exactly, C74_errors_exactly, C74_unique, C75_prefix, C76_accepts_exactly, C76_counterexample_unbalanced, C76_errors, C76_panics_exactly, C76_unique, C76_without_tuples, C77_contract, C77_event_param, C77_operation, C77_panics_only, C77_param, C77_tuple_param, C78_depth, C78_members, C79_accepts_exactly, C79_errors, C79_panics_exactly, C80_accepted_matches, C80_counterexample_bool, C80_counterexample_string, C80_integers, C80_values, C80_wildcard, C81_accepts_exactly, C81_panics_exactly, C81_refuses_exactly, C81_unique, C82_any_build, C82_function_release, C82_release_exactly, C82_right_iff, C83_amplification, C83_counterexample_zero_width, C83_decoded_size, C83_polynomial, C84_expands, C84_later_attributes, C84_one_file, C84_reads_only, C84_stops, C84_use_contract, C85_decode_function, C85_decode_log, C85_decode_params, C85_decode_params_panics, C85_encode_function, C85_encode_function_layout, C85_encode_params, C85_encode_params_layout, C86_accepts_exactly, C86_counterexample_depth, C86_inner_tuple, C86_panics_exactly, C86_prefix_ignored, C87_counterexample_length, C87_counterexample_offset, C87_decodes_exactly, C87_otherwise_same, C87_panics_exactly, C87_same_code, C87_wraps, C88_contract, C88_event_param, C88_injective, C88_operation, C88_param, C88_tuple_param, C88_unambiguous, C89_event, C89_function, C90_contract, C90_contract_refused, C90_event_param, C90_operation, C90_param, C90_tuple_param, C91_decode_function, C91_decode_log, C91_encode_function, C91_encode_params, C91_encode_release, C92_accepts_exactly, C92_counterexample_leftover, C92_counterexample_outside, C92_counterexample_unicode, C92_panics_exactly, C92_refuses_exactly, C92_tuple, C92_unique, C93_any_type_texts, C93_loading, C93_logs, C93_name_in_text, C93_one_error, C93_tokenizers, C93_trichotomy, C93_tuple_texts, C93_type_texts, C94_accepted, C94_accepts_exactly, C94_counterexample_dropped, C94_same_code, C94_same_or_refused, C94_too_large, C94_without_tuples, C95_counterexample_unicode, C95_nesting, C95_size, C95_text_not_read_back, C95_three_levels, C96_clash, C96_counterexample_camel_twice, C96_counterexample_identifiers, C96_counterexample_parameters, C96_counterexample_same_struct, C96_generates, C97_counterexample_bytes, C97_counterexample_strings, C97_decode_params, C97_distinct, C97_string, C97_values, C98_counterexample_empty, C98_decode_array, C98_decode_dynamic_fixed_array, C98_decode_dynamic_tuple, C98_decode_static_fixed_array, C98_decode_static_tuple, C98_encode_array, C98_encode_fixed_array, C98_encode_tuple, C99_load, C99_load_err, C99_load_ok, C99_load_panic, C99_parse, C99_unique, C99_written

## propext, Quot.sound

C02_counterexample_zero_length_dynamic_array, C03_word_aligned, C110_same, C113_check, C119_checked, C119_contents, C119_one, C32_unique, C41_map, C55_conversion_onto, C64_names, C66_constructor_encode_input, C66_encode, C67_never_error, C72_generated, C81_ascii_parts, C92_cuts, C96_camel, C96_camel_kept, C96_conversions, C96_identifiers, C96_same_struct, C96_snake, C96_snake_kept, C96_underscores

## propext

C17_counterexample_long_tuple, C17_counterexample_short_tuple, C29_same_lookup, C32_sanitize, C41_is_any, C82_spec_agrees

## (none)

C41_conversions

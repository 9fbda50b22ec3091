{
 "claims": [
  {
   "property": "C01",
   "status": "proved",
   "theorems": [
    "Ethabi.Props.C01_round_trip",
    "Ethabi.Props.C01_round_trip_solidity",
    "Ethabi.Props.C01_counterexample_zero_length_dynamic_array",
    "Ethabi.Props.C01_counterexample_zero_width"
   ],
   "note": "Hypotheses: tokens have the types, bytesN with 1<=N<=32, no T[0] of a dynamic T, encoding < 2^32 bytes, arrays < 2^32 elements (automatic for Solidity types, see _solidity). Counterexamples show the exclusions are needed."
  },
  {
   "property": "C02",
   "status": "proved",
   "theorems": [
    "Ethabi.Props.C02_encode_conforms",
    "Ethabi.Props.C02_encode_conforms_solidity",
    "Ethabi.Props.C02_counterexample_zero_length_dynamic_array"
   ],
   "note": "Equality with an independently written head/tail layout (Spec/Abi.lean). Same exclusions as C01; counterexample for string[0]."
  },
  {
   "property": "C03",
   "status": "proved",
   "theorems": [
    "Ethabi.Props.C03_word_aligned"
   ],
   "note": ""
  },
  {
   "property": "C04",
   "status": "proved",
   "theorems": [
    "Ethabi.Props.C04_injective",
    "Ethabi.Props.C04_prefix_free"
   ],
   "note": ""
  },
  {
   "property": "C05",
   "status": "proved",
   "theorems": [
    "Ethabi.Props.C05_decoded_typed"
   ],
   "note": "usizeOkAll: sizes in the types fit in a 64-bit usize; data shorter than 2^63 (Rust's allocation limit)."
  },
  {
   "property": "C06",
   "status": "partial",
   "theorems": [
    "Ethabi.Props.C06_decode_no_panic_partial",
    "Ethabi.Props.C06_counterexample_fixed_array",
    "Ethabi.Props.C06_counterexample_fixed_array_general",
    "Ethabi.Props.C06_counterexample_wide_bytes",
    "Ethabi.Props.C06_panics_exactly"
   ],
   "note": "False in general: decode panics for a dynamic T[k] whose offset points outside the data (decoder.rs:165), and in debug builds for bytesN with N close to 2^64. Proved for all types without dynamic T[k] and for all data. C06_panics_exactly says for all types (bytesN below 2^62) on which data it panics."
  },
  {
   "property": "C07",
   "status": "proved",
   "theorems": [
    "Ethabi.Props.C07_trailing_bytes"
   ],
   "note": ""
  },
  {
   "property": "C08",
   "status": "proved",
   "theorems": [
    "Ethabi.Props.C08_truncation"
   ],
   "note": "'Fails' includes the panic of C06: truncated data for a dynamic T[k] may panic rather than return Err."
  },
  {
   "property": "C09",
   "status": "proved",
   "theorems": [
    "Ethabi.Props.C09_reencode"
   ],
   "note": ""
  },
  {
   "property": "C10",
   "status": "proved",
   "theorems": [
    "Ethabi.Props.C10_array_length_bound",
    "Ethabi.Props.C10_counterexample_zero_width"
   ],
   "note": "All arrays at any nesting depth. Without the nonzero-width proviso the claim is false (counterexample proved for every n < 2^32)."
  },
  {
   "property": "C11",
   "status": "proved",
   "theorems": [
    "Ethabi.Props.C11_large_offset_rejected",
    "Ethabi.Props.C11_large_length_rejected"
   ],
   "note": "Value at any position of the argument list after successfully decoded arguments."
  },
  {
   "property": "C12",
   "status": "partial",
   "theorems": [
    "Ethabi.Props.C12_bool_partial",
    "Ethabi.Props.C12_counterexample"
   ],
   "note": "False in general: words 2..255 decode to false (decoder.rs:32-38 only checks the first 31 bytes). The exact behaviour is proved for all words."
  },
  {
   "property": "C13",
   "status": "proved",
   "theorems": [
    "Ethabi.Props.C13_empty_data_rejected",
    "Ethabi.Props.C13_no_types",
    "Ethabi.Props.C13_zero_length_accepted"
   ],
   "note": ""
  },
  {
   "property": "C14",
   "status": "proved",
   "theorems": [
    "Ethabi.Props.C14_string_payload",
    "Ethabi.Props.C14_bytes_payload"
   ],
   "note": ""
  },
  {
   "property": "C15",
   "status": "proved",
   "theorems": [
    "Ethabi.Props.C15_short_fixed_bytes",
    "Ethabi.Props.C15_counterexample_empty"
   ],
   "note": "Any position and nesting. Empty FixedBytes excluded (counterexample)."
  },
  {
   "property": "C16",
   "status": "proved",
   "theorems": [
    "Ethabi.Props.C16_static_size"
   ],
   "note": ""
  },
  {
   "property": "C17",
   "status": "partial",
   "theorems": [
    "Ethabi.Props.C17_types_check_partial",
    "Ethabi.Props.C17_types_check_tuple_free",
    "Ethabi.Props.C17_values_accepted",
    "Ethabi.Props.C17_counterexample_short_tuple",
    "Ethabi.Props.C17_counterexample_long_tuple",
    "Ethabi.Props.C17_accepts_exactly",
    "Ethabi.Props.C17_panics_exactly",
    "Ethabi.Props.C17_refuses_exactly",
    "Ethabi.Props.C17_short_is_value"
   ],
   "note": "False in general: tuples with too few members pass, tuples with too many members panic (token.rs:124-133). Proved where tuple arities agree, and in full for tuple-free types. C17_accepts_exactly, C17_panics_exactly and C17_refuses_exactly say for all inputs which of the three happens."
  },
  {
   "property": "C18",
   "status": "proved",
   "theorems": [
    "Ethabi.Props.C18_function_round_trip",
    "Ethabi.Props.C18_function_round_trip_solidity"
   ],
   "note": "Hash function universally quantified; same exclusions as C01, none for Solidity types (_solidity)."
  },
  {
   "property": "C19",
   "status": "proved",
   "theorems": [
    "Ethabi.Props.C19_selector",
    "Ethabi.Props.C19_decode_output"
   ],
   "note": "Keccak-256 is a parameter of the model; the hashed text is compared with an independently written Spec.signature."
  },
  {
   "property": "C20",
   "status": "partial",
   "theorems": [
    "Ethabi.Props.C20_ill_typed_rejected_partial",
    "Ethabi.Props.C20_wrong_count_rejected",
    "Ethabi.Props.C20_ill_typed_rejected_tuple_free",
    "Ethabi.Props.C20_counterexample_short_tuple",
    "Ethabi.Props.C20_counterexample_long_tuple",
    "Ethabi.Props.C20_function_outcomes",
    "Ethabi.Props.C20_constructor_outcomes"
   ],
   "note": "False in general: a tuple token with too few members is accepted, one with too many panics (token.rs:124-133). Proved where tuple arities agree, for every wrong argument count, and in full for tuple-free types. C20_function_outcomes and C20_constructor_outcomes say for all inputs what happens."
  },
  {
   "property": "C21",
   "status": "proved",
   "theorems": [
    "Ethabi.Props.C21_constructor"
   ],
   "note": "Same exclusions as C01."
  },
  {
   "property": "C22",
   "status": "proved",
   "theorems": [
    "Ethabi.Props.C22_signature_injective",
    "Ethabi.Props.C22_collision",
    "Ethabi.Props.C22_write_injective"
   ],
   "note": "Names must not contain '(' (always true of Solidity identifiers)."
  },
  {
   "property": "C23",
   "status": "proved",
   "theorems": [
    "Ethabi.Props.C23_signature_injective",
    "Ethabi.Props.C23_suffix"
   ],
   "note": "Names must not contain '('."
  },
  {
   "property": "C24",
   "status": "partial",
   "theorems": [
    "Ethabi.Props.C24_type_string_round_trip_partial",
    "Ethabi.Props.C24_exactly",
    "Ethabi.Props.C24_tuple_free",
    "Ethabi.Props.C24_counterexample_empty",
    "Ethabi.Props.C24_counterexample_depth",
    "Ethabi.Props.C24_counterexample_error",
    "Ethabi.Props.C24_counterexample_leak"
   ],
   "note": "False in general (four counterexamples: deep or mis-nested tuples are read back as different types, an empty member tuple is dropped, ...). Proved exactly: the round trip holds if and only if the type satisfies Spec.readable (all tuple-free types, flat tuples, and the nested tuple shapes the reader handles)."
  },
  {
   "property": "C25",
   "status": "proved",
   "theorems": [
    "Ethabi.Props.C25_abi_type_string",
    "Ethabi.Props.C25_text"
   ],
   "note": "Proved for all types; the tuple's members are compared as the JSON `tuple` placeholder, as the JSON ABI prescribes."
  },
  {
   "property": "C26",
   "status": "partial",
   "theorems": [
    "Ethabi.Props.C26_no_panic_partial",
    "Ethabi.Props.C26_no_panic_elementary",
    "Ethabi.Props.C26_terminates",
    "Ethabi.Props.C26_type_texts",
    "Ethabi.Props.C26_counterexample_bracket",
    "Ethabi.Props.C26_counterexample_unicode"
   ],
   "note": "False in general: non-ASCII texts and texts with an unmatched closing square bracket can panic (counterexamples). Proved for ASCII texts whose square brackets close, and for all texts not ending in ')' or ']'. C92_panics_exactly says exactly on which ASCII strings it panics."
  },
  {
   "property": "C27",
   "status": "proved",
   "theorems": [
    "Ethabi.Props.C27_array_suffix",
    "Ethabi.Props.C27_counterexample_unicode",
    "Ethabi.Props.C27_any_text",
    "Ethabi.Props.C27_counterexample_accepted"
   ],
   "note": "C27_counterexample_accepted: an accepted text that is not ASCII, whose array is refused."
  },
  {
   "property": "C28",
   "status": "proved",
   "theorems": [
    "Ethabi.Props.C28_param",
    "Ethabi.Props.C28_event_param",
    "Ethabi.Props.C28_tuple_param",
    "Ethabi.Props.C28_member_names_dropped"
   ],
   "note": "JSON is modelled at the level of its syntax tree (serde_json's text layer is not modelled). Sizes fit in usize, which holds of every Rust value. Names of nested tuple members are dropped, as the statement says (C28_member_names_dropped gives the exact result)."
  },
  {
   "property": "C29",
   "status": "proved",
   "theorems": [
    "Ethabi.Props.C29_contract_round_trip",
    "Ethabi.Props.C29_built",
    "Ethabi.Props.C29_same_lookup"
   ],
   "note": "For every contract that loading can produce and every iteration order of the two maps; C29_built shows the hypotheses hold of every loaded contract."
  },
  {
   "property": "C30",
   "status": "proved",
   "theorems": [
    "Ethabi.Props.C30_loads",
    "Ethabi.Props.C30_lookup",
    "Ethabi.Props.C30_constructor_flags"
   ],
   "note": "For every list of operations; C30_loads states that loading a JSON array of well-formed operations gives exactly these operations."
  },
  {
   "property": "C31",
   "status": "proved",
   "theorems": [
    "Ethabi.Props.C31_iterators"
   ],
   "note": "Enumeration is a permutation of the declarations for any map order; per-name order is kept."
  },
  {
   "property": "C32",
   "status": "proved",
   "theorems": [
    "Ethabi.Props.C32_sanitize",
    "Ethabi.Props.C32_unique",
    "Ethabi.Props.C32_function_name",
    "Ethabi.Props.C32_event_name",
    "Ethabi.Props.C32_loaded"
   ],
   "note": "For all strings."
  },
  {
   "property": "C33",
   "status": "proved",
   "theorems": [
    "Ethabi.Props.C33_parse_emitted"
   ],
   "note": "Solidity types, any hash function; data below 4 GiB and fewer than 2^27 topics (an EVM log has at most 4). Emitted topics and data are specified in Spec/Event.lean (Solidity's indexed-parameter encoding)."
  },
  {
   "property": "C34",
   "status": "proved",
   "theorems": [
    "Ethabi.Props.C34_wrong_signature",
    "Ethabi.Props.C34_topic_count",
    "Ethabi.Props.C34_wrong_count_is_error"
   ],
   "note": "Topic count in full; that the refusal is an Err rather than a panic needs bytesN with N < 2^62 and fewer than 2^58 topics."
  },
  {
   "property": "C35",
   "status": "proved",
   "theorems": [
    "Ethabi.Props.C35_declaration_order",
    "Ethabi.Props.C35_no_panic"
   ],
   "note": "For all events, duplicate names included."
  },
  {
   "property": "C36",
   "status": "partial",
   "theorems": [
    "Ethabi.Props.C36_positional_partial",
    "Ethabi.Props.C36_renaming_partial",
    "Ethabi.Props.C36_counterexample_unnamed",
    "Ethabi.Props.C36_last_of_name"
   ],
   "note": "False in general: parse_log goes through a HashMap keyed by name (event.rs:162), so unnamed or equally named parameters all report the last value. Proved for distinct names; C36_last_of_name says for all names which value is reported: that of the last parameter with this name, indexed ones first."
  },
  {
   "property": "C37",
   "status": "proved",
   "theorems": [
    "Ethabi.Props.C37_slots"
   ],
   "note": "For all events, raw filters and hash functions."
  },
  {
   "property": "C38",
   "status": "partial",
   "theorems": [
    "Ethabi.Props.C38_rejects_exactly_partial",
    "Ethabi.Props.C38_rejects_exactly_tuple_free",
    "Ethabi.Props.C38_counterexample_tuple",
    "Ethabi.Props.C38_outcomes",
    "Ethabi.Props.C38_outcomes_release"
   ],
   "note": "False in general: tuples of the wrong length (see C17). Proved where tuple arities agree, and in full for release builds and tuple-free parameters. 'Of that parameter's type' is the type_check notion, in which bytesN values may be shorter than N. C38_outcomes says for all filters when it succeeds, fails and panics."
  },
  {
   "property": "C39",
   "status": "proved",
   "theorems": [
    "Ethabi.Props.C39_matches_short",
    "Ethabi.Props.C39_matches"
   ],
   "note": "The emitted topics are those of the same event; C39_matches_short covers bytesN tokens shorter than N."
  },
  {
   "property": "C40",
   "status": "partial",
   "theorems": [
    "Ethabi.Props.C40_static_aggregates_partial",
    "Ethabi.Props.C40_counterexample_contents",
    "Ethabi.Props.C40_counterexample_no_match",
    "Ethabi.Props.C40_counterexample_one_word",
    "Ethabi.Props.C40_what_is_hashed",
    "Ethabi.Props.C40_exactly",
    "Ethabi.Props.C40_counterexample_keccak_string",
    "Ethabi.Props.C40_counterexample_keccak_array"
   ],
   "note": "False for string, bytes, T[] (filter hashes the ABI encoding including offset and length words, event.rs:59-65) and for static aggregates of one word (not hashed). Proved for all other static arrays and structs. C40_what_is_hashed says what is hashed for every type, C40_exactly that this is the Solidity topic for every hash function if and only if the type is a value type or static and not one word. The counterexamples also hold with Keccak-256 itself."
  },
  {
   "property": "C41",
   "status": "proved",
   "theorems": [
    "Ethabi.Props.C41_map",
    "Ethabi.Props.C41_conversions",
    "Ethabi.Props.C41_is_any",
    "Ethabi.Props.C41_index"
   ],
   "note": "Polymorphic, for all topics."
  },
  {
   "property": "C42",
   "status": "proved",
   "theorems": [
    "Ethabi.Props.C42_faithful",
    "Ethabi.Props.C42_injective",
    "Ethabi.Props.C42_shape"
   ],
   "note": "The reader of the JSON form is written in Spec/Filter.lean."
  },
  {
   "property": "C43",
   "status": "proved",
   "theorems": [
    "Ethabi.Props.C43_round_trip",
    "Ethabi.Props.C43_empty_element",
    "Ethabi.Props.C43_string"
   ],
   "note": "Also covers arrays with several empty byte strings; only the one-element array holding an empty byte string is left out (it prints as [])."
  },
  {
   "property": "C44",
   "status": "partial",
   "theorems": [
    "Ethabi.Props.C44_hex",
    "Ethabi.Props.C44_decimal",
    "Ethabi.Props.C44_number_partial",
    "Ethabi.Props.C44_too_big",
    "Ethabi.Props.C44_non_digit",
    "Ethabi.Props.C44_false"
   ],
   "note": "Exact for every text: 64 hexadecimal digits are hexadecimal, everything else decimal. Hence false for the decimal text of numbers with exactly 64 digits (lenient.rs:41 tries the strict hexadecimal form first). The empty text reads as 0."
  },
  {
   "property": "C45",
   "status": "partial",
   "theorems": [
    "Ethabi.Props.C45_hex",
    "Ethabi.Props.C45_decimal",
    "Ethabi.Props.C45_number_partial",
    "Ethabi.Props.C45_out_of_range",
    "Ethabi.Props.C45_false"
   ],
   "note": "Exact for every text; same exception as C44 for unsigned 64-digit text. Repeated minus signs are accepted."
  },
  {
   "property": "C46",
   "status": "proved",
   "theorems": [
    "Ethabi.Props.C46_lenient_extends_strict"
   ],
   "note": "All types and strings."
  },
  {
   "property": "C47",
   "status": "proved",
   "theorems": [
    "Ethabi.Props.C47_type_checks",
    "Ethabi.Props.C47_shape",
    "Ethabi.Props.C47_has_type",
    "Ethabi.Props.C47_args"
   ],
   "note": "The type check passes in all cases; exact types for tuple-free types. Tuples may come out short (C50)."
  },
  {
   "property": "C48",
   "status": "partial",
   "theorems": [
    "Ethabi.Props.C48_panics_exactly",
    "Ethabi.Props.C48_no_panic_partial",
    "Ethabi.Props.C48_no_panic_elementary",
    "Ethabi.Props.C48_false"
   ],
   "note": "False for non-ASCII text in arrays and tuples: character positions are used as byte offsets (token/mod.rs:62,75,117,129). Proved for ASCII text and for elementary types with any text. C48_panics_exactly says for all texts when it panics."
  },
  {
   "property": "C49",
   "status": "partial",
   "theorems": [
    "Ethabi.Props.C49_exactly",
    "Ethabi.Props.C49_split_partial",
    "Ethabi.Props.C49_split_fixed_partial",
    "Ethabi.Props.C49_empty",
    "Ethabi.Props.C49_false",
    "Ethabi.Props.C49_malformed_accepted"
   ],
   "note": "ASCII text; for other text the pieces are cut at wrong places (C49_false). Text that is not a bracketed list can be accepted (C49_malformed_accepted). C49_exactly says for every text what happens."
  },
  {
   "property": "C50",
   "status": "partial",
   "theorems": [
    "Ethabi.Props.C50_exactly",
    "Ethabi.Props.C50_members_partial",
    "Ethabi.Props.C50_split_partial",
    "Ethabi.Props.C50_false"
   ],
   "note": "False: short tuples are accepted (token/mod.rs:62-100 never checks that all members were read). Proved: never too many, each member read with its own type, exact splitting for ASCII text. C50_exactly says for every text what is accepted."
  },
  {
   "property": "C51",
   "status": "proved",
   "theorems": [
    "Ethabi.Props.C51_function_by_name",
    "Ethabi.Props.C51_event_by_name",
    "Ethabi.Props.C51_function_by_signature",
    "Ethabi.Props.C51_function_text_injective",
    "Ethabi.Props.C51_event_by_signature",
    "Ethabi.Props.C51_event_no_collision",
    "Ethabi.Props.C51_no_unreachable"
   ],
   "note": "Functions are chosen by Function::signature, which includes the outputs (f(bool):(uint8)). Events are chosen by the hash of the text without spaces. The contract JSON is a tree; the file and the command line are not modelled."
  },
  {
   "property": "C52",
   "status": "partial",
   "theorems": [
    "Ethabi.Props.C52_round_trip_partial",
    "Ethabi.Props.C52_round_trip_tuple_free",
    "Ethabi.Props.C52_counterexample_short_tuple"
   ],
   "note": "False for tuple values with too few members (C50): counterexample. Proved for all values filling their tuples, and without condition for types without tuples."
  },
  {
   "property": "C53",
   "status": "partial",
   "theorems": [
    "Ethabi.Props.C53_words_true_partial",
    "Ethabi.Props.C53_counterexample",
    "Ethabi.Props.C53_debug_partial",
    "Ethabi.Props.C53_counterexample_debug"
   ],
   "note": "False in general: in release builds a bytes value of 2^32 bytes gets length word 0, and in any build one of 2^37-63 bytes gets a wrong length word. Proved below 4 GiB, and in debug builds for byte strings below 128 GiB. What release builds return at every size: C82."
  },
  {
   "property": "C54",
   "status": "partial",
   "theorems": [
    "Ethabi.Props.C54_decode_output",
    "Ethabi.Props.C54_no_outputs",
    "Ethabi.Props.C54_parse_log_partial",
    "Ethabi.Props.C54_parse_emitted",
    "Ethabi.Props.C54_counterexample_indexed",
    "Ethabi.Props.C54_counterexample_unnamed",
    "Ethabi.Props.C54_parse_log_exactly",
    "Ethabi.Props.C54_matching_fields",
    "Ethabi.Props.C54_events_exactly"
   ],
   "note": "decode_output in full for the supported output types; parse_log for events with distinct names whose indexed parameters are of value types. False otherwise: an indexed string, bytes or array makes generated parse_log panic on every accepted log, and so can several unnamed parameters (counterexamples). C54_parse_log_exactly gives every outcome for all supported events and all logs: it panics exactly if the dynamic parse_log panics or reports values that are not of the declared types. C54_events_exactly says for which events no log makes it panic: exactly those in which the last parameter of each name is read as the type of every field of that name."
  },
  {
   "property": "C55",
   "status": "partial",
   "theorems": [
    "Ethabi.Props.C55_conversion",
    "Ethabi.Props.C55_conversion_onto",
    "Ethabi.Props.C55_encode_input_release",
    "Ethabi.Props.C55_encode_input_partial",
    "Ethabi.Props.C55_counterexample_huge",
    "Ethabi.Props.C55_constructor",
    "Ethabi.Props.C55_debug_exactly"
   ],
   "note": "Conversion and type check in full. No panic in release builds for all arguments, and for both profiles when the encoding is below 4 GiB; the debug build panics on a 4 GiB bytes argument (counterexample). C55_debug_exactly: the debug build panics exactly on encodings of 4 GiB and more."
  },
  {
   "property": "C56",
   "status": "proved",
   "theorems": [
    "Ethabi.Props.C56_contract",
    "Ethabi.Props.C56_operation",
    "Ethabi.Props.C56_parameters",
    "Ethabi.Props.C56_direct"
   ],
   "note": "Full equality of results, entries removed at all levels at once; a parameter on its own with an undefined key is never accepted."
  },
  {
   "property": "C57",
   "status": "proved",
   "theorems": [
    "Ethabi.Props.C57_tuple_round_trip",
    "Ethabi.Props.C57_mixed_fail"
   ],
   "note": "Mixed nestings of arrays and tuples do not read back (C57_mixed_fail)."
  },
  {
   "property": "C58",
   "status": "proved",
   "theorems": [
    "Ethabi.Props.C58_contract",
    "Ethabi.Props.C58_operation",
    "Ethabi.Props.C58_parameters",
    "Ethabi.Props.C58_failures_differ"
   ],
   "note": "Objects reordered at all levels at once; equality of successful results. Which failure (error or panic of the type reader) is reported can depend on the order (C58_failures_differ)."
  },
  {
   "property": "C59",
   "status": "partial",
   "theorems": [
    "Ethabi.Props.C59_too_few_partial",
    "Ethabi.Props.C59_counterexample_surplus",
    "Ethabi.Props.C59_odd_params"
   ],
   "note": "Surplus values are silently ignored (cli/src/main.rs:175-176 zips): counterexample for every function. Too few values: proved. encode params with an odd number of arguments panics."
  },
  {
   "property": "C60",
   "status": "proved",
   "theorems": [
    "Ethabi.Props.C60_encode_function"
   ],
   "note": ""
  },
  {
   "property": "C61",
   "status": "proved",
   "theorems": [
    "Ethabi.Props.C61_decode_function"
   ],
   "note": ""
  },
  {
   "property": "C62",
   "status": "proved",
   "theorems": [
    "Ethabi.Props.C62_decode_log"
   ],
   "note": "H256::from_str (outside the repository) is a parameter: the topic texts are assumed to parse to the topics."
  },
  {
   "property": "C63",
   "status": "proved",
   "theorems": [
    "Ethabi.Props.C63_filter_release",
    "Ethabi.Props.C63_wildcard",
    "Ethabi.Props.C63_filter_debug_exactly"
   ],
   "note": "filter: release profile, all arguments; wildcard_filter: both profiles. Debug builds: C63_filter_debug_exactly, a panic exactly if a constrained value has an encoding of 4 GiB or more."
  },
  {
   "property": "C64",
   "status": "partial",
   "theorems": [
    "Ethabi.Props.C64_signature_partial",
    "Ethabi.Props.C64_counterexample",
    "Ethabi.Props.C64_counterexample_keccak",
    "Ethabi.Props.C64_names",
    "Ethabi.Props.C64_counterexample_heck"
   ],
   "note": "False in general: the generator camel-cases the name before the signature is computed (derive/src/event.rs:153, 171). Proved for names already in camel case; the counterexample covers every event whose name changes. C64_counterexample_keccak is the case of an event named transfer with Keccak-256 itself. With heck's conversion, C64_names says for exactly which names the signature is kept; ERC20Transfer is not one of them (C64_counterexample_heck)."
  },
  {
   "property": "C65",
   "status": "proved",
   "theorems": [
    "Ethabi.Props.C65_components",
    "Ethabi.Props.C65_member_components",
    "Ethabi.Props.C65_event_components",
    "Ethabi.Props.C65_missing",
    "Ethabi.Props.C65_inline_members"
   ],
   "note": "Type text that already lists members, e.g. (bool), is extended by the components (C65_inline_members)."
  },
  {
   "property": "C66",
   "status": "proved",
   "theorems": [
    "Ethabi.Props.C66_encode",
    "Ethabi.Props.C66_decode",
    "Ethabi.Props.C66_decode_any",
    "Ethabi.Props.C66_function_encode_input",
    "Ethabi.Props.C66_constructor_encode_input",
    "Ethabi.Props.C66_filter",
    "Ethabi.Props.C66_parse_log"
   ],
   "note": "Relational induction over encoder and decoder. decode is profile independent outright for bytesN widths below 2^62."
  },
  {
   "property": "C67",
   "status": "proved",
   "theorems": [
    "Ethabi.Props.C67_never_error",
    "Ethabi.Props.C67_size",
    "Ethabi.Props.C67_debug_overflow"
   ],
   "note": "Size function in Spec/Size.lean, independent of encoder and types. Above the payload bound the claim fails: C53_counterexample_debug."
  },
  {
   "property": "C68",
   "status": "partial",
   "theorems": [
    "Ethabi.Props.C68_large",
    "Ethabi.Props.C68_strict",
    "Ethabi.Props.C68_lenient_partial",
    "Ethabi.Props.C68_lenient_misread",
    "Ethabi.Props.C68_counterexample"
   ],
   "note": "False for the lenient tokenizer: 16 prints as 10 and reads as ten. Proved for the strict tokenizer; for the lenient one the exact set of integers read back (below 10 or at least 2^252) is proved, and that the others are rejected or read as a smaller integer."
  },
  {
   "property": "C69",
   "status": "proved",
   "theorems": [
    "Ethabi.Props.C69_generates",
    "Ethabi.Props.C69_tuples"
   ],
   "note": "`Naming` (heck's conversions and syn's identifier check) is a parameter: the theorem holds for every such functions."
  },
  {
   "property": "C70",
   "status": "proved",
   "theorems": [
    "Ethabi.Props.C70_function",
    "Ethabi.Props.C70_constructor",
    "Ethabi.Props.C70_encodes",
    "Ethabi.Props.C70_decodes",
    "Ethabi.Props.C70_counterexample_f",
    "Ethabi.Props.C70_counterexample_numbered",
    "Ethabi.Props.C70_counterexample_constructor",
    "Ethabi.Props.C70_counterexample_keyword"
   ],
   "note": "`Implements` (Spec/Generated.lean) lists what is claimed; `Run.stuck` stands for rejection by rustc; the meaning of Rust text is Spec/RustText.lean, with moves, borrows and trait resolution not represented."
  },
  {
   "property": "C71",
   "status": "proved",
   "theorems": [
    "Ethabi.Props.C71_event",
    "Ethabi.Props.C71_parses",
    "Ethabi.Props.C71_counterexample_event"
   ],
   "note": "As for C70. For event parameters with `T[k]`, C72 shows that the text is not valid Rust."
  },
  {
   "property": "C72",
   "status": "proved",
   "theorems": [
    "Ethabi.Props.C72_type",
    "Ethabi.Props.C72_bound",
    "Ethabi.Props.C72_generated"
   ],
   "note": "`[T, k]` is shown to differ from the text of every type of the grammar `RType`, and the bounds from every `Generic`."
  },
  {
   "property": "C73",
   "status": "proved",
   "theorems": [
    "Ethabi.Props.C73_contract",
    "Ethabi.Props.C73_distinct",
    "Ethabi.Props.C73_overloads"
   ],
   "note": "Validity of the whole text is not defined beyond the items' functions, types and distinct names."
  },
  {
   "property": "C74",
   "status": "proved",
   "theorems": [
    "Ethabi.Props.C74_decodes_exactly",
    "Ethabi.Props.C74_unique",
    "Ethabi.Props.C74_errors_exactly"
   ],
   "note": "bytesN widths from 2^62 are excluded (C06_counterexample_wide_bytes). String content goes through the model of from_utf8_lossy (C14)."
  },
  {
   "property": "C75",
   "status": "proved",
   "theorems": [
    "Ethabi.Props.C75_prefix"
   ],
   "note": ""
  },
  {
   "property": "C76",
   "status": "proved",
   "theorems": [
    "Ethabi.Props.C76_accepts_exactly",
    "Ethabi.Props.C76_panics_exactly",
    "Ethabi.Props.C76_without_tuples",
    "Ethabi.Props.C76_unique",
    "Ethabi.Props.C76_errors",
    "Ethabi.Props.C76_counterexample_unbalanced"
   ],
   "note": "Exact for strings with at most one tuple; C92 is the general statement. C76_counterexample_unbalanced: with a second parenthesis an unbalanced text is accepted."
  },
  {
   "property": "C77",
   "status": "proved",
   "theorems": [
    "Ethabi.Props.C77_param",
    "Ethabi.Props.C77_event_param",
    "Ethabi.Props.C77_tuple_param",
    "Ethabi.Props.C77_operation",
    "Ethabi.Props.C77_contract",
    "Ethabi.Props.C77_panics_only"
   ],
   "note": "The JSON text layer is not modelled. Operations are covered as objects and as arrays; an object {\"pure\": {}} for stateMutability, which newer serde versions accept, is rejected by the model (DESIGN.md)."
  },
  {
   "property": "C78",
   "status": "proved",
   "theorems": [
    "Ethabi.Props.C78_depth",
    "Ethabi.Props.C78_members"
   ],
   "note": ""
  },
  {
   "property": "C79",
   "status": "proved",
   "theorems": [
    "Ethabi.Props.C79_accepts_exactly",
    "Ethabi.Props.C79_panics_exactly",
    "Ethabi.Props.C79_errors"
   ],
   "note": "An equivalence in both directions: Spec/Logs.lean says when topics and data hold values, without the decoder. The size hypotheses exclude only logs no machine can hold."
  },
  {
   "property": "C80",
   "status": "proved",
   "theorems": [
    "Ethabi.Props.C80_wildcard",
    "Ethabi.Props.C80_accepted_matches",
    "Ethabi.Props.C80_values",
    "Ethabi.Props.C80_integers",
    "Ethabi.Props.C80_counterexample_bool",
    "Ethabi.Props.C80_counterexample_string"
   ],
   "note": "C80_integers is an equivalence for all accepted logs of events with integer topics; C80_values gives the two directions for all value types. The counterexamples show that the condition on the topics is needed."
  },
  {
   "property": "C81",
   "status": "proved",
   "theorems": [
    "Ethabi.Props.C81_accepts_exactly",
    "Ethabi.Props.C81_panics_exactly",
    "Ethabi.Props.C81_unique",
    "Ethabi.Props.C81_refuses_exactly",
    "Ethabi.Props.C81_ascii_parts"
   ],
   "note": "Equivalences in all three outcomes, for every text. Spec/TokenText.lean defines depth, quotes and cuts from the text alone, without the loop."
  },
  {
   "property": "C82",
   "status": "proved",
   "theorems": [
    "Ethabi.Props.C82_release_exactly",
    "Ethabi.Props.C82_right_iff",
    "Ethabi.Props.C82_any_build",
    "Ethabi.Props.C82_spec_agrees",
    "Ethabi.Props.C82_function_release"
   ],
   "note": "C82_right_iff assumes the numbers are below 2^256 (no computer holds more)."
  },
  {
   "property": "C83",
   "status": "proved",
   "theorems": [
    "Ethabi.Props.C83_decoded_size",
    "Ethabi.Props.C83_polynomial",
    "Ethabi.Props.C83_amplification",
    "Ethabi.Props.C83_counterexample_zero_width"
   ],
   "note": "The bound holds without arrays of zero-width elements, for which C83_counterexample_zero_width shows there is none. How long decode takes: C109."
  },
  {
   "property": "C84",
   "status": "proved",
   "theorems": [
    "Ethabi.Props.C84_expands",
    "Ethabi.Props.C84_stops",
    "Ethabi.Props.C84_one_file",
    "Ethabi.Props.C84_reads_only",
    "Ethabi.Props.C84_later_attributes",
    "Ethabi.Props.C84_use_contract"
   ],
   "note": "C84_expands gives the success condition and the result, C84_stops the other outcome, C84_one_file and C84_reads_only say that only that file matters, C84_later_attributes that later attributes do not, C84_use_contract is the macro of contract/. Parameters: syn's parser of an attribute, the environment variable, the files as JSON trees; PathBuf::push as on Unix."
  },
  {
   "property": "C85",
   "status": "proved",
   "theorems": [
    "Ethabi.Props.C85_decode_params",
    "Ethabi.Props.C85_decode_function",
    "Ethabi.Props.C85_decode_params_panics",
    "Ethabi.Props.C85_decode_log",
    "Ethabi.Props.C85_encode_params",
    "Ethabi.Props.C85_encode_params_layout",
    "Ethabi.Props.C85_encode_function",
    "Ethabi.Props.C85_encode_function_layout"
   ],
   "note": "One theorem per command, each an equivalence. C85_encode_params_layout and C85_encode_function_layout: for types without tuples the release build prints the specified layout. Parameters: structopt's argument parsing, the file system with serde_json's parser, H256::from_str, Keccak."
  },
  {
   "property": "C86",
   "status": "proved",
   "theorems": [
    "Ethabi.Props.C86_accepts_exactly",
    "Ethabi.Props.C86_panics_exactly",
    "Ethabi.Props.C86_inner_tuple",
    "Ethabi.Props.C86_prefix_ignored",
    "Ethabi.Props.C86_counterexample_depth"
   ],
   "note": "Exact for one level of tuples inside a tuple; C92 is the general statement. C86_counterexample_depth shows that the rule does not extend to deeper tuples. Array suffixes on the whole string: C27."
  },
  {
   "property": "C87",
   "status": "proved",
   "theorems": [
    "Ethabi.Props.C87_same_code",
    "Ethabi.Props.C87_wraps",
    "Ethabi.Props.C87_otherwise_same",
    "Ethabi.Props.C87_decodes_exactly",
    "Ethabi.Props.C87_panics_exactly",
    "Ethabi.Props.C87_counterexample_length",
    "Ethabi.Props.C87_counterexample_offset"
   ],
   "note": "Concrete data on which a 32-bit target panics and a 64-bit target reports an error: C87_counterexample_length, C87_counterexample_offset."
  },
  {
   "property": "C88",
   "status": "proved",
   "theorems": [
    "Ethabi.Props.C88_param",
    "Ethabi.Props.C88_event_param",
    "Ethabi.Props.C88_tuple_param",
    "Ethabi.Props.C88_operation",
    "Ethabi.Props.C88_contract",
    "Ethabi.Props.C88_unambiguous",
    "Ethabi.Props.C88_injective"
   ],
   "note": "The names of tuple members are not in Param and are therefore not written; C28 and C29 say what is read back."
  },
  {
   "property": "C89",
   "status": "proved",
   "theorems": [
    "Ethabi.Props.C89_function",
    "Ethabi.Props.C89_event"
   ],
   "note": "Keccak-256 is the parameter hash; Tests/Keccak.lean has a concrete one."
  },
  {
   "property": "C90",
   "status": "proved",
   "theorems": [
    "Ethabi.Props.C90_param",
    "Ethabi.Props.C90_event_param",
    "Ethabi.Props.C90_tuple_param",
    "Ethabi.Props.C90_operation",
    "Ethabi.Props.C90_contract",
    "Ethabi.Props.C90_contract_refused"
   ],
   "note": "An equivalence. Which ASCII type strings make the reader panic: C92."
  },
  {
   "property": "C91",
   "status": "proved",
   "theorems": [
    "Ethabi.Props.C91_decode_function",
    "Ethabi.Props.C91_decode_log",
    "Ethabi.Props.C91_encode_params",
    "Ethabi.Props.C91_encode_function",
    "Ethabi.Props.C91_encode_release"
   ],
   "note": "H256::from_str is a parameter that is assumed not to panic."
  },
  {
   "property": "C92",
   "status": "proved",
   "theorems": [
    "Ethabi.Props.C92_accepts_exactly",
    "Ethabi.Props.C92_panics_exactly",
    "Ethabi.Props.C92_refuses_exactly",
    "Ethabi.Props.C92_tuple",
    "Ethabi.Props.C92_cuts",
    "Ethabi.Props.C92_unique",
    "Ethabi.Props.C92_counterexample_leftover",
    "Ethabi.Props.C92_counterexample_outside",
    "Ethabi.Props.C92_counterexample_unicode"
   ],
   "note": "An equivalence, without restrictions on the nesting; C76 and C86 are readable special cases. C92_counterexample_leftover and C92_counterexample_outside show two consequences. Non-ASCII strings: C27."
  },
  {
   "property": "C93",
   "status": "proved",
   "theorems": [
    "Ethabi.Props.C93_any_type_texts",
    "Ethabi.Props.C93_tuple_texts",
    "Ethabi.Props.C93_one_error",
    "Ethabi.Props.C93_trichotomy",
    "Ethabi.Props.C93_tokenizers",
    "Ethabi.Props.C93_type_texts",
    "Ethabi.Props.C93_name_in_text",
    "Ethabi.Props.C93_logs",
    "Ethabi.Props.C93_loading"
   ],
   "note": "The errors of decode are in C74_errors_exactly, those of encode_input in C20, those of filter in C38. Type texts that are not ASCII: only that the name is a part of the text. What the messages say is C118."
  },
  {
   "property": "C94",
   "status": "proved",
   "theorems": [
    "Ethabi.Props.C94_same_code",
    "Ethabi.Props.C94_same_or_refused",
    "Ethabi.Props.C94_accepted",
    "Ethabi.Props.C94_too_large",
    "Ethabi.Props.C94_without_tuples",
    "Ethabi.Props.C94_accepts_exactly",
    "Ethabi.Props.C94_counterexample_dropped"
   ],
   "note": ""
  },
  {
   "property": "C95",
   "status": "proved",
   "theorems": [
    "Ethabi.Props.C95_size",
    "Ethabi.Props.C95_nesting",
    "Ethabi.Props.C95_text_not_read_back",
    "Ethabi.Props.C95_three_levels",
    "Ethabi.Props.C95_counterexample_unicode"
   ],
   "note": "False for texts outside ASCII: C95_counterexample_unicode reads four levels, and by C112 no polynomial bounds the size there. C78 says more about the shape of the types, for texts without the name tuple."
  },
  {
   "property": "C96",
   "status": "proved",
   "theorems": [
    "Ethabi.Props.C96_conversions",
    "Ethabi.Props.C96_snake",
    "Ethabi.Props.C96_snake_kept",
    "Ethabi.Props.C96_camel",
    "Ethabi.Props.C96_camel_kept",
    "Ethabi.Props.C96_counterexample_camel_twice",
    "Ethabi.Props.C96_same_struct",
    "Ethabi.Props.C96_counterexample_same_struct",
    "Ethabi.Props.C96_identifiers",
    "Ethabi.Props.C96_generates",
    "Ethabi.Props.C96_counterexample_identifiers",
    "Ethabi.Props.C96_underscores",
    "Ethabi.Props.C96_clash",
    "Ethabi.Props.C96_counterexample_parameters"
   ],
   "note": "heck 0.3 and the check of identifiers are outside the repository; they are modelled in Model/Heck.lean from their published algorithm and checked on the examples of heck's documentation (Tests/Heck.lean)."
  },
  {
   "property": "C97",
   "status": "proved",
   "theorems": [
    "Ethabi.Props.C97_values",
    "Ethabi.Props.C97_distinct",
    "Ethabi.Props.C97_string",
    "Ethabi.Props.C97_counterexample_bytes",
    "Ethabi.Props.C97_counterexample_strings",
    "Ethabi.Props.C97_decode_params"
   ],
   "note": "The exceptions are stated exactly (blur) and shown by C97_counterexample_bytes and C97_counterexample_strings."
  },
  {
   "property": "C98",
   "status": "proved",
   "theorems": [
    "Ethabi.Props.C98_encode_tuple",
    "Ethabi.Props.C98_encode_fixed_array",
    "Ethabi.Props.C98_encode_array",
    "Ethabi.Props.C98_decode_static_tuple",
    "Ethabi.Props.C98_decode_static_fixed_array",
    "Ethabi.Props.C98_decode_dynamic_tuple",
    "Ethabi.Props.C98_decode_dynamic_fixed_array",
    "Ethabi.Props.C98_decode_array",
    "Ethabi.Props.C98_counterexample_empty"
   ],
   "note": "For a successful encode; C67 says when encode succeeds. The bytes must not be empty (C98_counterexample_empty)."
  },
  {
   "property": "C99",
   "status": "proved",
   "theorems": [
    "Ethabi.Props.C99_parse",
    "Ethabi.Props.C99_unique",
    "Ethabi.Props.C99_load",
    "Ethabi.Props.C99_load_ok",
    "Ethabi.Props.C99_load_panic",
    "Ethabi.Props.C99_load_err",
    "Ethabi.Props.C99_written"
   ],
   "note": "serde_json is modelled as a recursive descent parser, element by element as the visitor asks for them; the grammar is stated without a parser. Texts are sequences of characters; C105 is about bytes."
  },
  {
   "property": "C100",
   "status": "partial",
   "theorems": [
    "Ethabi.Props.C100_reload_partial",
    "Ethabi.Props.C100_any_layout",
    "Ethabi.Props.C100_counterexample"
   ],
   "note": "False in general: type strings such as ((bool)) with components are written with more nested arrays and objects than they were read from, and more than 127 are not read (C100_counterexample). Proved exactly: the text loads if no declared type needs more than 124 nested objects and arrays (up to 61 tuples around a type), and is refused otherwise."
  },
  {
   "property": "C101",
   "status": "proved",
   "theorems": [
    "Ethabi.Props.C101_text",
    "Ethabi.Props.C101_reads",
    "Ethabi.Props.C101_injective",
    "Ethabi.Props.C101_plain"
   ],
   "note": "C42 is the same for JSON values. The text is specified character by character; reading back uses the grammar of C99."
  },
  {
   "property": "C102",
   "status": "proved",
   "theorems": [
    "Ethabi.Props.C102_execute",
    "Ethabi.Props.C102_output",
    "Ethabi.Props.C102_layout",
    "Ethabi.Props.C102_values",
    "Ethabi.Props.C102_derive"
   ],
   "note": "Files are sequences of characters (UTF-8). Removes the assumption of C84, C85 and C91 that files are given as JSON values."
  },
  {
   "property": "C103",
   "status": "proved",
   "theorems": [
    "Ethabi.Props.C103_same_code",
    "Ethabi.Props.C103_same_or_panic",
    "Ethabi.Props.C103_exact",
    "Ethabi.Props.C103_debug",
    "Ethabi.Props.C103_areas",
    "Ethabi.Props.C103_conforms",
    "Ethabi.Props.C103_function",
    "Ethabi.Props.C103_constructor",
    "Ethabi.Props.C103_counterexample",
    "Ethabi.Props.C103_limit"
   ],
   "note": "C103_counterexample: a bytes value of 2^26 - 32 bytes panics on 32 bits and is encoded on 64 bits; C103_limit: 32 bytes less and it is encoded. Running out of memory is not modelled."
  },
  {
   "property": "C104",
   "status": "proved",
   "theorems": [
    "Ethabi.Props.C104_same_code",
    "Ethabi.Props.C104_decode",
    "Ethabi.Props.C104_filter",
    "Ethabi.Props.C104_log_wraps",
    "Ethabi.Props.C104_log_otherwise_same",
    "Ethabi.Props.C104_log_accepts",
    "Ethabi.Props.C104_counterexample_log",
    "Ethabi.Props.C104_counterexample_filter",
    "Ethabi.Props.C104_round_trip"
   ],
   "note": "Data of 64 bytes on which parse_log panics on 32 bits: C104_counterexample_log; a filter: C104_counterexample_filter."
  },
  {
   "property": "C105",
   "status": "proved",
   "theorems": [
    "Ethabi.Props.C105_text",
    "Ethabi.Props.C105_panic",
    "Ethabi.Props.C105_ok",
    "Ethabi.Props.C105_err",
    "Ethabi.Props.C105_not_utf8",
    "Ethabi.Props.C105_execute",
    "Ethabi.Props.C105_output",
    "Ethabi.Props.C105_derive",
    "Ethabi.Props.C105_values"
   ],
   "note": "The reader of serde_json is modelled from its published behaviour: bytes of a string are collected and checked with str::from_utf8 at the closing quotation mark."
  },
  {
   "property": "C106",
   "status": "proved",
   "theorems": [
    "Ethabi.Props.C106_enough",
    "Ethabi.Props.C106_enough_bytes",
    "Ethabi.Props.C106_needed",
    "Ethabi.Props.C106_no_bound",
    "Ethabi.Props.C106_three",
    "Ethabi.Props.C106_counterexample_unicode"
   ],
   "note": "The reader with a limit (`Spec.readWithin beyond n`) is the reader's body where the call after the n-th yields an arbitrary result `beyond`; being equal to the reader for every `beyond` means that this call is not made. The size of a stack frame, and hence how many calls fit a given stack, is not modelled."
  },
  {
   "property": "C107",
   "status": "proved",
   "theorems": [
    "Ethabi.Props.C107_same",
    "Ethabi.Props.C107_work",
    "Ethabi.Props.C107_quadratic",
    "Ethabi.Props.C107_linear",
    "Ethabi.Props.C107_reached"
   ],
   "note": "Work is counted by a copy of the reader's model that adds up, over all calls, the length of the call's text plus one; its results are proved to be those of the reader. That one call takes time proportional to its text is by inspection of the source. Texts that are not ASCII are not covered; C112 shows that no polynomial bounds the work for them."
  },
  {
   "property": "C108",
   "status": "proved",
   "theorems": [
    "Ethabi.Props.C108_same",
    "Ethabi.Props.C108_any_order",
    "Ethabi.Props.C108_neighbours",
    "Ethabi.Props.C108_joined",
    "Ethabi.Props.C108_refused",
    "Ethabi.Props.C108_commands"
   ],
   "note": "Equal contracts: same constructor and flags and the same lists under each name, as the derived PartialEq compares them (SameContract, Props/Json.lean). An element that makes the loader panic (C90) wins or loses against a refused one by its place; an example shows it."
  },
  {
   "property": "C109",
   "status": "proved",
   "theorems": [
    "Ethabi.Props.C109_same",
    "Ethabi.Props.C109_work",
    "Ethabi.Props.C109_polynomial",
    "Ethabi.Props.C109_static",
    "Ethabi.Props.C109_at_least",
    "Ethabi.Props.C109_reached",
    "Ethabi.Props.C109_counterexample_zero_width"
   ],
   "note": "Work: calls of decode_param, bytes copied (those of strings twice), types looked at by is_dynamic (Model/DecoderCount.lean). The bound holds without arrays of zero-width elements, for which C109_counterexample_zero_width shows there is none."
  },
  {
   "property": "C110",
   "status": "proved",
   "theorems": [
    "Ethabi.Props.C110_same",
    "Ethabi.Props.C110_work",
    "Ethabi.Props.C110_flat",
    "Ethabi.Props.C110_at_least",
    "Ethabi.Props.C110_reached"
   ],
   "note": "Counted: one for every call of encode_token, head_len, tail_len, head, tail and encode_head_tail, one for every token is_dynamic looks at, one for every word each time it is made or copied. The reached lower bound is for release builds (debug builds agree as long as they return)."
  },
  {
   "property": "C111",
   "status": "proved",
   "theorems": [
    "Ethabi.Props.C111_same",
    "Ethabi.Props.C111_work",
    "Ethabi.Props.C111_reached"
   ],
   "note": "Counted: one for every call of tokenize and one for every byte each time a text is gone through."
  },
  {
   "property": "C112",
   "status": "proved",
   "theorems": [
    "Ethabi.Props.C112_large",
    "Ethabi.Props.C112_size",
    "Ethabi.Props.C112_at_least",
    "Ethabi.Props.C112_work",
    "Ethabi.Props.C112_outside_ascii"
   ],
   "note": "the counterpart of C95 and C107 outside ASCII: no polynomial bounds the size of the type or the work"
  },
  {
   "property": "C113",
   "status": "proved",
   "theorems": [
    "Ethabi.Props.C113_decode",
    "Ethabi.Props.C113_check",
    "Ethabi.Props.C113_tokenize",
    "Ethabi.Props.C113_calls",
    "Ethabi.Props.C113_logs",
    "Ethabi.Props.C113_filters",
    "Ethabi.Props.C113_tool",
    "Ethabi.Props.C113_any_value",
    "Ethabi.Props.C113_signature"
   ],
   "note": "sameShape: equal after every intN, uintN is replaced by int, uint. The names of functions and events may differ as well."
  },
  {
   "property": "C114",
   "status": "proved",
   "theorems": [
    "Ethabi.Props.C114_exactly",
    "Ethabi.Props.C114_every_byte",
    "Ethabi.Props.C114_address",
    "Ethabi.Props.C114_fixedBytes",
    "Ethabi.Props.C114_bool"
   ],
   "note": "alikeAll (Spec/Significant.lean) names the significant bytes by their positions. bytesN for N below 2^62."
  },
  {
   "property": "C115",
   "status": "proved",
   "theorems": [
    "Ethabi.Props.C115_same",
    "Ethabi.Props.C115_decode",
    "Ethabi.Props.C115_decode_exactly",
    "Ethabi.Props.C115_tokenize",
    "Ethabi.Props.C115_tokenize_exactly",
    "Ethabi.Props.C115_no_bound"
   ],
   "note": "decodeWithin and tokenizeWithin (Model/CallDepth.lean) are the bodies of the functions where the call after the n-th yields an arbitrary result. The size of stack frames, is_dynamic (which recurses over the type as well), encode, Clone and Drop are not covered."
  },
  {
   "property": "C116",
   "status": "proved",
   "theorems": [
    "Ethabi.Props.C116_values",
    "Ethabi.Props.C116_fixed_points",
    "Ethabi.Props.C116_static",
    "Ethabi.Props.C116_full",
    "Ethabi.Props.C116_counterexample_shorter"
   ],
   "note": "paddedAll (Spec/Canonical.lean) says which padding bytes must be zero. Sizes in the types fit in a 64-bit usize."
  },
  {
   "property": "C117",
   "status": "proved",
   "theorems": [
    "Ethabi.Props.C117_encode",
    "Ethabi.Props.C117_encode_exactly",
    "Ethabi.Props.C117_type_check",
    "Ethabi.Props.C117_type_check_exactly",
    "Ethabi.Props.C117_display",
    "Ethabi.Props.C117_write",
    "Ethabi.Props.C117_write_for_abi",
    "Ethabi.Props.C117_no_bound"
   ],
   "note": "The limit applies to each function separately; frames of different functions on the stack at the same time are not added up, and the size of a frame is not modelled."
  },
  {
   "property": "C118",
   "status": "proved",
   "theorems": [
    "Ethabi.Props.C118_same_outcome",
    "Ethabi.Props.C118_tokenizers",
    "Ethabi.Props.C118_encode_params",
    "Ethabi.Props.C118_encode_function",
    "Ethabi.Props.C118_decode_params",
    "Ethabi.Props.C118_decode_function",
    "Ethabi.Props.C118_decode_log",
    "Ethabi.Props.C118_texts_tell"
   ],
   "note": "The Display and Debug texts of other crates (serde_json, std::io, ParseIntError, the quoted byte of hex) are parameters. FromHexError and the message of uint and anyhow are modelled from their documentation, as the sources are not in the repository."
  },
  {
   "property": "C119",
   "status": "proved",
   "theorems": [
    "Ethabi.Props.C119_contents",
    "Ethabi.Props.C119_one",
    "Ethabi.Props.C119_checked",
    "Ethabi.Props.C119_decoded",
    "Ethabi.Props.C119_tokenized",
    "Ethabi.Props.C119_logged"
   ],
   "note": "usizeOkAll: sizes in the types fit in a 64-bit usize; data shorter than 2^63 bytes."
  },
  {
   "property": "C120",
   "status": "proved",
   "theorems": [
    "Ethabi.Props.C120_same_code",
    "Ethabi.Props.C120_same_or_refused",
    "Ethabi.Props.C120_accepted",
    "Ethabi.Props.C120_too_large",
    "Ethabi.Props.C120_written",
    "Ethabi.Props.C120_counterexample_dropped"
   ],
   "note": "The reading of JSON text (C100) does not depend on the width for the values the crate looks at; the claim starts from the JSON value."
  },
  {
   "property": "C121",
   "status": "proved",
   "theorems": [
    "Ethabi.Props.C121_accepted",
    "Ethabi.Props.C121_refused",
    "Ethabi.Props.C121_other",
    "Ethabi.Props.C121_without_bools",
    "Ethabi.Props.C121_same_layout",
    "Ethabi.Props.C121_encode",
    "Ethabi.Props.C121_read_back",
    "Ethabi.Props.C121_counterexample_bool"
   ],
   "note": "Lossy decoding of strings is the model's function for Rust's String::from_utf8_lossy, which C121 takes as given; other claims are about it. C121_counterexample_bool shows that bools have to be left out of C121_same_layout: a refused bool may come before a panic."
  },
  {
   "property": "C122",
   "status": "proved",
   "theorems": [
    "Ethabi.Props.C122_same_code",
    "Ethabi.Props.C122_same_or",
    "Ethabi.Props.C122_printed",
    "Ethabi.Props.C122_decoded",
    "Ethabi.Props.C122_encoded",
    "Ethabi.Props.C122_encode_large",
    "Ethabi.Props.C122_encode_function_large",
    "Ethabi.Props.C122_decode_wraps",
    "Ethabi.Props.C122_refused",
    "Ethabi.Props.C122_counterexample_decode",
    "Ethabi.Props.C122_counterexample_type",
    "Ethabi.Props.C122_counterexample_large"
   ],
   "note": "C122_refused: types with a size of 2^32 or more are always refused; the other way round only a number of 2^32 or more in some type text is shown (a dropped member or component may hold it, C94, C120). structopt, the file system and serde_json's parser are outside the model, as in C85."
  },
  {
   "property": "C123",
   "status": "proved",
   "theorems": [
    "Ethabi.Props.C123_same_code",
    "Ethabi.Props.C123_encode_input",
    "Ethabi.Props.C123_constructor",
    "Ethabi.Props.C123_encode_panics",
    "Ethabi.Props.C123_decode_output",
    "Ethabi.Props.C123_parse_log",
    "Ethabi.Props.C123_filter",
    "Ethabi.Props.C123_wildcard",
    "Ethabi.Props.C123_counterexample_decode",
    "Ethabi.Props.C123_counterexample_encode",
    "Ethabi.Props.C123_returned",
    "Ethabi.Props.C123_parse_emitted",
    "Ethabi.Props.C123_parse_log_panics",
    "Ethabi.Props.C123_counterexample_log",
    "Ethabi.Props.C123_counterexample_filter"
   ],
   "note": "C54 and C55 (never panics) fail on 32 bits: C123_counterexample_decode, _encode, _log, _filter. The generator itself runs on the compiling machine and is not part of this claim."
  }
 ]
}
{
"C01": {
"note": "Hypotheses: tokens have the types, bytesN with 1<=N<=32, no T[0] of a dynamic T, encoding < 2^32 bytes, arrays < 2^32 elements (automatic for Solidity types, see _solidity). Counterexamples show the exclusions are needed."
},
"C02": {
"note": "Equality with an independently written head/tail layout (Spec/Abi.lean). Same exclusions as C01; counterexample for string[0]."
},
"C05": {
"note": "usizeOkAll: sizes in the types fit in a 64-bit usize; data shorter than 2^63 (Rust's allocation limit)."
},
"C06": {
"note": "False in general: decode panics for a dynamic T[k] whose offset points outside the data (decoder.rs:165), and in debug builds for bytesN with N close to 2^64. Proved for all types without dynamic T[k] and for all data. C06_panics_exactly says for all types (bytesN below 2^62) on which data it panics."
},
"C08": {
"note": "'Fails' includes the panic of C06: truncated data for a dynamic T[k] may panic rather than return Err."
},
"C10": {
"note": "All arrays at any nesting depth. Without the nonzero-width proviso the claim is false (counterexample proved for every n < 2^32)."
},
"C11": {
"note": "Value at any position of the argument list after successfully decoded arguments."
},
"C12": {
"note": "False in general: words 2..255 decode to false (decoder.rs:32-38 only checks the first 31 bytes). The exact behaviour is proved for all words."
},
"C15": {
"note": "Any position and nesting. Empty FixedBytes excluded (counterexample)."
},
"C17": {
"note": "False in general: tuples with too few members pass, tuples with too many members panic (token.rs:124-133). Proved where tuple arities agree, and in full for tuple-free types. C17_accepts_exactly, C17_panics_exactly and C17_refuses_exactly say for all inputs which of the three happens."
},
"C53": {
"note": "False in general: in release builds a bytes value of 2^32 bytes gets length word 0, and in any build one of 2^37-63 bytes gets a wrong length word. Proved below 4 GiB, and in debug builds for byte strings below 128 GiB. What release builds return at every size: C82."
},
"C18": {
"note": "Hash function universally quantified; same exclusions as C01, none for Solidity types (_solidity)."
},
"C19": {
"note": "Keccak-256 is a parameter of the model; the hashed text is compared with an independently written Spec.signature."
},
"C20": {
"note": "False in general: a tuple token with too few members is accepted, one with too many panics (token.rs:124-133). Proved where tuple arities agree, for every wrong argument count, and in full for tuple-free types. C20_function_outcomes and C20_constructor_outcomes say for all inputs what happens."
},
"C21": {
"note": "Same exclusions as C01."
},
"C22": {
"note": "Names must not contain '(' (always true of Solidity identifiers)."
},
"C23": {
"note": "Names must not contain '('."
},
"C24": {
"note": "False in general (four counterexamples: deep or mis-nested tuples are read back as different types, an empty member tuple is dropped, ...). Proved exactly: the round trip holds if and only if the type satisfies Spec.readable (all tuple-free types, flat tuples, and the nested tuple shapes the reader handles)."
},
"C25": {
"note": "Proved for all types; the tuple's members are compared as the JSON `tuple` placeholder, as the JSON ABI prescribes."
},
"C26": {
"note": "False in general: non-ASCII texts and texts with an unmatched closing square bracket can panic (counterexamples). Proved for ASCII texts whose square brackets close, and for all texts not ending in ')' or ']'. C92_panics_exactly says exactly on which ASCII strings it panics."
},
"C27": {
"note": "C27_counterexample_accepted: an accepted text that is not ASCII, whose array is refused."
},
"C28": {
"note": "JSON is modelled at the level of its syntax tree (serde_json's text layer is not modelled). Sizes fit in usize, which holds of every Rust value. Names of nested tuple members are dropped, as the statement says (C28_member_names_dropped gives the exact result)."
},
"C29": {
"note": "For every contract that loading can produce and every iteration order of the two maps; C29_built shows the hypotheses hold of every loaded contract."
},
"C30": {
"note": "For every list of operations; C30_loads states that loading a JSON array of well-formed operations gives exactly these operations."
},
"C31": {
"note": "Enumeration is a permutation of the declarations for any map order; per-name order is kept."
},
"C32": {
"note": "For all strings."
},
"C33": {
"note": "Solidity types, any hash function; data below 4 GiB and fewer than 2^27 topics (an EVM log has at most 4). Emitted topics and data are specified in Spec/Event.lean (Solidity's indexed-parameter encoding)."
},
"C34": {
"note": "Topic count in full; that the refusal is an Err rather than a panic needs bytesN with N < 2^62 and fewer than 2^58 topics."
},
"C35": {
"note": "For all events, duplicate names included."
},
"C36": {
"note": "False in general: parse_log goes through a HashMap keyed by name (event.rs:162), so unnamed or equally named parameters all report the last value. Proved for distinct names; C36_last_of_name says for all names which value is reported: that of the last parameter with this name, indexed ones first."
},
"C37": {
"note": "For all events, raw filters and hash functions."
},
"C38": {
"note": "False in general: tuples of the wrong length (see C17). Proved where tuple arities agree, and in full for release builds and tuple-free parameters. 'Of that parameter's type' is the type_check notion, in which bytesN values may be shorter than N. C38_outcomes says for all filters when it succeeds, fails and panics."
},
"C39": {
"note": "The emitted topics are those of the same event; C39_matches_short covers bytesN tokens shorter than N."
},
"C40": {
"note": "False for string, bytes, T[] (filter hashes the ABI encoding including offset and length words, event.rs:59-65) and for static aggregates of one word (not hashed). Proved for all other static arrays and structs. C40_what_is_hashed says what is hashed for every type, C40_exactly that this is the Solidity topic for every hash function if and only if the type is a value type or static and not one word. The counterexamples also hold with Keccak-256 itself."
},
"C41": {
"note": "Polymorphic, for all topics."
},
"C42": {
"note": "The reader of the JSON form is written in Spec/Filter.lean."
},
"C43": {
"note": "Also covers arrays with several empty byte strings; only the one-element array holding an empty byte string is left out (it prints as [])."
},
"C44": {
"note": "Exact for every text: 64 hexadecimal digits are hexadecimal, everything else decimal. Hence false for the decimal text of numbers with exactly 64 digits (lenient.rs:41 tries the strict hexadecimal form first). The empty text reads as 0."
},
"C45": {
"note": "Exact for every text; same exception as C44 for unsigned 64-digit text. Repeated minus signs are accepted."
},
"C46": {
"note": "All types and strings."
},
"C47": {
"note": "The type check passes in all cases; exact types for tuple-free types. Tuples may come out short (C50)."
},
"C48": {
"note": "False for non-ASCII text in arrays and tuples: character positions are used as byte offsets (token/mod.rs:62,75,117,129). Proved for ASCII text and for elementary types with any text. C48_panics_exactly says for all texts when it panics."
},
"C49": {
"note": "ASCII text; for other text the pieces are cut at wrong places (C49_false). Text that is not a bracketed list can be accepted (C49_malformed_accepted). C49_exactly says for every text what happens."
},
"C50": {
"note": "False: short tuples are accepted (token/mod.rs:62-100 never checks that all members were read). Proved: never too many, each member read with its own type, exact splitting for ASCII text. C50_exactly says for every text what is accepted."
},
"C57": {
"note": "Mixed nestings of arrays and tuples do not read back (C57_mixed_fail)."
},
"C51": {
"note": "Functions are chosen by Function::signature, which includes the outputs (f(bool):(uint8)). Events are chosen by the hash of the text without spaces. The contract JSON is a tree; the file and the command line are not modelled."
},
"C52": {
"note": "False for tuple values with too few members (C50): counterexample. Proved for all values filling their tuples, and without condition for types without tuples."
},
"C59": {
"note": "Surplus values are silently ignored (cli/src/main.rs:175-176 zips): counterexample for every function. Too few values: proved. encode params with an odd number of arguments panics."
},
"C62": {
"note": "H256::from_str (outside the repository) is a parameter: the topic texts are assumed to parse to the topics."
},
"C54": {
"note": "decode_output in full for the supported output types; parse_log for events with distinct names whose indexed parameters are of value types. False otherwise: an indexed string, bytes or array makes generated parse_log panic on every accepted log, and so can several unnamed parameters (counterexamples). C54_parse_log_exactly gives every outcome for all supported events and all logs: it panics exactly if the dynamic parse_log panics or reports values that are not of the declared types. C54_events_exactly says for which events no log makes it panic: exactly those in which the last parameter of each name is read as the type of every field of that name."
},
"C55": {
"note": "Conversion and type check in full. No panic in release builds for all arguments, and for both profiles when the encoding is below 4 GiB; the debug build panics on a 4 GiB bytes argument (counterexample). C55_debug_exactly: the debug build panics exactly on encodings of 4 GiB and more."
},
"C63": {
"note": "filter: release profile, all arguments; wildcard_filter: both profiles. Debug builds: C63_filter_debug_exactly, a panic exactly if a constrained value has an encoding of 4 GiB or more."
},
"C64": {
"note": "False in general: the generator camel-cases the name before the signature is computed (derive/src/event.rs:153, 171). Proved for names already in camel case; the counterexample covers every event whose name changes. C64_counterexample_keccak is the case of an event named transfer with Keccak-256 itself. With heck's conversion, C64_names says for exactly which names the signature is kept; ERC20Transfer is not one of them (C64_counterexample_heck)."
},
"C56": {
"note": "Full equality of results, entries removed at all levels at once; a parameter on its own with an undefined key is never accepted."
},
"C58": {
"note": "Objects reordered at all levels at once; equality of successful results. Which failure (error or panic of the type reader) is reported can depend on the order (C58_failures_differ)."
},
"C65": {
"note": "Type text that already lists members, e.g. (bool), is extended by the components (C65_inline_members)."
},
"C66": {
"note": "Relational induction over encoder and decoder. decode is profile independent outright for bytesN widths below 2^62."
},
"C67": {
"note": "Size function in Spec/Size.lean, independent of encoder and types. Above the payload bound the claim fails: C53_counterexample_debug."
},
"C68": {
"note": "False for the lenient tokenizer: 16 prints as 10 and reads as ten. Proved for the strict tokenizer; for the lenient one the exact set of integers read back (below 10 or at least 2^252) is proved, and that the others are rejected or read as a smaller integer."
},
"C69": {
"note": "`Naming` (heck's conversions and syn's identifier check) is a parameter: the theorem holds for every such functions."
},
"C70": {
"note": "`Implements` (Spec/Generated.lean) lists what is claimed; `Run.stuck` stands for rejection by rustc; the meaning of Rust text is Spec/RustText.lean, with moves, borrows and trait resolution not represented."
},
"C71": {
"note": "As for C70. For event parameters with `T[k]`, C72 shows that the text is not valid Rust."
},
"C72": {
"note": "`[T, k]` is shown to differ from the text of every type of the grammar `RType`, and the bounds from every `Generic`."
},
"C73": {
"note": "Validity of the whole text is not defined beyond the items' functions, types and distinct names."
},
"C74": {
"note": "bytesN widths from 2^62 are excluded (C06_counterexample_wide_bytes). String content goes through the model of from_utf8_lossy (C14)."
},
"C76": {
"note": "Exact for strings with at most one tuple; C92 is the general statement. C76_counterexample_unbalanced: with a second parenthesis an unbalanced text is accepted."
},
"C77": {
"note": "The JSON text layer is not modelled. Operations are covered as objects and as arrays; an object {\"pure\": {}} for stateMutability, which newer serde versions accept, is rejected by the model (DESIGN.md)."
},
"C79": {
"note": "An equivalence in both directions: Spec/Logs.lean says when topics and data hold values, without the decoder. The size hypotheses exclude only logs no machine can hold."
},
"C80": {
"note": "C80_integers is an equivalence for all accepted logs of events with integer topics; C80_values gives the two directions for all value types. The counterexamples show that the condition on the topics is needed."
},
"C81": {
"note": "Equivalences in all three outcomes, for every text. Spec/TokenText.lean defines depth, quotes and cuts from the text alone, without the loop."
},
"C82": {
"note": "C82_right_iff assumes the numbers are below 2^256 (no computer holds more)."
},
"C83": {
"note": "The bound holds without arrays of zero-width elements, for which C83_counterexample_zero_width shows there is none. How long decode takes: C109."
},
"C84": {
"note": "C84_expands gives the success condition and the result, C84_stops the other outcome, C84_one_file and C84_reads_only say that only that file matters, C84_later_attributes that later attributes do not, C84_use_contract is the macro of contract/. Parameters: syn's parser of an attribute, the environment variable, the files as JSON trees; PathBuf::push as on Unix."
},
"C85": {
"note": "One theorem per command, each an equivalence. C85_encode_params_layout and C85_encode_function_layout: for types without tuples the release build prints the specified layout. Parameters: structopt's argument parsing, the file system with serde_json's parser, H256::from_str, Keccak."
},
"C86": {
"note": "Exact for one level of tuples inside a tuple; C92 is the general statement. C86_counterexample_depth shows that the rule does not extend to deeper tuples. Array suffixes on the whole string: C27."
},
"C87": {
"note": "Concrete data on which a 32-bit target panics and a 64-bit target reports an error: C87_counterexample_length, C87_counterexample_offset."
},
"C88": {
"note": "The names of tuple members are not in Param and are therefore not written; C28 and C29 say what is read back."
},
"C89": {
"note": "Keccak-256 is the parameter hash; Tests/Keccak.lean has a concrete one."
},
"C90": {
"note": "An equivalence. Which ASCII type strings make the reader panic: C92."
},
"C91": {
"note": "H256::from_str is a parameter that is assumed not to panic."
},
"C92": {
"note": "An equivalence, without restrictions on the nesting; C76 and C86 are readable special cases. C92_counterexample_leftover and C92_counterexample_outside show two consequences. Non-ASCII strings: C27."
},
"C93": {
"note": "The errors of decode are in C74_errors_exactly, those of encode_input in C20, those of filter in C38. Type texts that are not ASCII: only that the name is a part of the text. What the messages say is C118."
},
"C95": {
"note": "False for texts outside ASCII: C95_counterexample_unicode reads four levels, and by C112 no polynomial bounds the size there. C78 says more about the shape of the types, for texts without the name tuple."
},
"C96": {
"note": "heck 0.3 and the check of identifiers are outside the repository; they are modelled in Model/Heck.lean from their published algorithm and checked on the examples of heck's documentation (Tests/Heck.lean)."
},
"C97": {
"note": "The exceptions are stated exactly (blur) and shown by C97_counterexample_bytes and C97_counterexample_strings."
},
"C98": {
"note": "For a successful encode; C67 says when encode succeeds. The bytes must not be empty (C98_counterexample_empty)."
},
"C99": {
"note": "serde_json is modelled as a recursive descent parser, element by element as the visitor asks for them; the grammar is stated without a parser. Texts are sequences of characters; C105 is about bytes."
},
"C100": {
"note": "False in general: type strings such as ((bool)) with components are written with more nested arrays and objects than they were read from, and more than 127 are not read (C100_counterexample). Proved exactly: the text loads if no declared type needs more than 124 nested objects and arrays (up to 61 tuples around a type), and is refused otherwise."
},
"C101": {
"note": "C42 is the same for JSON values. The text is specified character by character; reading back uses the grammar of C99."
},
"C102": {
"note": "Files are sequences of characters (UTF-8). Removes the assumption of C84, C85 and C91 that files are given as JSON values."
},
"C103": {
"note": "C103_counterexample: a bytes value of 2^26 - 32 bytes panics on 32 bits and is encoded on 64 bits; C103_limit: 32 bytes less and it is encoded. Running out of memory is not modelled."
},
"C104": {
"note": "Data of 64 bytes on which parse_log panics on 32 bits: C104_counterexample_log; a filter: C104_counterexample_filter."
},
"C105": {
"note": "The reader of serde_json is modelled from its published behaviour: bytes of a string are collected and checked with str::from_utf8 at the closing quotation mark."
},
"C106": {
"note": "The reader with a limit (`Spec.readWithin beyond n`) is the reader's body where the call after the n-th yields an arbitrary result `beyond`; being equal to the reader for every `beyond` means that this call is not made. The size of a stack frame, and hence how many calls fit a given stack, is not modelled."
},
"C107": {
"note": "Work is counted by a copy of the reader's model that adds up, over all calls, the length of the call's text plus one; its results are proved to be those of the reader. That one call takes time proportional to its text is by inspection of the source. Texts that are not ASCII are not covered; C112 shows that no polynomial bounds the work for them."
},
"C108": {
"note": "Equal contracts: same constructor and flags and the same lists under each name, as the derived PartialEq compares them (SameContract, Props/Json.lean). An element that makes the loader panic (C90) wins or loses against a refused one by its place; an example shows it."
},
"C109": {
"note": "Work: calls of decode_param, bytes copied (those of strings twice), types looked at by is_dynamic (Model/DecoderCount.lean). The bound holds without arrays of zero-width elements, for which C109_counterexample_zero_width shows there is none."
},
"C110": {
"note": "Counted: one for every call of encode_token, head_len, tail_len, head, tail and encode_head_tail, one for every token is_dynamic looks at, one for every word each time it is made or copied. The reached lower bound is for release builds (debug builds agree as long as they return)."
},
"C111": {
"note": "Counted: one for every call of tokenize and one for every byte each time a text is gone through."
},
"C112": {
"note": "the counterpart of C95 and C107 outside ASCII: no polynomial bounds the size of the type or the work"
},
"C113": {
"note": "sameShape: equal after every intN, uintN is replaced by int, uint. The names of functions and events may differ as well."
},
"C114": {
"note": "alikeAll (Spec/Significant.lean) names the significant bytes by their positions. bytesN for N below 2^62."
},
"C115": {
"note": "decodeWithin and tokenizeWithin (Model/CallDepth.lean) are the bodies of the functions where the call after the n-th yields an arbitrary result. The size of stack frames, is_dynamic (which recurses over the type as well), encode, Clone and Drop are not covered."
},
"C116": {
"note": "paddedAll (Spec/Canonical.lean) says which padding bytes must be zero. Sizes in the types fit in a 64-bit usize."
},
"C117": {
"note": "The limit applies to each function separately; frames of different functions on the stack at the same time are not added up, and the size of a frame is not modelled."
},
"C118": {
"note": "The Display and Debug texts of other crates (serde_json, std::io, ParseIntError, the quoted byte of hex) are parameters. FromHexError and the message of uint and anyhow are modelled from their documentation, as the sources are not in the repository."
},
"C119": {
"note": "usizeOkAll: sizes in the types fit in a 64-bit usize; data shorter than 2^63 bytes."
},
"C120": {
"note": "The reading of JSON text (C100) does not depend on the width for the values the crate looks at; the claim starts from the JSON value."
},
"C121": {
"note": "Lossy decoding of strings is the model's function for Rust's String::from_utf8_lossy, which C121 takes as given; other claims are about it. C121_counterexample_bool shows that bools have to be left out of C121_same_layout: a refused bool may come before a panic."
},
"C122": {
"note": "C122_refused: types with a size of 2^32 or more are always refused; the other way round only a number of 2^32 or more in some type text is shown (a dropped member or component may hold it, C94, C120). structopt, the file system and serde_json's parser are outside the model, as in C85."
},
"C123": {
"note": "C54 and C55 (never panics) fail on 32 bits: C123_counterexample_decode, _encode, _log, _filter. The generator itself runs on the compiling machine and is not part of this claim."
}
}

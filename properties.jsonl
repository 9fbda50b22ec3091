{"id": "C01", "title": "Encode/decode round trip", "statement": "For every list of ABI types and every list of tokens of exactly those types whose encoding is shorter than 2^32 bytes, decode(types, encode(tokens)) returns Ok of the same tokens.", "quantifier": "all lists of types (bytesN with 1<=N<=32, no zero-length fixed array of a dynamic type, not all zero-width) and all tokens of those types, any nesting depth and size below 4 GiB, debug and release arithmetic", "why_tests_cant": "types and values nest without bound; tests sample a few dozen shapes", "anchors": ["ethabi/src/encoder.rs:encode", "ethabi/src/decoder.rs:decode"]}
{"id": "C02", "title": "Encoding conforms to the Solidity ABI specification", "statement": "encode(tokens) is byte-for-byte the head/tail layout of the Solidity contract ABI specification: static values in place, a 32-byte big-endian offset for every dynamic value measured from the start of the enclosing tuple/array body, tails in order, 32-byte length words before bytes, string and T[].", "quantifier": "all type lists (bytesN with 1<=N<=32, no zero-length fixed array of a dynamic type), all values of these types of any nesting whose specified encoding is below 2^32 bytes, both arithmetic profiles", "why_tests_cant": "offset arithmetic over arbitrary nesting and sizes", "anchors": ["ethabi/src/encoder.rs:encode_head_tail", "ethabi/src/encoder.rs:encode_token", "ethabi/src/encoder.rs:Mediate"]}
{"id": "C03", "title": "Encoding is word aligned", "statement": "The byte string returned by encode always has a length that is a multiple of 32.", "quantifier": "all token lists, even ill-typed or oversized ones", "why_tests_cant": "unbounded inputs", "anchors": ["ethabi/src/encoder.rs:encode", "ethabi/src/encoder.rs:pad_fixed_bytes"]}
{"id": "C04", "title": "Encoding is injective for a given type list", "statement": "Two different token lists of the same types never have the same encoding, and the encoding of one is never the beginning of the encoding of the other.", "quantifier": "all type lists (bytesN with 1<=N<=32, no zero-length fixed array of a dynamic type), all pairs of value lists of these types (encodings below 4 GiB)", "why_tests_cant": "quantifies over pairs of unbounded values", "anchors": ["ethabi/src/encoder.rs:encode"]}
{"id": "C05", "title": "Decoded tokens have the requested types", "statement": "Whenever decode(types, data) returns Ok(tokens), there are exactly as many tokens as types and every token is a value of the corresponding type: same variant, bytesN has exactly N bytes, T[k] exactly k elements, tuples exactly the declared members; in particular Token::types_check(tokens, types) is true.", "quantifier": "all types and all byte strings, including malformed ones", "why_tests_cant": "malformed data is an unbounded space", "anchors": ["ethabi/src/decoder.rs:decode", "ethabi/src/token/token.rs:types_check"]}
{"id": "C06", "title": "Decoding malformed data never panics", "statement": "decode returns Ok or Err for every byte string and every list of types; it never panics.", "quantifier": "all types and all byte strings up to the maximal Rust allocation size", "why_tests_cant": "adversarial data; one unguarded slice in a rarely used type is enough to break it", "anchors": ["ethabi/src/decoder.rs:decode_param", "ethabi/src/decoder.rs:peek", "ethabi/src/decoder.rs:take_bytes"]}
{"id": "C07", "title": "Trailing bytes do not change the result", "statement": "If decode(types, data) succeeds then decode(types, data ++ extra) succeeds with the same tokens.", "quantifier": "all types, data and suffixes", "why_tests_cant": "all pairs of byte strings", "anchors": ["ethabi/src/decoder.rs:decode"]}
{"id": "C08", "title": "Truncation is detected or harmless", "statement": "If the encoding of a well-typed token list is cut short, decoding the truncated bytes either fails or returns exactly the original tokens; it never returns different tokens.", "quantifier": "all type lists (bytesN with 1<=N<=32, no zero-length fixed array of a dynamic type), all values of these types with encodings below 4 GiB, all prefixes of their encoding", "why_tests_cant": "every cut point of every encoding", "anchors": ["ethabi/src/decoder.rs:decode", "ethabi/src/encoder.rs:encode"]}
{"id": "C09", "title": "Re-encoding normalises", "statement": "If decode(types, data) = Ok(tokens) for arbitrary (possibly non-canonical) data then decode(types, encode(tokens)) = Ok(tokens).", "quantifier": "all codable types and all byte strings whose tokens re-encode below 4 GiB", "why_tests_cant": "non-canonical data is unbounded", "anchors": ["ethabi/src/decoder.rs:decode", "ethabi/src/encoder.rs:encode"]}
{"id": "C10", "title": "Array length words cannot fabricate elements", "statement": "Every array obtained by decoding T[] from n bytes of data has at most n/32 elements, whatever its length word claims, provided T occupies at least one word.", "quantifier": "all element types, all data, all offsets", "why_tests_cant": "adversarial length words", "anchors": ["ethabi/src/decoder.rs:decode_param"]}
{"id": "C11", "title": "Offsets and lengths of 2^32 or more are rejected", "statement": "A bytes, string, T[] or dynamic T[k]/tuple value whose offset word is >= 2^32 makes decode return Err(InvalidData); likewise a length word >= 2^32 for bytes, string and T[].", "quantifier": "all data, all offsets", "why_tests_cant": "2^256 possible words", "anchors": ["ethabi/src/decoder.rs:as_usize"]}
{"id": "C12", "title": "Bool decoding", "statement": "A bool word decodes to true exactly for the value 1 and to false for 0, and every other word is rejected.", "quantifier": "all 2^256 words", "why_tests_cant": "2^256 words", "anchors": ["ethabi/src/decoder.rs:as_bool"]}
{"id": "C13", "title": "Empty data is only accepted for zero-width types", "statement": "decode(types, []) returns Err(InvalidName) unless every type is bytes0 or T[0]; for an empty type list every byte string decodes to the empty token list.", "quantifier": "all type lists", "why_tests_cant": "unbounded type lists", "anchors": ["ethabi/src/decoder.rs:decode", "ethabi/src/param_type/param_type.rs:is_empty_bytes_valid_encoding"]}
{"id": "C14", "title": "Byte and string payloads survive; invalid UTF-8 is replaced, valid UTF-8 is exact", "statement": "Decoding a string field always succeeds with some String once its bytes are in range; if the bytes are the UTF-8 encoding of a string the result is exactly that string.", "quantifier": "all byte strings / all sequences of Unicode scalar values", "why_tests_cant": "unbounded strings over 1.1M scalar values", "anchors": ["ethabi/src/decoder.rs:decode_param"]}
{"id": "C15", "title": "Short fixed bytes are zero-extended", "statement": "A FixedBytes token with 1..N bytes type-checks as bytesN, and decoding its encoding as bytesN yields the bytes right-padded with zeros to length N.", "quantifier": "all N in 1..32 and all byte strings of length 1..N, in any position of the argument list", "why_tests_cant": "all positions and values", "anchors": ["ethabi/src/token/token.rs:type_check", "ethabi/src/encoder.rs:pad_fixed_bytes", "ethabi/src/decoder.rs:decode_param"]}
{"id": "C16", "title": "Static encodings have a type-determined size", "statement": "For tokens of static types the encoding length depends only on the types, contains no offset words and is the concatenation of the individual encodings.", "quantifier": "all static types of any nesting (bytesN with 1<=N<=32, no zero-length fixed array of a dynamic type) with a size below 4 GiB", "why_tests_cant": "unbounded nesting", "anchors": ["ethabi/src/encoder.rs:head_len", "ethabi/src/encoder.rs:encode"]}
{"id": "C17", "title": "Type check accepts exactly the values of the type", "statement": "Token::types_check(tokens, types) is true exactly when the tokens are values of the types (bytesN allowing shorter values), it never panics, and tuples must have the declared number of members.", "quantifier": "all tokens and all types", "why_tests_cant": "unbounded nesting", "anchors": ["ethabi/src/token/token.rs:type_check", "ethabi/src/token/token.rs:types_check"]}
{"id": "C18", "title": "Function calls round trip", "statement": "For a function whose input types are codable, encode_input(tokens) on well-typed tokens returns Ok(selector ++ args) and decode_input(args) returns the tokens.", "quantifier": "all functions and well-typed argument lists below 4 GiB, any hash function", "why_tests_cant": "unbounded argument shapes", "anchors": ["ethabi/src/function.rs:encode_input", "ethabi/src/function.rs:decode_input"]}
{"id": "C19", "title": "Call data starts with the selector of the canonical signature", "statement": "encode_input output is the first four bytes of Keccak-256 of name(type1,...,typeN) followed by encode(tokens); decode_output is decode on the output types.", "quantifier": "all functions, all token lists, any hash function", "why_tests_cant": "all signatures", "anchors": ["ethabi/src/signature.rs:short_signature", "ethabi/src/function.rs:encode_input"]}
{"id": "C20", "title": "Ill-typed arguments are rejected", "statement": "Function::encode_input and Constructor::encode_input return Err(InvalidData) for a token list that is not of the declared types (wrong count or wrong type at some position), and never panic.", "quantifier": "all token lists and parameter lists", "why_tests_cant": "unbounded", "anchors": ["ethabi/src/function.rs:encode_input", "ethabi/src/constructor.rs:encode_input", "ethabi/src/token/token.rs:types_check"]}
{"id": "C21", "title": "Constructor calls are code followed by arguments", "statement": "Constructor::encode_input(code, tokens) returns code ++ encode(tokens) on well-typed tokens, and decoding what follows the code gives the tokens back.", "quantifier": "all code byte strings and well-typed token lists", "why_tests_cant": "unbounded", "anchors": ["ethabi/src/constructor.rs:encode_input"]}
{"id": "C22", "title": "Canonical signatures are unambiguous", "statement": "Two (name, parameter type list) pairs with paren-free names that produce the same signature string name(t1,...,tn) are equal, so selectors and event topics of different declarations differ unless the hash collides.", "quantifier": "all names without '(' and all lists of types of any nesting", "why_tests_cant": "pairs of unbounded strings", "anchors": ["ethabi/src/signature.rs:fill_signature", "ethabi/src/param_type/writer.rs:write"]}
{"id": "C23", "title": "Function::signature identifies the function", "statement": "Function::signature() of two functions with paren-free names is equal only if name, input types and output types agree; the ':(outputs)' suffix is present exactly when there are outputs.", "quantifier": "all pairs of functions", "why_tests_cant": "pairs of unbounded values", "anchors": ["ethabi/src/function.rs:signature"]}
{"id": "C24", "title": "Type strings round trip", "statement": "Reader::read(Writer::write(t)) = Ok(t).", "quantifier": "all parameter types (widths below 2^64), any nesting of arrays and tuples", "why_tests_cant": "nesting is unbounded", "anchors": ["ethabi/src/param_type/reader.rs:read", "ethabi/src/param_type/writer.rs:write"]}
{"id": "C25", "title": "ABI-JSON type strings round trip", "statement": "Reader::read(Writer::write_for_abi(t, false)) is t with the members of its innermost tuple removed, for every type; together with the components list this recovers t.", "quantifier": "all parameter types of any nesting", "why_tests_cant": "unbounded nesting", "anchors": ["ethabi/src/param_type/writer.rs:write_for_abi", "ethabi/src/param.rs:inner_tuple", "ethabi/src/param.rs:set_tuple_components"]}
{"id": "C26", "title": "Type parsing terminates without panicking", "statement": "Reader::read returns Ok or Err on every string; it terminates and never panics.", "quantifier": "all strings", "why_tests_cant": "all strings", "anchors": ["ethabi/src/param_type/reader.rs:read"]}
{"id": "C27", "title": "Array suffixes bind outermost-last", "statement": "If Reader::read(s) = Ok(t) for an ASCII string s then read(s + \"[]\") = Ok(t[]) and read(s + \"[k]\") = Ok(t[k]); errors and panics of s are kept. For any other string the element type is read from the first n bytes of s, n being its number of characters, and reading panics if these end inside a character.", "quantifier": "all strings, all k below 2^64", "why_tests_cant": "all strings", "anchors": ["ethabi/src/param_type/reader.rs:119-139"]}
{"id": "C28", "title": "JSON parameters round trip", "statement": "Deserialising the JSON produced for a Param, EventParam or TupleParam yields the same value (TupleParam/Param including internalType; names of nested tuple members are not kept), for every parameter type.", "quantifier": "all parameters with any type nesting", "why_tests_cant": "unbounded nesting", "anchors": ["ethabi/src/param.rs:Param", "ethabi/src/event_param.rs:EventParam", "ethabi/src/tuple_param.rs:TupleParam"]}
{"id": "C29", "title": "JSON contracts round trip", "statement": "Deserialising the JSON produced by serialising a contract gives an equal contract, whatever order the hash maps are iterated in.", "quantifier": "all loadable contracts and all map iteration orders", "why_tests_cant": "hash map order is nondeterministic; contracts unbounded", "anchors": ["ethabi/src/contract.rs:Contract", "ethabi/src/operation.rs:Operation"]}
{"id": "C30", "title": "Overload lookup", "statement": "After loading, functions_by_name(n)/events_by_name(n) return all declarations named n in declaration order, function(n)/event(n) the first of them, and Err(InvalidName(n)) exactly when there is none; the constructor is the last one declared; fallback/receive flags are set iff declared.", "quantifier": "all operation lists and all names", "why_tests_cant": "unbounded operation histories", "anchors": ["ethabi/src/contract.rs:visit_seq", "ethabi/src/contract.rs:function", "ethabi/src/contract.rs:events_by_name"]}
{"id": "C31", "title": "Iterators visit every declaration exactly once", "statement": "functions() and events() enumerate exactly the declared functions/events, each as often as declared, whatever the map order, and overloads of one name stay in declaration order.", "quantifier": "all operation lists and all map iteration orders", "why_tests_cant": "nondeterministic order", "anchors": ["ethabi/src/contract.rs:functions", "ethabi/src/contract.rs:events"]}
{"id": "C32", "title": "Names are cut at the first parenthesis", "statement": "Deserialised function and event names are the longest prefix of the JSON name without '('; the operation is idempotent, so loaded names never contain '('.", "quantifier": "all strings", "why_tests_cant": "all strings", "anchors": ["ethabi/src/util.rs:sanitize_name"]}
{"id": "C33", "title": "Event logs parse back to the emitted values", "statement": "For an event with distinct parameter names, parsing the log emitted for given values returns every parameter in declaration order with its value; indexed string/bytes/array/tuple parameters come back as the 32-byte topic.", "quantifier": "all events (any mix of indexed/non-indexed, anonymous or not) and all well-typed values", "why_tests_cant": "all event shapes", "anchors": ["ethabi/src/event.rs:parse_log"]}
{"id": "C34", "title": "Logs with the wrong signature or topic count are rejected", "statement": "parse_log of a non-anonymous event returns Err(InvalidData) when topic 0 is absent or differs from the event signature; any event rejects a log whose remaining topic count is not the number of indexed parameters.", "quantifier": "all events and all logs", "why_tests_cant": "all logs", "anchors": ["ethabi/src/event.rs:parse_log"]}
{"id": "C35", "title": "Parsed logs list parameters in declaration order", "statement": "Whenever parse_log succeeds the result has exactly one entry per declared parameter, in declaration order, with the declared names; parse_log never panics unless decoding panics.", "quantifier": "all events, including duplicate names, and all logs", "why_tests_cant": "all logs", "anchors": ["ethabi/src/event.rs:parse_log"]}
{"id": "C36", "title": "Parsed log values do not depend on parameter names", "statement": "The value reported for a parameter is the one decoded for that position, independently of how the parameters are named (in particular for unnamed parameters).", "quantifier": "all events and logs", "why_tests_cant": "name collisions", "anchors": ["ethabi/src/event.rs:parse_log"]}
{"id": "C37", "title": "Topic filters put topics in the right slots", "statement": "filter() of a non-anonymous event yields topic0 = signature and the three raw topics in slots 1-3; of an anonymous event the raw topics in slots 0-2 and Any in slot 3; Any stays Any, a single token stays single and an alternative list keeps order and length.", "quantifier": "all events and raw filters", "why_tests_cant": "all filters", "anchors": ["ethabi/src/event.rs:filter"]}
{"id": "C38", "title": "Topic filters reject exactly the wrong topics", "statement": "filter() fails with InvalidData exactly when some non-Any raw topic has no matching indexed parameter or contains a token that is not of that parameter's type.", "quantifier": "all events and raw filters", "why_tests_cant": "all filters", "anchors": ["ethabi/src/event.rs:filter"]}
{"id": "C39", "title": "Topic filters match exactly the logs they describe (value types)", "statement": "For indexed parameters of value types a filter built from given tokens matches the topics of an emitted log exactly when, position by position, the emitted value is one of the given tokens.", "quantifier": "all events with value-type indexed params, all emitted values and all raw filters", "why_tests_cant": "all pairs of filters and logs", "anchors": ["ethabi/src/event.rs:filter"]}
{"id": "C40", "title": "Topic filters for hashed types use the Solidity topic", "statement": "For an indexed string, bytes, array or tuple parameter the topic computed by filter() is Keccak-256 of the Solidity in-place encoding of the value.", "quantifier": "all types and values", "why_tests_cant": "all values; hash preimages", "anchors": ["ethabi/src/event.rs:filter"]}
{"id": "C41", "title": "Topic container laws", "statement": "Topic::map preserves shape and commutes with conversion to Vec; From<Option>, From<T>, From<Vec> and Into<Vec> agree; is_any holds only for Any; indexing returns the i-th element of the vector and panics exactly when there is none.", "quantifier": "all topics and functions", "why_tests_cant": "polymorphic laws", "anchors": ["ethabi/src/filter.rs:Topic"]}
{"id": "C42", "title": "Topic filter JSON is faithful", "statement": "Serialising a TopicFilter gives an array of exactly four entries from which the filter can be recovered: null for Any, a 0x-prefixed 64-digit string for a hash, an array for alternatives.", "quantifier": "all topic filters", "why_tests_cant": "all filters", "anchors": ["ethabi/src/filter.rs:TopicFilter", "ethabi/src/filter.rs:Topic"]}
{"id": "C43", "title": "Hex text round trip", "statement": "Text produced by Token display for addresses, bytes, fixed bytes, bools and (nested) arrays of them tokenizes back, strictly and leniently, to the same token.", "quantifier": "all such tokens of any nesting (no empty bytes inside arrays)", "why_tests_cant": "unbounded nesting", "anchors": ["ethabi/src/token/token.rs:fmt", "ethabi/src/token/mod.rs:tokenize", "ethabi/src/token/strict.rs:tokenize_bytes"]}
{"id": "C44", "title": "Lenient decimal uint parsing", "statement": "LenientTokenizer maps the decimal text of n < 2^256 to the uint n and rejects decimal text of n >= 2^256 and text with a non-digit.", "quantifier": "all natural numbers / all strings", "why_tests_cant": "2^256 values", "anchors": ["ethabi/src/token/lenient.rs:tokenize_uint"]}
{"id": "C45", "title": "Lenient decimal int parsing", "statement": "LenientTokenizer maps the decimal text of an integer in [-2^255, 2^255) to its 256-bit two's complement and rejects integers outside.", "quantifier": "all integers", "why_tests_cant": "all integers", "anchors": ["ethabi/src/token/lenient.rs:tokenize_int"]}
{"id": "C46", "title": "Lenient extends strict", "statement": "Whenever the strict tokenizer accepts a value the lenient tokenizer accepts it with the same token, for every type.", "quantifier": "all types (any nesting) and all strings", "why_tests_cant": "all strings", "anchors": ["ethabi/src/token/lenient.rs:LenientTokenizer", "ethabi/src/token/strict.rs:StrictTokenizer"]}
{"id": "C47", "title": "Tokenized values have the requested type", "statement": "Whenever tokenize(type, text) = Ok(token), the token type-checks against the type, so encode_input accepts it.", "quantifier": "all types, all strings, both tokenizers", "why_tests_cant": "all strings", "anchors": ["ethabi/src/token/mod.rs:tokenize", "ethabi/src/token/token.rs:type_check"]}
{"id": "C48", "title": "Tokenizing never panics", "statement": "tokenize returns Ok or Err for every type and every string.", "quantifier": "all types and strings", "why_tests_cant": "all Unicode strings", "anchors": ["ethabi/src/token/mod.rs:tokenize_array", "ethabi/src/token/mod.rs:tokenize_struct"]}
{"id": "C49", "title": "Array text splits at top-level commas", "statement": "tokenize of a bracketed list tokenizes exactly the pieces between commas that are outside nested brackets and quotes, in order.", "quantifier": "all element types and all balanced element texts", "why_tests_cant": "unbounded texts", "anchors": ["ethabi/src/token/mod.rs:tokenize_array"]}
{"id": "C50", "title": "Tuple text needs exactly the declared members", "statement": "tokenize of a tuple type yields a tuple with exactly as many members as the type declares, or an error.", "quantifier": "all tuple types and strings", "why_tests_cant": "all strings", "anchors": ["ethabi/src/token/mod.rs:tokenize_struct"]}
{"id": "C51", "title": "CLI resolves functions and events unambiguously", "statement": "Given a name, the CLI uses the only function/event of that name and fails when there are none or several; given a full signature it uses the declared overload with that signature; the unreachable branch is never taken.", "quantifier": "all loaded contracts and all name arguments", "why_tests_cant": "all contracts", "anchors": ["cli/src/main.rs:load_function", "cli/src/main.rs:load_event"]}
{"id": "C52", "title": "CLI encode then decode prints the values", "statement": "decode params applied to the output of encode params with the same types prints, line by line, the type and the display text of each parsed token.", "quantifier": "all supported types and values", "why_tests_cant": "unbounded", "anchors": ["cli/src/main.rs:encode_params", "cli/src/main.rs:decode_params"]}
{"id": "C53", "title": "Oversized inputs are not silently corrupted", "statement": "encode never produces a wrong length or offset word: either the words are the true lengths and offsets or the call fails.", "quantifier": "all token lists including those with 4 GiB or more of data", "why_tests_cant": "inputs of 4 GiB and more", "anchors": ["ethabi/src/encoder.rs:pad_bytes", "ethabi/src/encoder.rs:head_len", "ethabi/src/encoder.rs:tail_len"]}
{"id": "C54", "title": "Generated decoders never hit their internal error", "statement": "For functions and events supported by the derive macro, the generated decode_output and parse_log return Ok or Err and never panic with the internal error message.", "quantifier": "all ABIs accepted by the generator, all output data and logs", "why_tests_cant": "all ABIs and data", "anchors": ["derive/src/lib.rs:from_token", "derive/src/function.rs:generate", "derive/src/event.rs:generate_event"]}
{"id": "C55", "title": "Generated encoders agree with the dynamic API", "statement": "Converting typed arguments to tokens and back is the identity and the tokens always pass the type check, so generated encode_input never panics.", "quantifier": "all supported parameter types and values", "why_tests_cant": "all values", "anchors": ["derive/src/lib.rs:to_token", "derive/src/lib.rs:from_token"]}
{"id": "C56", "title": "Unknown ABI keys do not matter inside a contract", "statement": "Loading a contract gives the same result when object entries with keys the format does not define are removed from an operation or a parameter; a parameter deserialised on its own with such a key is rejected.", "quantifier": "all JSON objects and all unknown keys and values", "why_tests_cant": "unbounded JSON", "anchors": ["ethabi/src/param.rs:visit_map", "ethabi/src/event_param.rs:visit_map", "ethabi/src/tuple_param.rs:visit_map", "ethabi/src/function.rs:Function"]}
{"id": "C57", "title": "Tuple text round trip", "statement": "Text produced by Token display for (nested) tuples of addresses, bytes, fixed bytes and bools tokenizes back, strictly and leniently, to the same token.", "quantifier": "all such tuples of any nesting (except the one-member tuple of an empty byte string)", "why_tests_cant": "unbounded nesting", "anchors": ["ethabi/src/token/token.rs:fmt", "ethabi/src/token/mod.rs:tokenize_struct"]}
{"id": "C58", "title": "Key order in ABI JSON does not matter", "statement": "Reordering the entries of a JSON object describing a parameter, function, event or constructor does not change what it deserialises to.", "quantifier": "all JSON objects and all permutations of their entries", "why_tests_cant": "unbounded JSON", "anchors": ["ethabi/src/param.rs:visit_map", "ethabi/src/event_param.rs:visit_map", "ethabi/src/tuple_param.rs:visit_map", "ethabi/src/operation.rs:Operation"]}
{"id": "C59", "title": "CLI rejects the wrong number of values", "statement": "encode function fails with an error when the number of values differs from the number of inputs of the function.", "quantifier": "all contracts, functions, value lists", "why_tests_cant": "all functions and value lists", "anchors": ["cli/src/main.rs:encode_input", "ethabi/src/function.rs:encode_input"]}
{"id": "C60", "title": "CLI encode function prints selector and arguments", "statement": "encode function prints the hex text of the four-byte selector followed by the ABI encoding of the values read from the arguments.", "quantifier": "all functions with Solidity types and all values of those types below 4 GiB", "why_tests_cant": "all functions and values", "anchors": ["cli/src/main.rs:encode_input"]}
{"id": "C61", "title": "CLI decode function prints the results", "statement": "decode function applied to the hex text of the ABI encoding of results (and anything after it) prints one line with type and value per output, in order.", "quantifier": "all functions with Solidity output types and all values below 4 GiB", "why_tests_cant": "all functions and values", "anchors": ["cli/src/main.rs:decode_call_output"]}
{"id": "C62", "title": "CLI decode log prints the parameters", "statement": "decode log applied to the topics and data of an emitted log prints one line with name and value per parameter in declaration order; an indexed parameter that is not of a value type prints its topic.", "quantifier": "all events with distinct parameter names and Solidity types, all values", "why_tests_cant": "all events and values", "anchors": ["cli/src/main.rs:decode_log"]}
{"id": "C63", "title": "Generated filters never hit their internal error", "statement": "The filter and wildcard_filter functions generated for an event never panic; filter returns what Event::filter returns for the first three arguments turned into tokens, and wildcard_filter constrains at most the signature topic.", "quantifier": "all events accepted by the generator, all arguments; filter in builds with wrapping arithmetic (release) and, for constrained values below 4 GiB, in debug builds; wildcard_filter in both", "why_tests_cant": "all events and arguments", "anchors": ["derive/src/event.rs:generate_event", "ethabi/src/event.rs:filter"]}
{"id": "C64", "title": "Generated events keep the declared signature", "statement": "The event recreated in the generated module has the signature of the event declared in the ABI, so the generated parse_log accepts the logs of the declared event.", "quantifier": "all events accepted by the generator", "why_tests_cant": "all event names", "anchors": ["derive/src/event.rs:generate_event"]}
{"id": "C65", "title": "Components define tuple members", "statement": "A JSON parameter of type tuple with any array suffixes deserialises to the arrays over the tuple of the component types in order, and is rejected without components.", "quantifier": "all suffixes with sizes below 2^64, all component documents", "why_tests_cant": "unbounded nesting of suffixes and components", "anchors": ["ethabi/src/param.rs:set_tuple_components", "ethabi/src/tuple_param.rs:visit_map", "ethabi/src/event_param.rs:visit_map"]}
{"id": "C66", "title": "Debug and release builds agree", "statement": "Whenever encode, decode, Function::encode_input, Constructor::encode_input, Event::filter or Event::parse_log does not panic in a build with overflow checks, a build without them returns the same result; decode returns the same in both builds in any case.", "quantifier": "all inputs (decode unconditionally: bytesN widths below 2^62, data below 2^63 bytes)", "why_tests_cant": "tests run in one profile; overflow needs gigabytes of data", "anchors": ["ethabi/src/encoder.rs:encode", "ethabi/src/decoder.rs:decode", "ethabi/src/event.rs:filter", "ethabi/src/event.rs:parse_log"]}
{"id": "C67", "title": "Encoding size", "statement": "encode never returns an error and, without overflow checks, never panics; for all tokens, also ill-typed ones, whose size is below 2^32 bytes it succeeds with exactly the number of bytes given by a recursive size function of the values; with overflow checks it panics exactly when the size is 2^32 or more.", "quantifier": "all token lists (panic part: every single byte string shorter than 2^37-63 bytes)", "why_tests_cant": "4 GiB inputs and unbounded nesting", "anchors": ["ethabi/src/encoder.rs:encode", "ethabi/src/encoder.rs:head_len", "ethabi/src/encoder.rs:tail_len"]}
{"id": "C68", "title": "Displayed integers are not misread", "statement": "The text Token display prints for an integer is read back by the tokenizers as the same integer or rejected, never as a different integer.", "quantifier": "all 2^256 integers, both tokenizers, uint and int of any width", "why_tests_cant": "2^256 values", "anchors": ["ethabi/src/token/token.rs:fmt", "ethabi/src/token/strict.rs:tokenize_uint", "ethabi/src/token/lenient.rs:tokenize_uint", "ethabi/src/token/lenient.rs:tokenize_int"]}
{"id": "C69", "title": "When the code generator succeeds", "statement": "The code generator of derive/ produces text exactly for contracts without tuples in the constructor, functions and events, whose converted names are all accepted as identifiers and whose outputs and event parameters have no bytesN with N of 2^32-1 or more; for every other contract it panics at compile time, and it never returns an error.", "quantifier": "all contracts, all behaviours of the name conversion", "why_tests_cant": "an unbounded set of contracts; the unit tests of derive/ generate for eleven declarations", "anchors": ["derive/src/contract.rs:generate", "derive/src/lib.rs:to_syntax_string", "derive/src/lib.rs:rust_type", "derive/src/lib.rs:from_token", "derive/src/function.rs:From", "derive/src/event.rs:From"]}
{"id": "C70", "title": "Generated functions and constructors", "statement": "The text generated for a function, read as Rust, defines function() returning the declaration without internal types, encode_input and call returning selector and encoding of the arguments (panicking when the library returns an error), and decode_output returning the decoded outputs or the library's error; the same for the constructor. It is not valid Rust exactly when a parameter name is a keyword, occurs twice, or is f or function (c or code for the constructor).", "quantifier": "all functions for which text is generated and all argument values; decoding for outputs without T[k]", "why_tests_cant": "all declarations and all argument values; derive's own tests compare text and never run it", "anchors": ["derive/src/function.rs:generate", "derive/src/constructor.rs:generate", "derive/src/lib.rs:to_token", "derive/src/lib.rs:from_token", "derive/src/lib.rs:from_template_param"]}
{"id": "C71", "title": "Generated events", "statement": "The text generated for an event, read as Rust, defines event() returning the declaration under its camel-cased name, filter and wildcard_filter returning the library's filter for the first three indexed parameters, and parse_log returning a struct with the parameters of the log or the library's error. filter is not valid Rust exactly when an indexed parameter's name is a keyword, occurs twice, or is event.", "quantifier": "all events for which text is generated, all filters and logs; parse_log for parameters without T[k] and distinct names", "why_tests_cant": "all declarations, filters and logs", "anchors": ["derive/src/event.rs:generate_event", "derive/src/lib.rs:to_token", "derive/src/lib.rs:from_token"]}
{"id": "C72", "title": "Types in generated code", "statement": "The type written for a parameter in generated code is valid Rust, and the intended type, exactly when the parameter's type contains no T[k] (at the top of an input T[k] is allowed); for the others [T, k] is written.", "quantifier": "all tuple-free types", "why_tests_cant": "types are unbounded; no test of derive/ contains T[k]", "anchors": ["derive/src/lib.rs:rust_type", "derive/src/lib.rs:template_param_type"]}
{"id": "C73", "title": "Generated contracts", "statement": "The text for a contract consists of the items for its constructor, functions and events and the log structs, with a field of the right type for every parameter; module and struct names are distinct exactly when the converted names of functions and of events are, so no contract with an overloaded function yields valid Rust.", "quantifier": "all contracts for which text is generated", "why_tests_cant": "all contracts", "anchors": ["derive/src/contract.rs:generate", "derive/src/event.rs:generate_log"]}
{"id": "C74", "title": "What decode accepts", "statement": "decode(types, data) returns Ok(tokens) exactly when the data hold these tokens at the head positions of the types: static values in place, dynamic values behind offsets below 2^32 that may point anywhere inside the enclosing data (backwards, overlapping, unaligned), arrays with a length word below 2^32 and that many elements, bool words 0..255. If there are no such tokens and no dynamic T[k] points behind the end, the result is Err(InvalidData), or Err(InvalidName) for empty data.", "quantifier": "all type lists with bytesN below 2^62 and all data shorter than 2^63 bytes", "why_tests_cant": "exact set of accepted inputs, including all non-canonical ones", "anchors": ["ethabi/src/decoder.rs:decode", "ethabi/src/decoder.rs:decode_param"]}
{"id": "C75", "title": "Decoding a prefix of the types", "statement": "If decode(types ++ more, data) succeeds then decode(types, data) succeeds with the first tokens of that result.", "quantifier": "all type lists and all data", "why_tests_cant": "unbounded", "anchors": ["ethabi/src/decoder.rs:decode"]}
{"id": "C76", "title": "The accepted type strings", "statement": "Reader::read accepts exactly the texts of a small grammar and returns the type the grammar gives them: address, bytes, bool, string, int and uint (256 bits), tuple (the empty tuple), intN, uintN, bytesN with N a decimal number below 2^64 after an optional '+', comma separated members in parentheses (empty members stand for nothing), and array suffixes [] and [N]. It panics exactly if a suffix ']' or 'N]' without its '[' starts the text or a member after well-formed members; its only errors are ParseInt and InvalidName.", "quantifier": "all ASCII strings with at most one opening and one closing parenthesis (errors: all strings)", "why_tests_cant": "infinitely many strings, accepted and rejected", "anchors": ["ethabi/src/param_type/reader.rs:Reader::read"]}
{"id": "C77", "title": "The accepted ABI JSON and its meaning", "statement": "A JSON value is accepted as a Param, EventParam, TupleParam, contract element or contract exactly if it satisfies a written-down schema, and the value obtained is the one the schema gives: each known key at most once, required keys present, strings and booleans where expected, type strings accepted by the reader, components required exactly when the type is a tuple inside arrays and appended to it, indexed and constant false and stateMutability nonpayable by default, names cut at '(', unknown keys ignored inside contracts and refused in a parameter deserialised on its own. An operation may also be an array of its type and its fields in order (constant and stateMutability optional at the end), and a stateMutability word an object with that key and null. Loading a contract panics only if one of its type strings makes the reader panic.", "quantifier": "all JSON values (syntax trees, objects possibly with repeated keys)", "why_tests_cant": "infinitely many documents; key order, repetition and nesting are unbounded", "anchors": ["ethabi/src/param.rs:Deserialize for Param", "ethabi/src/event_param.rs:Deserialize for EventParam", "ethabi/src/tuple_param.rs:Deserialize for TupleParam", "ethabi/src/operation.rs:Operation", "ethabi/src/function.rs:Function", "ethabi/src/event.rs:Event", "ethabi/src/contract.rs:Deserialize for Contract"]}
{"id": "C78", "title": "How deep the type reader can nest tuples", "statement": "If Reader::read accepts a text, the type has tuples nested at most three deep; under its arrays it is elementary or a tuple each of whose members is free of tuples, an array over a nonempty tuple of tuple-free members, or a tuple whose last member alone is such an array or tuple. Deeper texts are rejected or silently flattened.", "quantifier": "all ASCII texts without the letter p (only the type name `tuple` contains one), with any nesting of parentheses", "why_tests_cant": "texts and nesting are unbounded; the loop keeps its state across members", "anchors": ["ethabi/src/param_type/reader.rs:read"]}
{"id": "C79", "title": "Exactly which logs parse_log accepts and what it reports", "statement": "parse_log returns Ok exactly if the event is anonymous or the first topic is the hash of its signature, the remaining topics are as many as the indexed parameters, the concatenated topics hold values of the topic types and the data hold values of the other types; the report then lists the parameters in declaration order, each with the value of the last parameter of its name (indexed ones first). It panics exactly if the topics are in order and the data make the decoder overrun at a dynamic T[k]. Everything else is refused with InvalidData or the empty-data message.", "quantifier": "all events whose bytesN have N < 2^62, all logs with fewer than 2^58 topics and less than 2^63 bytes of data, both build profiles, every hash function", "why_tests_cant": "events, topics and data are unbounded; tests cannot show that no other log is accepted", "anchors": ["ethabi/src/event.rs:parse_log"]}
{"id": "C80", "title": "Filters and parsed logs agree", "statement": "The filter without conditions matches exactly the topic lists whose first topic is the signature hash (all lists for anonymous events), in particular every log parse_log accepts. If a filter built from typed values matches an accepted log, the values parse_log reports for the indexed parameters are among those asked for, position by position; conversely, asking for the reported values matches whenever each topic is the encoding of some value, which always holds for integers. It fails for topics no contract emits (a bool topic 2) and for indexed dynamic types, whose reported value the filter refuses.", "quantifier": "all events, all hash functions, all logs accepted by parse_log (emitted or not), all filters; values: distinct parameter names and indexed parameters of Solidity value types", "why_tests_cant": "the log is adversarial: topics are arbitrary words, not those of an emitted log", "anchors": ["ethabi/src/event.rs:filter", "ethabi/src/event.rs:parse_log"]}
{"id": "C81", "title": "Exactly which texts the tokenizers accept, and as which values", "statement": "A tokenizer returns a value for a text exactly if the text denotes it: hexadecimal digits in pairs for addresses and byte strings, true/1/false/0, 64 hexadecimal digits (lenient: otherwise decimal numerals in range) for integers, the text itself for strings; lists in brackets whose brackets never close more than they opened and whose quotes close, cut at the commas and closing brackets at depth one outside quotes, with character positions taken as byte positions; each part denotes an element (tuples: of the member's type, at most as many parts as members). It panics exactly if a cut falls inside a character before any earlier part fails. Everything else is an error.", "quantifier": "all types, all texts (ASCII or not), both tokenizers", "why_tests_cant": "texts and nesting are unbounded; tests cannot show that no other text is accepted", "anchors": ["ethabi/src/token/mod.rs:tokenize", "ethabi/src/token/mod.rs:tokenize_array", "ethabi/src/token/mod.rs:tokenize_struct"]}
{"id": "C82", "title": "Encoding data of any size", "statement": "For every list of values of the given types, whatever its size, encode in a release build returns the specified ABI layout with every length and offset reduced modulo 2^32 and everything else as specified; hence it is the specified encoding exactly if all lengths and offsets are below 2^32. A debug build returns the same or panics. Call data is the selector followed by that.", "quantifier": "all type lists (bytesN 1..32, no T[0] of dynamic T), all values of these types of any size, both arithmetic profiles", "why_tests_cant": "values of 4 GiB and more cannot be enumerated", "anchors": ["ethabi/src/encoder.rs:encode", "ethabi/src/encoder.rs:encode_head_tail", "ethabi/src/util.rs:pad_u32", "ethabi/src/function.rs:encode_input"]}
{"id": "C83", "title": "The size of decoded values is bounded by the data and the types", "statement": "If decode succeeds, the returned values (one unit per token plus one per payload byte, strings counted in UTF-8) weigh at most a bound that depends only on the types and the length of the data, however the offsets overlap: bytes at most the data, string at most three times the data, T[] at most one element per 32 bytes. The bound is a polynomial in the data length whose degree is the number of nested dynamic layers. Repeated offsets do amplify: 64n+96 bytes decode as bytes[] to more than 32n^2 payload bytes. For arrays of zero-width elements no bound exists.", "quantifier": "all type lists without arrays of zero-width elements and all byte strings shorter than 2^63", "why_tests_cant": "a test decodes particular data; the worst case over all overlapping layouts needs a proof", "anchors": ["ethabi/src/decoder.rs:decode", "ethabi/src/decoder.rs:decode_param"]}
{"id": "C84", "title": "Which contract the macros generate code for", "statement": "derive(EthabiContract) and use_contract! produce exactly the text generated for the contract in one file: the path given by the first option called path of the first attribute called ethabi_contract_options, seen from the directory of the manifest (an absolute path as it is). They do so exactly if there is such an attribute in list form with a string for that option, the directory is known, the file can be opened, is JSON, loads as a contract and satisfies the condition of C69; in all other cases compilation stops. Attributes that do not parse, other attributes, later attributes and other files make no difference.", "quantifier": "all attribute lists, all file contents, all environments, all behaviours of the name conversion", "why_tests_cant": "the attributes, paths and files form an unbounded set; the tests of derive/ start behind this step", "anchors": ["derive/src/lib.rs:ethabi_derive", "derive/src/lib.rs:impl_ethabi_derive", "derive/src/lib.rs:get_options", "derive/src/lib.rs:get_option", "derive/src/lib.rs:str_value_of_meta_item", "derive/src/lib.rs:normalize_path", "contract/src/lib.rs:use_contract"]}
{"id": "C85", "title": "Exactly what the commands of the tool print", "statement": "For every command: decode params prints one line with type and value for each value exactly if the type texts can be read and the data are hexadecimal and hold values of the types (C74), and panics exactly if a type text panics before one is refused or the data overrun a dynamic T[k]; decode function the same for the outputs of the function the file declares under the given name or signature; decode log prints name and last value held under that name for each input, exactly if the topics parse and topics and data hold values (C79); encode params prints the lower case hexadecimal text of the encoding exactly if the arguments are pairs of a type and a text denoting a value of it (C81) and encode returns; encode function the same after the selector, ignoring surplus values. Files that cannot be opened, are not JSON or do not declare operations give no output.", "quantifier": "all commands, all files, all texts, both build profiles (data below 2^63 characters, bytesN with N below 2^62)", "why_tests_cant": "inputs are unbounded texts; the unit tests run 25 command lines", "anchors": ["cli/src/main.rs:execute", "cli/src/main.rs:encode_input", "cli/src/main.rs:encode_params", "cli/src/main.rs:decode_call_output", "cli/src/main.rs:decode_params", "cli/src/main.rs:decode_log", "cli/src/main.rs:load_function", "cli/src/main.rs:load_event"]}
{"id": "C86", "title": "The accepted strings of tuples with tuples inside", "statement": "For a tuple string whose members contain at most one parenthesised list each (the list itself free of parentheses), Reader::read returns exactly the tuple of what the members stand for: a member without parentheses stands for its type or, if empty, for nothing; a member pre(a,..,z)post with a non-empty last piece stands for the type (a,..,z)post, whatever the text pre; one whose list ends in an empty piece is dropped, and post is then a member of its own. It is refused if some member stands for nothing of this kind, and panics exactly if a suffix ']' or 'N]' without its '[' starts a member, a piece or the text after a dropped list after well-formed ones.", "quantifier": "all tuple strings built from ASCII texts without parentheses and commas, any number of members, any number of pieces in each list", "why_tests_cant": "infinitely many strings; tests list a few well-formed nested tuples and no malformed ones", "anchors": ["ethabi/src/param_type/reader.rs:Reader::read"]}
{"id": "C87", "title": "decode on 32-bit targets", "statement": "On a target whose usize has 32 bits (wasm32) decode returns Ok with exactly the same values as on a 64-bit target, for all types (bytesN with N < 2^30) and all data such a target can hold (fewer than 2^31 bytes). It panics exactly if the 64-bit code panics or it meets, after reading everything in front of it, the offset word of a bytes, string or T[] that is 2^32-32 or more, or the length word of a bytes or string at o with o+32+length >= 2^32; both profiles panic there, while a 64-bit target returns Error::InvalidData. In all other cases the error is the same as on a 64-bit target. So \"malformed data give an error\" is false on 32-bit targets.", "quantifier": "for all type lists, all data of fewer than 2^31 bytes, both profiles", "why_tests_cant": "Tests run on 64-bit hosts; the difference needs words near 2^32 at particular places.", "anchors": ["ethabi/src/decoder.rs:19-30", "ethabi/src/decoder.rs:65-87", "ethabi/src/decoder.rs:89-216"]}
{"id": "C88", "title": "The ABI JSON that is written", "statement": "Serialising writes exactly these JSON objects, each key once: a parameter has name, type, components exactly if its type is a tuple below its array suffixes, and internalType exactly if it has one; an event parameter has name, type, components likewise, and indexed; a tuple member on its own has its name only if it has one. The type string is the elementary name or tuple, with [] and [k] appended from the inside out; components lists the members, each with its type and again its components, but without names. A function always has type, name, inputs, outputs, constant and stateMutability, an event type, name, inputs and anonymous, a constructor type and inputs, receive and fallback only type. A contract is the array of its constructor, functions, events, receive and fallback, as far as it has them. Type string and components determine the type and different parameters are written differently.", "quantifier": "for all parameters, operations and contracts, all types and sizes", "why_tests_cant": "Every nesting of arrays and tuples has to be written correctly; the repository compares a handful of strings.", "anchors": ["ethabi/src/param.rs:95-177", "ethabi/src/event_param.rs:95-110", "ethabi/src/tuple_param.rs:96-115", "ethabi/src/function.rs:20-37", "ethabi/src/event.rs:22-30", "ethabi/src/constructor.rs:14-18", "ethabi/src/operation.rs:15-33", "ethabi/src/contract.rs:83-136", "ethabi/src/param_type/writer.rs:23-51", "ethabi/src/state_mutability.rs:5-18"]}
{"id": "C89", "title": "Selectors and topics from the JSON", "statement": "Take a function entry of an ABI JSON whose parameters have elementary type strings, or tuple with components, nested to any depth, each followed by any array suffixes. It loads, and every call it encodes starts with the first four bytes of the hash of name(t1,...,tn), where int and uint are written int256 and uint256, and tuple is replaced by the parenthesised types of its components. Function::signature is that text, followed by a colon and the output types in parentheses if there are outputs. An event entry loads likewise, its signature is the hash of that text, and the filters of an event that is not anonymous ask for this topic. The name is cut at its first parenthesis.", "quantifier": "for all names, key orders, further keys, nestings, suffixes and sizes below 2^64, and every hash function", "why_tests_cant": "The text is assembled by the reader, the deserialisers and the writer together; the tests check a few signatures.", "anchors": ["ethabi/src/signature.rs:15-33", "ethabi/src/function.rs:41-61", "ethabi/src/function.rs:80-89", "ethabi/src/event.rs:43-105", "ethabi/src/param.rs:36-92", "ethabi/src/event_param.rs:32-93", "ethabi/src/tuple_param.rs:36-94", "ethabi/src/param_type/reader.rs:24-144", "ethabi/src/param_type/writer.rs:14-51", "ethabi/src/util.rs:20-40"]}
{"id": "C90", "title": "Exactly when loading an ABI panics", "statement": "Deserialising a contract panics exactly if one of its elements crashes and every element before it denotes an operation. An element crashes if its kind is known and, after entries in order, its inputs or outputs hold a parameter that crashes behind parameters in order. A parameter crashes if, after entries in order, its type is a string on which Reader::read panics, or its components hold a member that crashes behind members in order. The same is proved for parameters, event parameters and tuple members alone. Every other JSON is loaded (C77) or refused with an error.", "quantifier": "all JSON trees", "why_tests_cant": "A panic needs a type string of the right form behind entries in the right order; tests only load well-formed files.", "anchors": ["ethabi/src/contract.rs:36-81", "ethabi/src/operation.rs:15-33", "ethabi/src/function.rs:20-37", "ethabi/src/event.rs:22-30", "ethabi/src/constructor.rs:14-18", "ethabi/src/param.rs:36-92", "ethabi/src/event_param.rs:32-93", "ethabi/src/tuple_param.rs:36-94", "ethabi/src/param_type/deserialize.rs:17-43", "ethabi/src/param_type/reader.rs:16-166"]}
{"id": "C91", "title": "Exactly when the commands of the tool panic", "statement": "decode function panics exactly if loading the file does (C90), or the file declares the function, the data are hexadecimal and overrun a dynamic T[k] among its outputs (C06). decode log panics exactly if loading does, or topics and data can be read, the topics are in order and the data overrun. encode params panics exactly if the number of arguments is odd, or reading a type text panics before another is refused, or all types can be read and a value text breaks (C81) after texts that denote values, or everything can be read and encode panics. encode function panics exactly if loading does, or a value text breaks after texts that denote values, or there are enough values, all denote, and encode panics. In a release build encode never does. (decode params: C85.)", "quantifier": "all commands, all files, all texts, both build profiles (data below 2^63 characters, bytesN with N below 2^62, fewer than 2^58 topics)", "why_tests_cant": "The tests run the commands with well-formed arguments.", "anchors": ["cli/src/main.rs:68-93", "cli/src/main.rs:95-159", "cli/src/main.rs:161-250"]}
{"id": "C92", "title": "Exactly which ASCII type strings are accepted, however they are parenthesised", "statement": "For every ASCII string, Reader::read accepts it, panics on it or refuses it exactly as a set of rules over the text cut at its parentheses and commas says; the accepted type is the one of the rules. Among others: text before an inner parenthesis is ignored; an innermost list (T1,...,Tn) with array suffixes directly in the tuple is a member; an innermost list further inside is put, as a tuple, behind the members kept for the parenthesis around it, and that tuple becomes a member of the whole; members kept and not used are put into the next such tuple; a list closed after a non-empty last piece that does not belong to the last opened parenthesis is refused; after the outer parenthesis is closed, pieces before commas are ignored, a closing parenthesis is refused, and an opening one is accepted only if another one follows. It panics exactly if a piece that is read starts with an array suffix without its opening bracket.", "quantifier": "all ASCII strings and all types", "why_tests_cant": "The strings that are wrongly accepted or wrongly understood are unusual nestings; tests only read well-formed types.", "anchors": ["ethabi/src/param_type/reader.rs:16-166"]}
{"id": "C93", "title": "Which error is returned", "statement": "The error of each refusal is determined. Tokenizers: rules over the text give the error of every refused text: Hex for texts that are not hex, InvalidData for hex of another length, unknown booleans, lists without their brackets or with brackets that do not match and wrong numbers of parts, Other for decimal numbers out of range, and in lists that of the first part that is refused. Types: an ASCII type text without tuples is refused with ParseInt exactly if the last refused suffix, or the rest of a name beginning with int, uint or bytes, is no number, and with InvalidName holding the rest in front of the suffixes otherwise. With tuples the text is cut at its parentheses and commas and reading stops at the first refused part, with that part's error: a member, the text from the last opening parenthesis of an inner tuple to the next comma or parenthesis, or the text behind the closed tuple; a closing parenthesis too many or an unopened tuple gives InvalidName with the whole text. These rules give exactly one error for every refused ASCII text. For every text the name in InvalidName is a part of that text. Logs: parse_log returns the error for empty data exactly if the log is signed and there is nothing to read though values are expected (no argument topics, or topics in order and no data), and InvalidData in every other case in which it returns an error. Loading: every error is a serialization error.", "quantifier": "all texts, types, logs (data below 2^63 bytes, integer widths at most 256) and JSON values", "why_tests_cant": "Tests assert is_err, or compare one error; which of several failing checks comes first is seen only when two fail at once.", "anchors": ["ethabi/src/token/mod.rs:27-210", "ethabi/src/token/strict.rs:20-76", "ethabi/src/token/lenient.rs:22-70", "ethabi/src/param_type/reader.rs:16-166", "ethabi/src/event.rs:104-185", "ethabi/src/contract.rs:30-107"]}
{"id": "C94", "title": "Type strings on 32-bit targets", "statement": "Where usize has 32 bits, Reader::read does what it does on a 64-bit target, errors and panics included, or returns ParseInt; the latter only if the text holds a number of 2^32 or more. Types that it returns are those of a 64-bit target and have sizes below 2^32; a text whose type has a larger size is refused with ParseInt. For texts without tuples this is exact: accepted are the texts of the type grammar whose sizes are below 2^32. With tuples it is not: a member that is dropped has to fit as well.", "quantifier": "all texts", "why_tests_cant": "The tests run on one target; numbers of 2^32 or more occur in no test.", "anchors": ["ethabi/src/param_type/reader.rs:16-166"]}
{"id": "C95", "title": "Types are not larger than their texts", "statement": "If Reader::read returns a type for an ASCII text, the type holds at most as many types (itself and all its members and elements) as the text has characters, although members can be read twice; and tuples with members are nested at most three deep in it. A type whose tuples are nested four deep is therefore never read back from its own text, the one that ParamType prints and that signatures contain.", "quantifier": "all ASCII texts, all types", "why_tests_cant": "A bound on the result for every text; the tests go to two levels of nesting, where nothing is lost.", "anchors": ["ethabi/src/param_type/reader.rs:16-166", "ethabi/src/param_type/writer.rs:16-51"]}
{"id": "C96", "title": "Names in generated code", "statement": "For names over the characters of Solidity identifiers, with heck's conversions: the generator produces text exactly if (besides what C69 demands of the types) every function, event and named parameter has a letter as the first letter or digit of its name, and panics otherwise. Words start at the start of a name, after _ and $, at a capital after a small letter, and at a capital after a capital if a small letter follows (digits in between do not count); camel case has capitals exactly where words start, snake case has underscores exactly between words. Snake case keeps letters and digits in order, in lower case, with single underscores between words, and keeps exactly the names that have this shape already. Camel case changes only the case of letters and drops the rest; it keeps exactly the names whose first character is not a small letter and whose further capitals follow a small letter or stand between a capital and a small letter, so exactly for these events does the generated code keep the declared signature. Underscores around a name are lost, so names that differ by them only clash.", "quantifier": "all names over letters, digits, _ and $; all contracts with such names", "why_tests_cant": "The tests generate code for a few fixed contracts; which of the unboundedly many names clash, are lost or make the macro panic is a statement about all of them.", "anchors": ["derive/src/lib.rs:320-326", "derive/src/function.rs:152", "derive/src/event.rs:42-68", "derive/src/event.rs:140-171", "derive/Cargo.toml:15"]}
{"id": "C97", "title": "Printed values determine the values", "statement": "Two values of one type that contains no string are printed as the same text exactly if they are the same, except that an empty bytes[] (or bytes0[]) is printed like one with a single empty element. So two inputs for which `decode params` prints the same carry the same values, up to this exception. Strings inside arrays and tuples are printed without quotes and escapes, so there different values can be printed alike.", "quantifier": "all types of any nesting without string, all values of these types; all inputs of decode params", "why_tests_cant": "That no two of the infinitely many values of a type are printed alike is a statement about all pairs of values; tests compare a few printed values with the expected text.", "anchors": ["ethabi/src/token/token.rs:66-86", "cli/src/main.rs:217-230"]}
{"id": "C98", "title": "Tuples and arrays are coded like lists of values", "statement": "encode of a tuple or fixed array is encode of the list of its members, after the offset 32 if a member is dynamic; encode of an array is the offset 32, the number of elements and encode of the list of elements. decode of one tuple, T[k] or T[] gives exactly what decode of the list of its member types (k times or n times T) gives on the bytes behind the offset and, for T[], the length word: the same values, the same error or the same panic, whatever these bytes and the offset are.", "quantifier": "all values (also ill-typed ones) and all types of any nesting; all non-empty data, offsets and lengths below 2^32; debug and release arithmetic", "why_tests_cant": "An equation between two calls of the coder for all values and all, also malformed, data; tests check fixed values.", "anchors": ["ethabi/src/encoder.rs:52-175", "ethabi/src/decoder.rs:141-216"]}
{"id": "C99", "title": "ABI texts", "statement": "Contract::load accepts exactly the JSON texts (RFC 8259: white space, escapes with surrogate pairs, numbers, any order and repetition of keys) with at most 127 nested arrays and objects whose value is a contract (C77), and gives what deserialising this value gives; white space, escapes and the layout of numbers do not matter, and no text has two values. It panics exactly if the text starts like an array whose first elements are operations and whose next element crashes (C90), even if what follows is not JSON. Every other text is refused with a serialization error. What serde_json::to_string writes for a value is read back as this value exactly if at most 127 arrays and objects are nested.", "quantifier": "all texts; which numbers are too large for a floating point number is a parameter", "why_tests_cant": "A grammar has infinitely many texts; tests load a few files.", "anchors": ["ethabi/src/contract.rs:36-82", "ethabi/src/contract.rs:140-142", "ethabi/src/errors.rs:20-22"]}
{"id": "C100", "title": "Contract texts round trip", "statement": "A contract that was loaded from a text and is written with serde_json::to_string, whatever order its maps are iterated in, loads again from this text and gives an equal contract; so does every other text of the same JSON value.", "quantifier": "all texts and contracts, all orders of the maps", "why_tests_cant": "Needs deeply nested types, which no test has.", "anchors": ["ethabi/src/contract.rs:36-136", "ethabi/src/param.rs:95-177"]}
{"id": "C101", "title": "The JSON text of a topic filter", "statement": "serde_json::to_string of a TopicFilter is exactly an array of the four slots in order, without white space: null for Any, \"0x\" and 64 lower-case hexadecimal digits in quotation marks for one hash, an array of such texts for several. It is a JSON text, the filter can be read back from it, so filters with the same text are equal (Any, an empty list, a list of one hash and that hash are all different), and it consists of ASCII characters without white space.", "quantifier": "all filters, all list lengths", "why_tests_cant": "Tests compare one filter with one text.", "anchors": ["ethabi/src/filter.rs:26-45", "ethabi/src/filter.rs:117-132"]}
{"id": "C102", "title": "Commands and macros on file texts", "statement": "On files given as texts every command of the tool does what it does on the JSON values of the texts (C51, C59-C62, C85, C91): the same output, errors and panics; a file that is not JSON gives an error, except that the command panics if the text starts like an array whose first elements are operations and whose next one crashes the type reader. The output depends only on the JSON value of the file, not on its layout. The derive macro generates for a text what it generates for its value (C84) and stops otherwise.", "quantifier": "all commands, all attributes, all files and texts, both build profiles", "why_tests_cant": "Needs files that are broken after a crashing operation.", "anchors": ["cli/src/main.rs:73-246", "derive/src/lib.rs:27-43", "ethabi/src/contract.rs:140-142"]}
{"id": "C103", "title": "encode on 32-bit targets", "statement": "On a target whose usize has 32 bits (wasm32) encode returns exactly what it returns on a 64-bit target, unless the heads of the top-level values or their tails take 64 MiB (2^26 bytes) or more: then it panics with a capacity overflow, in both profiles, although the result would fit in memory (encode_head_tail reserves as many words as there are bytes). The same holds of Function::encode_input and Constructor::encode_input, whose errors stay the same. So \"encode does not panic below 4 GiB\" is false on 32-bit targets; on 64-bit targets the reservations never overflow.", "quantifier": "all token lists whose encoding is below 4 GiB (in debug builds: without this limit), both profiles", "why_tests_cant": "Needs a 32-bit target and values of 64 MiB.", "anchors": ["ethabi/src/encoder.rs:105-121", "ethabi/src/function.rs:51-61", "ethabi/src/constructor.rs:27-35"]}
{"id": "C104", "title": "Calls, filters and logs on 32-bit targets", "statement": "On a 32-bit target decode_output and decode_input return Ok with exactly the values of a 64-bit target, and parse_log accepts exactly the same logs with the same reports. parse_log differs only if the topics are in order and the data contain an offset or length that reaches 2^32 (C87): it panics, where a 64-bit target reports InvalidData; topics never cause this. filter gives the same result if every value asked for takes less than 64 MiB, and panics, where a 64-bit target succeeds, if one takes more. Values of Solidity types whose encoding is below 64 MiB come back from encode and decode, whichever of the two kinds of target encodes and whichever decodes.", "quantifier": "all functions and events whose bytesN have N < 2^30, all data of fewer than 2^31 bytes, fewer than 2^26 topics, all raw filters, both profiles, every hash function", "why_tests_cant": "Needs a 32-bit target and hostile data.", "anchors": ["ethabi/src/event.rs:54-173", "ethabi/src/function.rs:64-71"]}
{"id": "C105", "title": "ABI files as bytes", "statement": "Contract::load succeeds on a file exactly if its bytes are the UTF-8 encoding of a JSON text whose value is a contract, and the contract is that of the text. On any other bytes it returns a JSON error, unless the bytes start like an array whose first elements are operations and whose next one crashes the reader (C90): then it panics, whatever follows, UTF-8 or not. The command line tool and the derive macro do on files of bytes what they do on their JSON values; a file that is not UTF-8 never gives output or code.", "quantifier": "all files (any bytes), all paths, commands and options, every hash function, both profiles, every set of numbers allowed", "why_tests_cant": "Needs all byte sequences, among them truncated and overlong sequences inside and outside strings and next to escapes.", "anchors": ["ethabi/src/contract.rs:53-82", "ethabi/src/contract.rs:140-142", "ethabi/src/operation.rs:15-33", "cli/src/main.rs:73-93", "derive/src/lib.rs:27-43"]}
{"id": "C106", "title": "How many calls of the type reader are under way at a time", "statement": "Reader::read calls itself, and has at most as many calls of itself under way at a time as the text has `]`, plus three, when the text is ASCII: nested parentheses never take more than three. For other texts the number of bytes plus one is enough, and the ASCII bound does not hold. The text `bool` followed by k times `[]` is accepted and takes exactly k + 1 calls, so no fixed amount of stack is enough for all texts.", "quantifier": "all texts, all limits on the number of calls, every behaviour when the limit is exceeded", "why_tests_cant": "Nesting is unbounded, and texts that are refused late can nest as deep as accepted ones; a test shows the depth of one text.", "anchors": ["ethabi/src/param_type/reader.rs:16-166"]}
{"id": "C107", "title": "The work of the type reader", "statement": "Reader::read goes, in all its calls together, through at most 3 (b + 3) (n + 1) characters of an ASCII text with n characters, b of them `]`: quadratic work in the worst case, linear without brackets, whether the text is accepted, refused or makes the reader panic, and however its parentheses are nested. The text `bool` followed by k times `[]` takes exactly (k + 1) (k + 5), so the square is reached.", "quantifier": "all ASCII texts", "why_tests_cant": "The worst case over all texts of a length is not found by trying some; members of inner lists are read twice, so that exponential work is conceivable.", "anchors": ["ethabi/src/param_type/reader.rs:16-166"]}
{"id": "C108", "title": "The order of the operations of an ABI", "statement": "Two ABIs that load give equal contracts exactly if they declare the same functions of each name in the same order, the same events of each name in the same order, the same last constructor, and both or neither a receive and a fallback function. So reordering an ABI without overloads and with at most one constructor gives an equal contract; exchanging two neighbours gives an equal contract exactly if they are equal, or not overloads of one function or event and not both constructors, or constructors that a later one replaces. An ABI put together from two loads exactly if both do, and answers each name with the entries of the first followed by those of the second. Whether an ABI loads does not depend on the order, nor does the error if no element makes the loader panic. The commands of the tool do not tell ABIs with equal contracts apart.", "quantifier": "all JSON arrays, all reorderings, all names and arguments", "why_tests_cant": "There are factorially many orders of an ABI, and the elements in between may be anything.", "anchors": ["ethabi/src/contract.rs:36-81", "ethabi/src/contract.rs:97-130", "cli/src/main.rs:95-159"]}
{"id": "C109", "title": "The work of decode", "statement": "However the offsets in the data overlap, and whether the data are read, refused or make it panic, decode calls itself and copies bytes no more often than a bound in terms of the types and the length of the data allows. The bound is a polynomial in the length whose degree is the number of nested dynamic layers of the types; for types without bytes, string and T[] it does not depend on the data. The values returned weigh at most twice the work. 64n+96 bytes can take 16n^2 steps as bytes[]; with arrays of zero-width elements 64 bytes can take as many steps as the length word says.", "quantifier": "all type lists without arrays of zero-width elements and all byte strings shorter than 2^63", "why_tests_cant": "Malicious data are not found by trying some; a refused input may take more work than any accepted one.", "anchors": ["ethabi/src/decoder.rs:41-216", "ethabi/src/param_type/param_type.rs:56-65"]}
{"id": "C110", "title": "The work of encode", "statement": "For every list of values, whether it returns or panics, encode makes at most 2 + (15 + 10 d) n calls and copies of words, where n is the size of the values (the words of their payloads and at least one for every value) and d is how deeply arrays and tuples are nested. It takes at least n/2, and one for every word returned. The depth does count: k arrays, one inside the other, have size 2k, an encoding of 64k bytes and take at least k^2 steps, because the tails are measured and copied once more at every level.", "quantifier": "all lists of values, both build profiles", "why_tests_cant": "Tests do not measure work, and values nested deeply enough to show the quadratic growth are not tried.", "anchors": ["ethabi/src/encoder.rs:42-174", "ethabi/src/token.rs:216-223"]}
{"id": "C111", "title": "The work of the tokenizers", "statement": "For every type and every text, ASCII or not, whether the text is read, refused or makes them panic, both tokenizers take at most 3 (d + 1) (n + 1) steps, where n is the number of bytes of the text and d is how many arrays and tuples of the type lie inside one another. The depth does count: [[...[x]...]] with k pairs of brackets has 2k+1 bytes and takes exactly 2k^2+5k+2 steps as string[]...[].", "quantifier": "all types, all texts, both tokenizers", "why_tests_cant": "Tests do not measure work; a piece handed on twice or a rest that is read again would only show on texts nobody tries.", "anchors": ["ethabi/src/token/mod.rs:23-155", "ethabi/src/token/strict.rs:15-65", "ethabi/src/token/lenient.rs:20-75"]}
{"id": "C112", "title": "Type texts outside ASCII: size of the type and work beyond every power of the length", "statement": "Reader::read uses positions counted in characters as positions in bytes. Because of that a text outside ASCII can make it read the same part of the text many times over, and the parts of that part again. For every d and k >= 1 there is a text of at most 6 * 5^d * k bytes that Reader::read accepts and whose type holds at least k^d / d! types; so for all numbers c and e there is a text s with a type that holds more than c * |s|^e types. The reader goes through at least as many characters as the type holds types, for whatever text, so its work is not bounded by c * |s|^e either. ASCII texts behave: there the size is linear (C95) and the work quadratic (C107).", "quantifier": "all c, e (no polynomial bound); all accepted texts (lower bound of the work)", "why_tests_cant": "The texts have to be built level by level, with the number of two-byte letters, of parentheses and of zeros fitting each other to the byte; random texts outside ASCII hardly ever get through the reader, and a family of texts beyond every polynomial cannot be run.", "anchors": ["ethabi/src/param_type/reader.rs:16-166"]}
{"id": "C113", "title": "The widths of integers do not matter, except in signatures", "statement": "Types that differ only in the N of intN and uintN are treated alike: decode returns the same values, errors and panics for all data, the check of arguments and both tokenizers accept the same, encode_input yields the same bytes behind the selector, parse_log and filter the same results apart from the signature topic, and the tool's `encode params` prints the same. In particular no value is out of range: a uint8 parameter takes, and decode returns for it, every 256-bit value. Only the signature text tells the types apart.", "quantifier": "all types, data, values, texts, events and logs", "why_tests_cant": "A test shows for one type and one value that the width is not checked; that nothing anywhere in these operations looks at it is a statement about all types, including those nested in arrays and tuples, and all inputs.", "anchors": ["ethabi/src/decoder.rs:89-216", "ethabi/src/token/token.rs:91-135", "ethabi/src/token/mod.rs:22-36", "ethabi/src/function.rs:50-61", "ethabi/src/event.rs:53-173", "cli/src/main.rs:184-197"]}
{"id": "C114", "title": "The bytes of the data that matter", "statement": "For static types, data that decode accepts and other non-empty data yield the same values exactly if they agree in the significant bytes: all 32 bytes of an integer, the last 20 of an address, the first N of a bytesN, and of a bool the first 31 bytes and whether the last is 1. For integers and bytes32, and fixed arrays and tuples of these, the values determine every byte of their part of the data; for the other types they do not: the bytes before an address, those behind a bytesN (which may be missing at the end of the data) and 255 different words for false are not told apart.", "quantifier": "all lists of static types and all byte strings shorter than 2^63", "why_tests_cant": "That no byte outside the significant ones influences the result, and that each significant one does, concerns all pairs of data for all types; a test compares a few.", "anchors": ["ethabi/src/decoder.rs:32-38", "ethabi/src/decoder.rs:65-127", "ethabi/src/decoder.rs:158-212"]}
{"id": "C115", "title": "How many calls of decode and of the tokenizers are under way at a time", "statement": "decode_param and Tokenizer::tokenize call themselves. Whatever the data or the text, no more calls are under way at a time than the types are nested; when they succeed it is exactly as many as the returned values are nested. So data and texts from elsewhere cannot make them use more stack than the types given by the caller do; types that are nested k deep take k calls.", "quantifier": "all types, data and texts, all limits on the number of calls, every behaviour when the limit is exceeded", "why_tests_cant": "Tests run with one stack and some data; that no data whatsoever lead to deeper recursion than the types is a statement about all of them.", "anchors": ["ethabi/src/decoder.rs:41-63", "ethabi/src/decoder.rs:89-216", "ethabi/src/token/mod.rs:22-155"]}
{"id": "C116", "title": "The data that encode gives back", "statement": "decode(types, data) followed by encode gives back exactly the data if and only if the data are the specified ABI encoding of some values of the types; so comparing the re-encoding with the data is a complete test for canonical data. For static types these are exactly the accepted data of the length given by the types with zero bytes before every address and behind every bytesN and 0 or 1 for every bool; for integers and bytes32 only the length matters. Accepted data may be shorter than their re-encoding.", "quantifier": "all type lists (bytesN with 1<=N<=32, no T[0] of dynamic T) and all byte strings (below 4 GiB, static types below 2^63), both arithmetic profiles", "why_tests_cant": "Which of the many accepted representations are canonical is a statement about all byte strings, and a test can only show single non-canonical ones.", "anchors": ["ethabi/src/decoder.rs:41", "ethabi/src/encoder.rs:124"]}
{"id": "C117", "title": "How many calls of the functions on values and types are under way at a time", "statement": "encode calls encode_token, is_dynamic, head_len, tail_len, head and tail, each of which calls itself. No more calls of any of them are under way at a time than the values are nested, and of encode_token exactly as many. For type_check it is at most the nesting of the value and at most that of the type, and exactly that of the value when it answers true. For Display of a Token it is exactly the nesting of the value; for Writer::write and Display of a ParamType exactly the nesting of the type; for write_for_abi without tuple contents one and one per pair of brackets. No fixed number of calls is enough: a bool in k tuples is encoded in 32 bytes and takes k + 1 calls.", "quantifier": "all values, types and builds, all limits on the number of calls, every behaviour when the limit is exceeded", "why_tests_cant": "Tests run with one stack and a few shallow values; the exact depth of recursion as a function of the value is a statement about all of them.", "anchors": ["ethabi/src/encoder.rs:51-174", "ethabi/src/token/token.rs:66-134", "ethabi/src/token/token.rs:216-223", "ethabi/src/param_type/writer.rs:14-51"]}
{"id": "C118", "title": "What the error messages say", "statement": "Every error of the tokenizers and of the five commands of the tool is told with its reason, and the reason is characterised on the arguments. For a text that is not hexadecimal it is an odd number of bytes if that number is odd, and otherwise the first byte of the first character that is no digit, with its position; for a decimal text it is a character that is no digit, or a number of 2^256 or more; for an int it is underflow below -2^255 and overflow from 2^255 on; in an array or a tuple it is the reason of the first part that is refused. The commands report the first of: the file, the function or event (not declared, more than one of the name, no such signature), the first type text or topic that is not read, the first value that is refused, the data. Forgetting the reason gives back the outcome of the other claims. Two refusals by tokenizers have the same text only if they have the same reason, byte and position included.", "quantifier": "all values and type texts, all commands, files, names, data and topics, all builds, all hashes, both tokenizers; texts of other crates are arbitrary (the quoting of a byte injective for the last sentence)", "why_tests_cant": "The tests of the tool compare four messages. Which of several defects is reported, and where, is a statement about all texts.", "anchors": ["ethabi/src/errors.rs:16-51", "ethabi/src/token/lenient.rs:18-76", "ethabi/src/token/strict.rs:18-80", "ethabi/src/token/mod.rs:22-190", "cli/src/main.rs:85-262"]}
{"id": "C119", "title": "Taking values out of tokens", "statement": "Each of the nine functions Token::into_address, into_fixed_bytes, into_bytes, into_int, into_uint, into_bool, into_string, into_fixed_array and into_array returns Some exactly for its own variant, with its contents. Of every token exactly one of them returns Some, except tuples, for which there is none. A value that decode returns for a type, or that a tokenizer makes for it, or that passes type_check, gives Some for the function of that type and None for the others; so do the parameters of a parsed log with distinct names, where an indexed parameter that is not of a value type gives Some for into_fixed_bytes only.", "quantifier": "all tokens, types, data, texts, events and logs", "why_tests_cant": "Tests call one or two of the functions on values they built themselves; that a value from the chain is never None for its declared type is a statement about all data.", "anchors": ["ethabi/src/token/token.rs:136-206"]}
{"id": "C120", "title": "ABI JSON on 32-bit targets", "statement": "Where usize has 32 bits, Contract::load does with a JSON value what it does on a 64-bit target, errors and panics included, or returns an error of serde_json; the latter only if some string under a key type, at any depth, holds a number of 2^32 or more. A contract that loads is the one a 64-bit target loads, and the sizes of all types it declares are below 2^32; an ABI whose contract declares a type with a larger size is refused, never loaded with the size cut off. A contract loaded on a 64-bit target whose sizes are below 2^32, written as JSON with its maps in any order, loads on a 32-bit target to an equal contract. The sizes of the contract alone do not decide for a JSON value from elsewhere: components beside a type without a tuple are read and dropped, and have to fit as well.", "quantifier": "all JSON values; all loaded contracts and all orders of their maps", "why_tests_cant": "Tests run on the host, which has a usize of 64 bits, and on ABIs with small sizes; the claim is about every ABI on a target that the tests are not run on.", "anchors": ["ethabi/src/param_type/reader.rs:16-166", "ethabi/src/param_type/deserialize.rs:16-47", "ethabi/src/param.rs:31-177", "ethabi/src/tuple_param.rs:32-115", "ethabi/src/event_param.rs:30-110", "ethabi/src/operation.rs:15-33", "ethabi/src/contract.rs:36-142"]}
{"id": "C121", "title": "Layout and meaning of values", "statement": "Where a value lies in ABI data does not depend on what its words mean. Give every type its plain type: address, int, uint, bool and bytes32 become uint256, string becomes bytes, and arrays and tuples keep their shape. decode returns values for the types exactly when it returns numbers and bytes for the plain types and each of them can be read as its type: an address is the last 20 bytes of the word, whatever the first 12 are; a bool is a number below 256, true only for 1; bytes32 is the word; a string is the bytes, decoded lossily. Data refused for the plain types are refused with the same error. Without bools nothing else is refused, so types with the same plain types accept, refuse and panic on the same data; with bools, a word that is no bool gives InvalidData, possibly before a panic. encode gives the same bytes for values and their plain values, and the plain values, read as the types, are the values again.", "quantifier": "all lists of types, all data, all lists of tokens, in debug and release builds", "why_tests_cant": "Tests decode well-formed data for one type at a time. The claim compares two decodings of arbitrary, also malformed, data for arbitrarily nested types; a change in the reading of one type in one place would have to be met by a test for that type on malformed data.", "anchors": ["ethabi/src/decoder.rs:19-87", "ethabi/src/decoder.rs:89-216", "ethabi/src/encoder.rs:13-39", "ethabi/src/encoder.rs:124-174"]}
{"id": "C122", "title": "The command line tool on 32-bit targets", "statement": "Built for a target whose usize has 32 bits, each command of the tool does what it does on a 64-bit target, prints the same, reports the same error or panics alike, with three exceptions. It refuses the command, with ParseInt for type arguments and an error of serde_json for ABI files, where a type text holds a number of 2^32 or more. encode params and encode function panic if the heads or the tails of the values take 64 MiB or more. decode params, decode function and decode log panic, where a 64-bit target reports InvalidData, if reading the data meets an offset or a length that reaches 2^32. So whatever is printed on a 32-bit target is printed on a 64-bit target, and what a decoding command prints on a 64-bit target is printed on a 32-bit target unless a type is refused.", "quantifier": "all commands, files and texts, both build profiles, every hash function; for decoding: data of fewer than 2^32 characters, fewer than 2^26 topics, bytesN with N < 2^30", "why_tests_cant": "Tests run on a 64-bit host. The differences show only with numbers of 2^32 or more in types, with 64 MiB of values, or with malformed data, in a build for another target.", "anchors": ["cli/src/main.rs:73-93", "cli/src/main.rs:95-246", "ethabi/src/decoder.rs:65-87", "ethabi/src/encoder.rs:105-121"]}
{"id": "C123", "title": "Generated code on 32-bit targets", "statement": "Compiled for a target whose usize has 32 bits, generated code does what it does on a 64-bit target with these exceptions. The generated encode_input and constructor panic exactly when the heads or the tails of the arguments take 64 MiB or more. The generated decode_output panics exactly when reading the data meets an offset or a length that reaches 2^32, where a 64-bit target reports InvalidData; parse_log does so when the topics are in order and the data are like that. filter panics if a value asked for takes 64 MiB or more; wildcard_filter is the same on both. decode_output and parse_log return values for exactly the same inputs, and the same values; what a contract returns below 64 MiB comes back on both kinds of target.", "quantifier": "all functions, constructors and events, all typed arguments below 4 GiB, all data of fewer than 2^31 bytes, fewer than 2^26 topics, bytesN with N < 2^30, decode_output: output types supported by the generator; both profiles, every hash function and every conversion of names to camel case", "why_tests_cant": "Tests run on 64-bit machines; the inputs that differ are 64 MiB of arguments or lengths close to 2^32 in otherwise valid data.", "anchors": ["derive/src/function.rs:106-128", "derive/src/function.rs:187-205", "derive/src/constructor.rs:73-79", "derive/src/event.rs:177-198", "ethabi/src/decoder.rs", "ethabi/src/encoder.rs"]}

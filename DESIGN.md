# Formal model of ethabi-rs in Lean 4 — design

## Approach

The code of the four crates (ethabi, ethabi-cli, ethabi-derive, ethabi-contract) is modelled as small total Lean
functions, one per Rust function.  Every definition cites the file and lines of `/repo` it comes from.  Properties are
stated against separate specifications and proved for all inputs.

* `Res α` = `ok a | err e | panic`: Rust `Result` plus an explicit panic outcome.
* `Profile` = `debug | release`: integer overflow panics in `debug`, wraps in `release`.
  The u32 arithmetic of the encoder and the 64-bit usize arithmetic of the decoder go through it.
* Bytes are `List UInt8`, words are 32-byte lists with a length proof, `U256` is `BitVec 256`.
  Rust `String`/`&str` are `List Char` (Lean `Char` = Unicode scalar value).  Slicing a `&str`
  by byte offsets is modelled on UTF-8 widths, with `panic` off a char boundary.
* Keccak-256 is a parameter `hash : List UInt8 → Word`: every theorem holds for any hash.  Spec/Keccak.lean is Keccak-256 itself,
  used by the tests and by the counterexamples of C40 and C64 (Props/Keccak.lean).
* A `HashMap` is an entry list with distinct keys; its iteration order is a universally quantified permutation.
* JSON is modelled at the level of its syntax tree.

Layout (all under `lean/Verif`):

* `Model/*` — the code.
* `Spec/*` — specifications, written without the functions of the model (only its data types; Spec/Depth.lean, which puts a limit
  on the calls of `Reader::read`, has to use its body).
* `Proofs/*` — lemmas.
* `Props/*` — the property theorems (namespace `Ethabi.Props`) and, beside each, examples that meet its hypotheses.
* `Tests/*` — the unit tests of the repository run on the model.  Tests, not proofs: finitely many inputs.

Scripts in `tools/`: `mk_manifest.py` (MANIFEST.json from the theorem names), `axioms.py` (AXIOMS.md),
`rust_tests.py` (translates the Rust unit tests into `Tests/*`), `mutate.py` (seeded bugs, see below).

## Trusted base

* Lean's kernel, and that the statements say what the English says.
* Axioms: only `propext`, `Classical.choice` and `Quot.sound`; AXIOMS.md lists them per theorem.
  No axioms of our own, no `sorry`, no `native_decide`, no `bv_decide`.
  `decide +kernel` (kernel evaluation, no compiler) is used for concrete witnesses, for the tests and for finite tables.
* The faithfulness of the model to the Rust code.  It is supported by reading the code side by side, by the citations,
  and by 340 unit tests of the repository, all of which the model passes (encoder, decoder, type strings, tokenizers, JSON, contract
  loading, events, filters, command line, generated bindings; with the concrete Keccak-256 of `Spec/Keccak.lean`).

## What is modelled

| code | model |
|------|-------|
| ethabi/src/util.rs, encoder.rs (all) | Model/Encoder.lean |
| ethabi/src/decoder.rs (all) | Model/Decoder.lean |
| `String::from_utf8_lossy`, UTF-8 (std) | Model/Utf8.lean |
| param_type/param_type.rs, token/token.rs (types, `type_check`, `is_dynamic`, `Display`, `into_*`) | Model/Types.lean, Tokenizer.lean, Derive.lean |
| param_type/reader.rs (all) | Model/Reader.lean |
| param_type/reader.rs (all), counting the characters read | Model/ReaderCount.lean |
| decoder.rs (all), counting calls and copies | Model/DecoderCount.lean |
| encoder.rs (all), counting calls and copies | Model/EncoderCount.lean |
| token/mod.rs, strict.rs, lenient.rs, counting calls and bytes | Model/TokenizerCount.lean |
| decoder.rs, token/mod.rs with a limit on nested calls | Model/CallDepth.lean |
| param_type/writer.rs (all) | Model/Writer.lean |
| encoder.rs, decoder.rs, reader.rs, function.rs, event.rs with the width of `usize` as a parameter | Model/EncoderOn.lean, DecoderOn.lean, ReaderOn.lean, EventOn.lean |
| signature.rs, function.rs, constructor.rs | Model/Function.lean |
| param.rs, tuple_param.rs, event_param.rs, param_type/deserialize.rs | Model/Json.lean |
| operation.rs, contract.rs, state_mutability.rs, `sanitize_name` | Model/Contract.lean |
| event.rs, filter.rs, log.rs | Model/Event.lean |
| token/mod.rs, strict.rs, lenient.rs | Model/Tokenizer.lean |
| cli/src/main.rs (`execute` after argument parsing; files are JSON values, or texts) | Model/Cli.lean, CliExecute.lean, Files.lean |
| derive/src/*.rs (what the generated code does when run) | Model/Derive.lean |
| derive/src/*.rs (the text it generates, token by token) | Model/Generate.lean |
| contract.rs:36-82, 140-142 on texts and bytes (`serde_json`) | Model/JsonText.lean, JsonWrite.lean, JsonBytes.lean |
| derive/src/lib.rs:27-83, contract/src/lib.rs (attribute, path, file) | Model/DeriveEntry.lean, Files.lean |

## What is not modelled

* Of the text layer of JSON (`serde_json`): the conversion of numbers (only their whole part is kept; which
  ones are too large is a parameter) and the error texts.  The grammar, the limit on nesting and the compact writer are modelled from
  the published source of serde_json 1, which is not in the repository (Model/JsonText.lean, Model/JsonWrite.lean, C99, C100); the
  other properties about JSON start from a value.
* Operations as JSON arrays (tag and fields in order) and `{"pure": null}` are modelled;
  `{"pure": {}}`, which newer versions of serde also accept, is rejected by the model.
  A duplicate key, an unknown key and a missing key are modelled.
* Error texts: `Err` keeps the variant and, for `InvalidName`, the name (`Error::Other` texts are dropped).  `Model/Messages.lean`
  keeps the reasons of the tokenizers and of the commands of the tool and their texts (C118); texts made by other crates are
  parameters there.
* Keccak-256 (a parameter; C40 and C64 have counterexamples with Keccak-256 itself, Spec/Keccak.lean), the parsing of a hash in the command line tool
  (a parameter `parseHash`).
* Argument parsing (`structopt`), reading files, printing.
* derive/src: `syn`'s parser of items and attributes, reading files.  `heck`'s conversions of names and `syn`'s check of identifiers are parameters
  of the model of the generator; Model/Heck.lean instantiates them for names over letters, digits, `_` and `$` (C96), from the
  published algorithm of heck 0.3, since its source is not in the repository.  Of rustc, what Spec/RustText.lean and Spec/RustModules.lean say about the fragment that is generated: values,
  scope, mutability, method names, the syntax of types, distinct names; not moves, borrows or trait resolution.
* Memory: allocation failure and stack overflow.  `decode` on a deeply nested type and `read` on a deeply nested string
  recurse natively in Rust; the model's recursion is not bounded.  C106, C115 and C117 say how many calls of `read`, `decode_param`, `tokenize`, `encode_token` and the others are nested.
  A byte string longer than `isize::MAX` does not exist in Rust; theorems that need it say `data.length < 2^63`.
* 32-bit targets: `usize` has 64 bits, except in Model/DecoderOn.lean, Model/EncoderOn.lean, Model/EventOn.lean, Model/ReaderOn.lean, Model/JsonOn.lean, Model/CliOn.lean and Model/DeriveOn.lean, where the width is a parameter (C87, C94, C103, C104, C120, C122, C123). Of the limits on the size of a vector only the two reservations of `encode_head_tail` are modelled (C103): a decoded list of some 2^25 tokens, whose vector cannot be doubled within 2^31 bytes, counts as memory running out.
  The encoder counts in `u32` on every target; elsewhere `usize` is used for lengths of values in memory only.
* `Debug`, `Clone`, `PartialEq` and other derived implementations, except where equality is used.

## Properties

The full statements are in properties.jsonl; MANIFEST.json names the theorems.  "false" means: false of the code, with a
concrete counterexample proved (`_counterexample`), and the part that holds proved with suffix `_partial` where it is
weaker than the statement.

| id | modelled by | proof |
|----|-------|-------|
| C01 | encode, decode | mutual induction over types through `Spec.Abi` |
| C02 | encode | mutual induction over tokens against the head/tail layout of `Spec.Abi`; u32 bound |
| C03 | encode | words have 32 bytes by type |
| C04 | encode | corollary of C01 |
| C05 | decode | induction over types |
| C06 | decode | false for dynamic `T[k]` (decoder.rs:165); proved for the other types; the panicking inputs characterised (`overrunsAny`) |
| C07 | decode | induction over types (prefix monotonicity) |
| C08 | both | C01 + C07 |
| C09 | both | C01 + C05 |
| C10 | decode | loop induction; counterexample for zero-width elements |
| C11 | decode | case analysis on the word |
| C12 | decode | false: words 2..255 decode to false; exact characterisation proved |
| C13 | decode | case analysis |
| C14 | lossy UTF-8 | induction on the string |
| C15 | encode/decode | spec of zero extension |
| C16 | encode | C02 corollary |
| C17 | type_check | false for tuples of the wrong arity; proved otherwise; all three outcomes characterised for all inputs (`Spec/Outcomes.lean`), likewise for C20 and C38 |
| C18–C21 | function.rs, constructor.rs | from C01; C20 false for tuples of the wrong arity |
| C22–C23 | signature.rs, writer.rs | splitting at top-level commas |
| C24–C27 | reader.rs, writer.rs | induction; C24 false for exactly the nestings outside `readable`, C26 for non-ASCII or unbalanced texts |
| C28–C32 | JSON, contract.rs | induction, permutations |
| C33–C36 | event.rs | from C01/C05; C36 false for equal names |
| C37–C40 | event.rs, filter.rs | C38 false for tuple arity, C40 false for strings, bytes and dynamic arrays |
| C41–C42 | filter.rs | cases; reconstruction from the JSON text |
| C43–C50, C57 | token/*.rs | induction on types and strings; C48 false for non-ASCII text, C50 false for short tuples |
| C51–C52, C59–C62 | cli/src/main.rs | from the above; C52 and C59 false in corner cases |
| C53 | encoder | false in release builds at 4 GiB, in debug builds at 128 GiB (symbolic witnesses); proved below |
| C54–C55, C63–C64 | derive | semantics of the generated conversions |
| C56, C58, C65 | JSON | characterisation of the field loops |
| C66 | encoder, decoder, calls, events | relation between the two profiles, preserved by `?`; offsets of the decoder stay below 2^63 + 32 |
| C67 | encoder | checked additions are one checked sum; induction over tokens |
| C68 | Display, tokenizers | digit induction: the hexadecimal text read in base 10 and 16; false for the lenient tokenizer |
| C69 | Model/Generate (derive/src token by token) | each template equals the text of an expression of Spec/RustText or panics; induction over types and lists |
| C70 | Model/Generate; meaning of the text: Spec/RustText, Spec/RustModules | evaluation lemmas for each expression builder, by induction over types, parameters and the iterator's tokens; composed with C54, C55 |
| C71 | Model/Generate; Spec/RustText, Spec/RustModules | as for C70; composed with C54 |
| C72 | Model/Generate; grammar of types in Spec/RustModules | induction over types; counting commas for the negative part |
| C73 | Model/Generate; Spec/RustModules | from C70, C71 item by item |
| C74 | decode | `Spec/Reading.lean` defines what the data hold, by recursion on the type; equivalence by induction on the type |
| C75 | decode | decomposition of the loop over the types |
| C76 | read (Model/Reader) | strong induction on the length; the loop over pieces between commas; inversion of the grammar at the last bracket |
| C77 | deParam, deEventParam, deTupleParam, deOperation, deContract (Model/Json, Model/Contract) | each field loop characterised by the list of values of every key; strong induction on the size of the JSON value for components |
| C78 | read (Model/Reader) | loop invariant: the text since the last opening parenthesis and since the last item determines what can be pushed; a text with one open parenthesis is read as a flat tuple or rejected |
| C79 | parse_log, convert_topic_param_type, decode | the exact characterisation of decode (C74, C06) applied to the two halves of the log; the map built from names is described by the last entry of a name |
| C80 | filter, parse_log | topics are read one by one (readsAll_topics); the encoding of a value holds this value and no other (from C74 and the round trip) |
| C81 | tokenize and the strict and lenient leaf tokenizers | the loop equals a scan for cuts followed by reading the parts (pieceLoop_scan); the scan finds exactly the positions the specification calls cuts (scan_spec); induction on the type |
| C82 | encode | mutual induction over tokens against the layout of `Spec.AbiWrap`, u32 arithmetic as a homomorphism modulo 2^32 |
| C83 | Model/Decoder.lean; Spec/Weight.lean, Spec/Reading.lean | from C74 (what decode returns is what the data hold) and C10, induction on the types |
| C84 | contract.rs:36-82, 140-142 on texts and bytes (`serde_json`) | Model/JsonText.lean, JsonWrite.lean, JsonBytes.lean |
| derive/src/lib.rs:27-83, contract/src/lib.rs | case analysis against a small specification of attributes and paths |
| C85 | cli/src/main.rs:13-93 and Model/Cli.lean | composition of C51, C74, C77, C79, C81, C82 into one equivalence per command |
| C86 | Model/Reader.lean | the loop's state after each member, by induction on the members and on the pieces of each list; the rest is C76 (Proofs/NestedText.lean) |
| C87 | decode with the width of usize as a parameter (Model/DecoderOn.lean) | `C87_same_code`: for 64 bits it is Model/Decoder.lean; two runs side by side, induction over types; spec `wraps` next to `reads` and `overruns` |
| C88 | the serialisers of Model/Json.lean and Model/Contract.lean | a grammar of type descriptions as inductive relations (Spec/Written.lean) and objects as sets of entries; induction over types; determinism by the last character of the type string |
| C89 | deOperation, Function::encode_input, Function::signature, Event::signature, Event::filter, read, write | Spec/Selector.lean derives the signature text from the JSON alone; induction over that derivation, with C77 (which JSON denotes which operation) and the lemmas about suffixes |
| C90 | deContract, deOperation, deParam, deEventParam, deTupleParam | Spec/Crash.lean says where reading stops; a lemma about field loops splits them at the entry that panics, the state before it comes from the lemmas of C77; strong induction over the size of the JSON for nested components |
| C91 | execute and the functions of cli/src/main.rs | case analysis of each command with C90, C81, C79, C06, C51, C20 and C67 |
| C92 | read, readLoop, readOpen, readClose, readComma | Spec/AnyText.lean gives the rules; induction over the cuts with an invariant that relates positions, the last opened list and the stack of the loop to the place in the rules; pieces are read by C76 |
| C93 | tokenize, hexDecode, read, Event.parseLog, decode, deContract | Spec/Errors.lean and Spec/RefusedText.lean give the errors by rules over the text, by mutual induction over the type and the parts of the text; with tuples (Spec/AnyRefused.lean) the rules follow the cuts of C92, by induction over the cuts within one over the text's length; logs from C74 and C79; loading by cases over the deserializers |
| C94 | readOn, parseUsizeOn (Model/ReaderOn.lean) | the model with the width of usize as a parameter is the other model for 64 bits; a relation between the results on two targets that every step of the reader preserves; the sizes by an invariant of the tuple loop |
| C95 | read, write | induction over the rules of C92 with a count of the characters that are still to be paid for: every piece pays for being kept and for being read again in its list |
| C96 | Heck.pieces, Heck.words, Heck.snake, Heck.camel, generateContract | invariants of the loop that takes a name apart: the pieces are words and their concatenation is the letters and digits of the name; its state is related to the last letter read; then C69 and C73 |
| C97 | Token.display, cliDecodeParams | the text of a value of a given type, followed by `,`, `]`, `)` or nothing, can be cut off in one way only: induction on the type; then C05 |
| C98 | encode, decode | the encoder's mediate of a tuple or array is unfolded; static mediates have heads that do not depend on the offset; decodeLoop is decodeParams of a replicated type |
| C99 | JsonText.load, parse, write | soundness by induction on the fuel, completeness by recursion over the derivation in the grammar; both give unambiguity |
| C100 | JsonText.load, write, serContract | C29 and C99; the nesting of the JSON of a contract is computed from its types |
| C101 | serTopicFilter, serTopic, JsonText.write, JsonText.parse | the writer on arrays and on hexadecimal digits, then C99 and C42 |
| C102 | executeText, ethabiDeriveText, loadText | C99 for the loading, the rest is shared with the model of C85 |
| C103 | encodeOn, Mediate.assembleOn, wordCapacityOn (Model/EncoderOn.lean): the encoder with the two Vec::with_capacity calls | `C103_same_code`: for 64 bits it is Model/Encoder.lean; the result is a panic or the same; sizes of heads and tails (C67) decide which; inner lists are inside an outer head or tail |
| C104 | Event.parseLogOn, Event.filterOn, Function.decodeOutputOn (Model/EventOn.lean) | C87 for the data, a single word never wraps for the topics, C103 for filters; `C104_same_code` ties the models |
| C105 | JsonBytes.string/value/items/entries/load, loadBytes, executeBytes, ethabiDeriveBytes (Model/JsonBytes.lean) | every sequence of bytes is a text and then nothing or bytes that are no character; on these the reader behaves as at the end of the text: simulation of Model/JsonText.lean by induction on the fuel; UTF-8 is that of Lean core |
| C106 | readStep, read | three inductions on the limit, for texts without `)`, with one open parenthesis, and any: the loop makes calls of the earlier kinds only (invariant on the positions `last_item` and `top_level_paren_open`); a group followed by `(` is refused (`AnyText.open_err`) |
| C107 | readFuelCount, readStepCount, readLoopCount, readCloseCount, readCommaCount | as C106, with a potential: what is left to read of items, of the group that is open, and one group for a call that fails; a group is not read twice because a list with a second `)` is refused (`ReaderCount.spent`) |
| C108 | `deContract` and the commands (Model/Contract, Model/Cli); `lastConstructor`, `Competes` (Spec/Operations) | the characterisation of loading in C77, C90 and C93; filterMap over permuted and joined lists |
| C109 | `decodeCount` (Model/DecoderCount): the decoder with a count, same results; `maxWork`, `basicWork` (Spec/Work) | induction over the types; every element that is read lies inside the data and ends 32 bytes further on |
| C110 | `encodeCount` (Model/EncoderCount): the encoder with a count, same results; `bulk`, `depthOf`, `nestedArrays` (Spec/EncodeWork) | induction over the values; every intermediate value weighs no more than the value it is made from and carries, with all its parts, what the second half will spend on it (`Paid`) |
| C111 | `tokenizeCount` (Model/TokenizerCount): the tokenizers with a count, same results; `nesting`, `stringArrays`, `inBrackets` (Spec/TokenizeWork) | induction over the type; in the loop what is left to hand on shrinks by every piece and its separator |
| C112 | read, readFuelCount | a text is built level by level; each level contains the one below as characters where the reader passes over it (with a mirror, an ASCII text where the byte positions of those characters fall) and as bytes where it is read k times, once for every prefix that is a type; the sizes add up to binomial coefficients (`Deep.run_mirror`, `Deep.read_level`); work: the types held by the state never exceed the work and the characters passed (`Deep.held_loop`) |
| C113 | decode, typesCheck, tokenize, encodeInput, parseLog, filter, cliEncodeParams | each function gives the same for a type and for the type without widths (mutual induction over types or tokens); signatures from C22 |
| C114 | decode | C74 reduces to reads; reads of two data compared by mutual induction over the types |
| C115 | decode, tokenize; decodeStep, tokenizeStep (their bodies with the recursive call as a parameter) | induction over the limit |
| C116 | fixed points of encode after decode, general and for static types | C01, C02, C05, C82 for the general part; for static types by induction over the type, comparing the specified encoding with the slice of the data that `reads` describes |
| C117 | encode with its six recursive functions, type_check, Display for Token, Writer, each with a limit on its calls (Model/CallDepthEncode.lean) | induction over the limit |
| C118 | `Model/Messages.lean`: the same functions with the reason of an error kept (`Told Reason`), and `Reason.text`, its Display | `Spec/Messages.lean` says on texts when which reason applies (`failsFor`); structural recursion over the type; `C118_same_outcome` ties every told function to the one without reasons |
| C119 | `Token.intoAddress`, … (Model/Derive) | by cases over the variants; C05, C47 and the types of parsed parameters (C54) |
| C120 | deContractOn and the functions below it (Model/JsonOn.lean) | the results on two targets are the same with all sizes small, or the smaller target refuses: a relation that binding preserves, through every visitor by induction on the JSON; the type strings by C94; written contracts hold only texts without tuples, to which the exact form of C94 applies |
| C121 | `decode`, `encode` and all they call | the two runs of `decode_param` are related step by step (`Sees`): same offsets, same errors, and the plain token read as the type is the token; mutual induction over types, with loops over elements; `encode` by mutual induction over tokens. Spec: `plain`, `readAs`, `plainValue` in Spec/Plain.lean. |
| C122 | the five commands and `execute` with the width of `usize` as a parameter (Model/CliOn.lean); the widths enter through the reader, the ABI loader, the encoder and the decoder | composition of C87, C94, C103, C104 and C120 along each command; the reasons are given in the vocabulary of C85 (`ReadAs`, `Declares`, `PicksFunction`, `denotes`, `hexText`) and of C87 (`wrapsAny`) |
| C123 | Model/DeriveOn.lean: the bodies of the generated functions with the width of `usize` as a parameter; the same model for 64 bits (C123_same_code) | From C87, C103 and C104 for the library calls inside, `.expect` and the token conversions being the same on both; C54 for the panics of decode_output |

## Deviations found

All proved as counterexamples, most with `decide`.

* `decode` panics for a dynamic `T[k]` whose offset is larger than the data (decoder.rs:165).
* `decode` of `bytesN` with N near 2^64 overflows; `bytesN` with N > 32 and `string[0]` do not round trip.
* A bool word 2..255 decodes to false (decoder.rs:32-38).
* Strings inside arrays and tuples are printed without quotes: `[a,b]` is one string or two (token.rs:66-86); an empty `bytes[]`
  is printed like one with an empty element.
* Arrays of zero-width elements may have any claimed length.
* `type_check` accepts a tuple with too few members and panics on one with too many (token.rs:124-133); the same holds
  for everything built on it (`encode_input`, `filter`).
* The encoder's u32 lengths wrap in release builds at 4 GiB, in debug builds for a byte string of 2^37 - 63 bytes (128 GiB).
* `Reader::read` misreads some nested tuples, drops empty member tuples and panics on some texts.
* `Event::parse_log` looks values up by name, so equal names give equal values.
* `Event::filter` hashes `encode([token])`, which for strings, bytes and dynamic arrays is not the Solidity topic.
* The tokenizers panic on non-ASCII text inside brackets, accept `[a][b]`, short tuples and 64-digit decimals as hex.
* Integers are displayed in hexadecimal without prefix; the lenient tokenizer reads such a text as decimal (16 prints as `10`, read as ten).
* The command line tool ignores surplus values; an odd number of `-v` words panics.
* Generated `parse_log` panics on every accepted log when a `string`, `bytes` or array parameter is indexed; a generated event has the
  camel-cased name in its signature.
* Generated code is not valid Rust for overloaded functions, `T[k]` outside the top level of inputs, parameters named like a
  keyword, `f` or `function` (`c`, `code` in constructors, indexed `event` in events), or unnamed ones next to `param1`,
  or names that differ only by underscores around them (`_to`, `to`); a parameter `_self` becomes the keyword `self`.
* The generator panics on Solidity names without letters or with a digit as first letter or digit (`_`, `_1`).
* A parameter object with an unknown key is accepted inside a contract and rejected on its own.
* On 32-bit targets `encode` panics from 64 MiB on, and `decode` and `parse_log` panic where they report an error on 64 bits.
* `Reader::read` nests as many calls as a text has `[]`, so a long text exhausts any stack; its work is quadratic.
* Outside ASCII the work of `Reader::read`, and the size of the type it yields, are beyond every power of the length of the
  text (C112); 63 kilobytes of text suffice for a type with more than a million parts.
* `encode` measures and copies tails once more at every level of nesting, so its work is quadratic for nested arrays.

## Seeded bugs

Each attempt copies the project, applies one edit to a model definition and rebuilds.  The edits written by hand are in
seeded/mutations.json, the outcomes in seeded/LOG.jsonl, one line per attempt.  `failed` lists the property theorems that no
longer have a proof; `mode` says how that was found out, and the modes are not equally strong:

* `full` (tools/mutate.py): failing declarations are replaced by `sorry` until everything builds, then `#print axioms` is asked
  for every property theorem.  `failed` is exact: all theorems that depend on `sorryAx`, and no others.
* `table` (tools/mutate_table.py): one build of the modules of the claim.  `failed` is read off a table of which theorem uses which
  declaration in the unedited project (tools/deps.lean.txt): the theorems that use a declaration that failed.  Nothing is
  rebuilt after the first failures, so theorems that would have failed later are missing from the list.
* `claim` (tools/mutate_claim.py): as `table`, going on until a theorem of the claim is hit.  The list is again incomplete.
* `manual`: the list was copied by hand from the output of a build.
* `checker`: no list was obtained from a build; the claim is refuted by a checker (below).
* `auto` (tools/mutate_auto.py): a random change of an operator or constant, with no claim attached.  `killed` means only that some
  declaration fails, `first_failure` says which; `stillborn` that the edited model does not compile.

What this does not show: a theorem counts as failed when its proof, or that of a lemma it uses, no longer goes through.  A proof
can fail although the statement is still true, so `failed` is evidence that a theorem depends on the edited behaviour, not a
proof that it is false of the edited model.  A theorem whose
statement does not even mention the edited definition (tools/statement_deps.lean.txt) is listed under `proof_only` instead of
`failed`; about one in fifteen of the listed failures was of this kind.  The rest are not all false either: M01 (one padding word too many) lists C01 and C02, but no tested input
refutes C01 there; N071 is equivalent to the code, and still thirteen proofs broke; M18, N068, Y11 and Y46 had been attributed to
claims that they leave alone (C14, C43, C75, C02).  So numbers of failed theorems should not be read as numbers of detected bugs.

tools/witness.py therefore tests statements instead of proofs, for C01–C03, C05, C07, C10, C12–C15, C17–C21,
C23–C35, C37–C39, C41–C47, C51, C55, C66, C75, C87, C94, C95, C97, C98, C101, C103, C104, C106–C110, C113 and C115–C117 (for some of them only some of several theorems).  Tests/Checkers.lean,
CheckersText, CheckersMore, CheckersCalls, CheckersDepth, CheckersRest and CheckersLast have these theorems at concrete inputs as Booleans and are built on the edited model without any proof;
the files Tests/Checkers*Sound.lean derive the checkers from the theorems.  A checker that is false on an edited model refutes the statement there: `refuted` lists
the claims with one input each, and `"witness": "confirmed"` marks entries whose own claim is among them.  N026 (lengths
cut to 24 bits) needs inputs of 16 MiB and has no witness.  For claims that give the exact result, Tests/Determined.lean proves that the statement
leaves one result: any function of which it holds in place of the model's agrees with the model's (C54, C74, C76, C77, C81, C84, C85, C90, C92, C93,
C96, C99, C102, C105, C118, C119).  tools/compare.py evaluates these functions on about 84000 inputs in the model and in an edited
model; a difference refutes the statement there, provided that the edit is in no definition which the right hand side of the statement uses
(tools/determined.txt, printed by tools/right_hand_sides.lean.txt).  These are `refuted` with the name of the theorem in Determined.lean.  The remaining claims have not been tested in either way.  This found a theorem
that was too weak: C24 was stated with the specified text instead of `Writer::write`, and stayed true when the writer was wrong
(N038), which the log had recorded as a failure of C24.
Edits that looked equivalent to the code when they
were written (R32, R33, R43, R50) were not run; edits in mutations.json without a line in the log have not been tried, or the
attempt was inconclusive (time, memory, an edited model that does not compile) and is to be repeated.

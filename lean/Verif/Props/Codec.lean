import Verif.Proofs.Codec
/-!
# Properties C01–C17 and C53: encoder and decoder

The specification vocabulary (`Spec.*`) is in `Verif/Spec/Abi.lean`.  Unless stated otherwise every
theorem holds for both arithmetic profiles; where an encoder and a decoder occur they may even be
built with different profiles.
-/
namespace Ethabi.Props
open Spec

/-- a non-trivial argument list used to show that hypotheses are satisfiable:
`(uint256[], (string,bytes3)[2], bool)` -/
def sampleTypes : List ParamType :=
  [.array (.uint 256), .fixedArray (.tuple [.string, .fixedBytes 3]) 2, .bool]

def sampleTokens : List Token :=
  [.array [.uint 1, .uint 2], .fixedArray [.tuple [.string ['h', 'é'], .fixedBytes [1, 2, 3]],
    .tuple [.string [], .fixedBytes [4, 5, 6]]], .bool true]

/-! ## C01 round trip -/

/-- **C01.** `decode(types, encode(tokens)) = Ok(tokens)` for all tokens of codable types whose encoding
is below 4 GiB; not all types of zero width, except lists of `T[0]` (in particular the empty list). -/
theorem C01_round_trip (pe pd : Profile) (ts : List ParamType) (toks : List Token)
    (ht : haveTypes toks ts = true) (hc : codableAll ts = true) (hf : countsFitAll toks = true)
    (hb : (encodeArgs toks ts).length < 2 ^ 32)
    (hw : nonzeroWidthAny ts = true ∨ ∀ t ∈ ts, ∃ u, t = .fixedArray u 0) :
    ∃ bs, encode pe toks = .ok bs ∧ decode pd ts bs = .ok toks := by
  refine ⟨_, encode_eq_spec pe toks ts ht hc hf hb, ?_⟩
  have := decode_encodeArgs pd toks ts [] ht (bytesOkAll_of_codable ts hc) hf hb
    (by rw [List.append_nil]; omega) hw
  rwa [List.append_nil] at this

/-- **C01** for types that exist in Solidity: only the size bound remains. -/
theorem C01_round_trip_solidity (pe pd : Profile) (ts : List ParamType) (toks : List Token)
    (ht : haveTypes toks ts = true) (hs : solidityAll ts = true) (hb : (encodeArgs toks ts).length < 2 ^ 32) :
    ∃ bs, encode pe toks = .ok bs ∧ decode pd ts bs = .ok toks := by
  refine C01_round_trip pe pd ts toks ht (solidity_codableAll ts hs) (solidity_countsFitZip toks ts ht hs hb) hb ?_
  cases ts with
  | nil => exact Or.inr (by simp)
  | cons t ts => exact Or.inl (solidity_nonzeroAny _ rfl hs)

example : haveTypes sampleTokens sampleTypes = true ∧ solidityAll sampleTypes = true
    ∧ (encodeArgs sampleTokens sampleTypes).length < 2 ^ 32 := by decide +kernel

/-- The excluded case is really different: `string[0]` does not round trip (the encoder omits its offset
word, the decoder insists on one). -/
theorem C01_counterexample_zero_length_dynamic_array (pe pd : Profile) :
    encode pe [.fixedArray []] = .ok [] ∧ hasType (.fixedArray []) (.fixedArray .string 0) = true
      ∧ decode pd [.fixedArray .string 0] [] = .err .invalidData := by
  cases pe <;> cases pd <;> decide +kernel

/-- `[()]` (a single empty tuple) encodes to no bytes, which `decode` then refuses. -/
theorem C01_counterexample_zero_width (pe pd : Profile) :
    encode pe [.tuple []] = .ok [] ∧ ∀ toks, decode pd [.tuple []] [] ≠ .ok toks := by
  refine ⟨by cases pe <;> decide +kernel, ?_⟩
  intro toks
  cases pd <;> simp [decode, ParamType.isEmptyBytesValidEncoding]

/-! ## C02 conformance -/

/-- **C02.** `encode` produces exactly the specified head/tail layout. -/
theorem C02_encode_conforms (prof : Profile) (ts : List ParamType) (toks : List Token)
    (ht : haveTypes toks ts = true) (hc : codableAll ts = true) (hf : countsFitAll toks = true)
    (hb : (encodeArgs toks ts).length < 2 ^ 32) : encode prof toks = .ok (encodeArgs toks ts) :=
  encode_eq_spec prof toks ts ht hc hf hb

/-- **C02** for Solidity types. -/
theorem C02_encode_conforms_solidity (prof : Profile) (ts : List ParamType) (toks : List Token)
    (ht : haveTypes toks ts = true) (hs : solidityAll ts = true) (hb : (encodeArgs toks ts).length < 2 ^ 32) :
    encode prof toks = .ok (encodeArgs toks ts) :=
  encode_eq_spec prof toks ts ht (solidity_codableAll ts hs) (solidity_countsFitZip toks ts ht hs hb) hb

example : haveTypes sampleTokens sampleTypes = true ∧ codableAll sampleTypes = true
    ∧ countsFitAll sampleTokens = true ∧ (encodeArgs sampleTokens sampleTypes).length < 2 ^ 32 := by decide +kernel

/-- For `string[0]` the specified layout has an offset word, the produced one has not. -/
theorem C02_counterexample_zero_length_dynamic_array (prof : Profile) :
    encode prof [.fixedArray []] = .ok [] ∧ encodeArgs [.fixedArray []] [.fixedArray .string 0] = word 32 := by
  cases prof <;> decide +kernel

/-! ## C03 alignment -/

/-- **C03.** Whatever the tokens, the produced bytes are a whole number of 32-byte words. -/
theorem C03_word_aligned (prof : Profile) (toks : List Token) (bs : Bytes) (h : encode prof toks = .ok bs) :
    bs.length % 32 = 0 := by
  simp only [encode, Res.bind_eq_ok, Res.ok.injEq] at h
  obtain ⟨ms, -, ws, -, rfl⟩ := h
  rw [length_flattenWords]
  omega

example : ∃ bs, encode .debug sampleTokens = .ok bs ∧ bs.length = 480 :=
  ⟨encodeArgs sampleTokens sampleTypes, by decide +kernel⟩

/-! ## C04 injectivity -/

/-- **C04.** Two token lists of the same types with the same encoding are equal. -/
theorem C04_injective (pe pe' : Profile) (ts : List ParamType) (toks toks' : List Token)
    (ht : haveTypes toks ts = true) (ht' : haveTypes toks' ts = true) (hc : codableAll ts = true)
    (hf : countsFitAll toks = true) (hf' : countsFitAll toks' = true)
    (hb : (encodeArgs toks ts).length < 2 ^ 32) (hb' : (encodeArgs toks' ts).length < 2 ^ 32)
    (h : encode pe toks = encode pe' toks') : toks = toks' := by
  rw [encode_eq_spec pe toks ts ht hc hf hb, encode_eq_spec pe' toks' ts ht' hc hf' hb'] at h
  simp only [Res.ok.injEq] at h
  have h1 := decodeParams_spec .debug toks ts [] ht (bytesOkAll_of_codable ts hc) hf hb
    (by rw [List.append_nil]; omega)
  have h2 := decodeParams_spec .debug toks' ts [] ht' (bytesOkAll_of_codable ts hc) hf' hb'
    (by rw [List.append_nil]; omega)
  rw [h, h2] at h1
  simp only [Res.ok.injEq, Prod.mk.injEq] at h1
  exact h1.1.symm

/-- **C04**: moreover, no encoding is the beginning of another one. -/
theorem C04_prefix_free (pe pe' : Profile) (ts : List ParamType) (toks toks' : List Token)
    (ht : haveTypes toks ts = true) (ht' : haveTypes toks' ts = true) (hc : codableAll ts = true)
    (hf : countsFitAll toks = true) (hf' : countsFitAll toks' = true)
    (hb : (encodeArgs toks ts).length < 2 ^ 32) (hb' : (encodeArgs toks' ts).length < 2 ^ 32) (x y : Bytes)
    (hx : encode pe toks = .ok x) (hy : encode pe' toks' = .ok y) (h : x <+: y) : toks = toks' ∧ x = y := by
  rw [encode_eq_spec pe toks ts ht hc hf hb] at hx
  rw [encode_eq_spec pe' toks' ts ht' hc hf' hb'] at hy
  obtain ⟨extra, h⟩ := h
  cases hx; cases hy
  have h1 := decodeParams_spec .debug toks ts extra ht (bytesOkAll_of_codable ts hc) hf hb
    (by rw [h]; omega)
  have h2 := decodeParams_spec .debug toks' ts [] ht' (bytesOkAll_of_codable ts hc) hf' hb'
    (by rw [List.append_nil]; omega)
  rw [List.append_nil] at h2
  rw [h, h2] at h1
  simp only [Res.ok.injEq, Prod.mk.injEq] at h1
  obtain ⟨rfl, _⟩ := h1
  exact ⟨rfl, rfl⟩

example : haveTypes sampleTokens sampleTypes = true ∧ haveTypes [.array [], .fixedArray [
    .tuple [.string ['x'], .fixedBytes [1, 2, 3]], .tuple [.string [], .fixedBytes [4, 5, 6]]], .bool false]
      sampleTypes = true := by decide +kernel

/-! ## C05 decoded tokens are typed -/

/-- **C05.** Whatever `decode` accepts has exactly the requested types, for arbitrary data. -/
theorem C05_decoded_typed (prof : Profile) (ts : List ParamType) (data : Bytes) (toks : List Token)
    (hu : ParamType.usizeOkAll ts = true) (hd : data.length < 2 ^ 63)
    (h : decode prof ts data = .ok toks) :
    toks.length = ts.length ∧ haveTypes toks ts = true ∧ Token.typesCheck toks ts = .ok true := by
  obtain ⟨-, o, h1⟩ := decode_eq_ok h
  have ht := decodeParams_typed prof ts data 0 toks o hu (by omega) h1
  exact ⟨haveTypes_length toks ts ht, ht, typesCheck_of_valuesOf (haveTypes_valuesOf toks ts ht)⟩

/-- malformed but accepted data: a `uint8` word with the value 300 and unaligned trailing bytes -/
example : ∃ toks, decode .release [.uint 8, .fixedBytes 2] (word 300 ++ [7, 8, 9]) = .ok toks :=
  ⟨[.uint 300, .fixedBytes [7, 8]], by decide +kernel⟩

/-! ## C06 no panics -/

/-- **C06, partial.** `decode` never panics, for arbitrary data, when no fixed array of a *dynamic* type
occurs in the types and `bytesN` widths are below 2^62.  Missing: dynamic `T[k]`, for which the claim
is false (`C06_counterexample_fixed_array`), and astronomically wide `bytesN`
(`C06_counterexample_wide_bytes`). -/
theorem C06_decode_no_panic_partial (prof : Profile) (ts : List ParamType) (data : Bytes)
    (hn : noDynFixedArrayAll ts = true) (hd : data.length < 2 ^ 63) : decode prof ts data ≠ .panic := by
  rw [decode]
  split
  · simp
  · apply noPanic_bind (decodeParams_safe prof ts data 0 hn hd (by omega)).1
    intro a _
    simp

example : noDynFixedArrayAll [.array (.tuple [.bytes, .fixedArray (.uint 8) 3]), .string, .fixedBytes 32] = true := by
  decide

/-- An offset word beyond the end of the data makes `decode` of `string[1]` panic (decoder.rs:165 slices
without a bounds check; the tuple case has the check at decoder.rs:189). -/
theorem C06_counterexample_fixed_array (prof : Profile) :
    decode prof [.fixedArray .string 1] (word 33) = .panic
      ∧ decode prof [.tuple [.string]] (word 33) = .err .invalidData := by
  cases prof <;> decide +kernel

/-- more generally: any dynamic `T[k]` whose offset word points beyond the data -/
theorem C06_counterexample_fixed_array_general (prof : Profile) (t : ParamType) (k n : Nat) (data : Bytes)
    (ht : dynamic t = true) (hd : data.length < 2 ^ 63) (hn : n < 2 ^ 32) (h : data.length < n)
    (hw : data.take 32 = word n) : decode prof [.fixedArray t k] data = .panic := by
  have hne : data ≠ [] := by
    intro e; subst e
    have := congrArg List.length hw
    rw [length_word] at this; simp at this
  have hp : peek32 prof data 0 = .ok (wordOf n) := peek32_of_take (by omega) (by simpa using hw)
  rw [decode, if_neg (by simp [hne])]
  simp only [decodeParams, decodeParam, type_isDynamic_eq, ht, if_true, hp, Res.ok_bind, asUsize_word hn,
    sliceFrom, if_neg (show ¬ n ≤ data.length by omega), Res.panic_bind]

/-- `offset + len` overflows for a `bytesN` type with N close to 2^64 (debug builds). -/
theorem C06_counterexample_wide_bytes :
    decode .debug [.uint 256, .fixedBytes (2 ^ 64 - 1)] (word 0) = .panic := by decide +kernel

/-! ## C07 trailing bytes -/

/-- **C07.** Appending bytes never changes a successful result. -/
theorem C07_trailing_bytes (prof : Profile) (ts : List ParamType) (data extra : Bytes) (toks : List Token)
    (h : decode prof ts data = .ok toks) : decode prof ts (data ++ extra) = .ok toks := by
  obtain ⟨hw, o, h1⟩ := decode_eq_ok h
  refine decode_of_params (decodeParams_mono prof extra ts data 0 _ h1) ?_
  rcases hw with hw | hw
  · exact Or.inl (by simp [hw])
  · exact Or.inr hw

example : decode .debug sampleTypes (encodeArgs sampleTokens sampleTypes) = .ok sampleTokens := by decide +kernel

/-! ## C08 truncation -/

/-- **C08.** Decoding a truncated encoding never yields different tokens. -/
theorem C08_truncation (pe pd : Profile) (ts : List ParamType) (toks toks' : List Token) (bs pre : Bytes)
    (ht : haveTypes toks ts = true) (hc : codableAll ts = true) (hf : countsFitAll toks = true)
    (hb : (encodeArgs toks ts).length < 2 ^ 32) (he : encode pe toks = .ok bs) (hp : pre <+: bs)
    (h : decode pd ts pre = .ok toks') : toks' = toks := by
  obtain ⟨rest, rfl⟩ := hp
  obtain ⟨-, o, h1⟩ := decode_eq_ok h
  have h2 := decodeParams_mono pd rest ts pre 0 _ h1
  rw [encode_eq_spec pe toks ts ht hc hf hb] at he
  simp only [Res.ok.injEq] at he
  have h3 := decodeParams_spec pd toks ts [] ht (bytesOkAll_of_codable ts hc) hf hb
    (by rw [List.append_nil]; omega)
  rw [List.append_nil, he, h2] at h3
  simp only [Res.ok.injEq, Prod.mk.injEq] at h3
  exact h3.1

/-- cutting the final zero padding is harmless, cutting more is detected -/
example : decode .debug [.bytes] ((encodeArgs [.bytes [1, 2]] [.bytes]).take 66) = .ok [.bytes [1, 2]]
    ∧ decode .debug [.bytes] ((encodeArgs [.bytes [1, 2]] [.bytes]).take 65) = .err .invalidData := by
  decide +kernel

/-! ## C09 normalisation -/

/-- **C09.** Tokens decoded from arbitrary data survive re-encoding. -/
theorem C09_reencode (pe pd pd' : Profile) (ts : List ParamType) (data : Bytes) (toks : List Token)
    (hu : ParamType.usizeOkAll ts = true) (hd : data.length < 2 ^ 63) (hc : codableAll ts = true)
    (hb : (encodeArgs toks ts).length < 2 ^ 32)
    (hw : nonzeroWidthAny ts = true ∨ ∀ t ∈ ts, ∃ u, t = .fixedArray u 0)
    (h : decode pd ts data = .ok toks) : ∃ bs, encode pe toks = .ok bs ∧ decode pd' ts bs = .ok toks :=
  C01_round_trip pe pd' ts toks (C05_decoded_typed pd ts data toks hu hd h).2.1 hc
    (by obtain ⟨-, o, h1⟩ := decode_eq_ok h; exact decodeParams_counts pd ts data 0 toks o h1) hb hw

/-- non-canonical data: two `bytes` values sharing one tail -/
example : decode .debug [.bytes, .bytes] (word 64 ++ word 64 ++ word 1 ++ [5]) = .ok [.bytes [5], .bytes [5]] := by
  decide +kernel

/-! ## C10 array lengths -/

/-- **C10.** However large the length words, every array obtained by decoding a `T[]` — at any position and
nesting depth — has at most `data.length / 32` elements, if no `T[]` with zero-width `T` occurs. -/
theorem C10_array_length_bound (prof : Profile) (ts : List ParamType) (data : Bytes) (toks : List Token)
    (hu : ParamType.usizeOkAll ts = true) (hz : noZeroWidthArrays ts = true) (hd : data.length < 2 ^ 63)
    (h : decode prof ts data = .ok toks) : ∀ tok ∈ toks, arraysAtMost (data.length / 32) tok := by
  obtain ⟨-, o, h1⟩ := decode_eq_ok h
  exact decodeParams_arrays prof ts data 0 toks o hu hz hd h1

example : noZeroWidthArrays [.bool, .array (.tuple [.tuple [], .array (.uint 8)])] = true ∧
    decode .debug [.bool, .array (.uint 8)] (word 1 ++ word 64 ++ word 2 ++ word 7 ++ word 8)
      = .ok [.bool true, .array [.uint 7, .uint 8]] := by decide +kernel

/-- For zero-width elements there is no bound: 64 bytes of data decode to any number of elements. -/
theorem C10_counterexample_zero_width (prof : Profile) (n : Nat) (hn : n < 2 ^ 32) :
    decode prof [.array (.tuple [])] (word 32 ++ word n) = .ok [.array (List.replicate n (.tuple []))] := by
  have h1 : haveTypes [.array (List.replicate n (.tuple []))] [.array (.tuple [])] = true := by
    simp only [haveTypes, hasType, Bool.and_true, allHaveType_iff, List.mem_replicate]
    rintro tok ⟨-, rfl⟩; rfl
  have hall : ∀ k, countsFitAll (List.replicate k (.tuple [])) = true := by
    intro k
    induction k with
    | zero => rfl
    | succ k ih => simp [List.replicate_succ, countsFitAll, countsFit, ih]
  have h2 : countsFitAll [.array (List.replicate n (.tuple []))] = true := by
    simp [countsFitAll, countsFit, hall]; omega
  have hlay : ∀ k, layout (encAll (List.replicate k (.tuple [])) (.tuple [])) = [] := by
    intro k
    rw [static_layout (allStatic_encAll _ _ rfl)]
    induction k with
    | zero => rfl
    | succ k ih => simp [List.replicate_succ, encAll, ih]; rfl
  have h3 : encodeArgs [.array (List.replicate n (.tuple []))] [.array (.tuple [])] = word 32 ++ word n := by
    simp only [encodeArgs, encZip, dynamic, enc, hlay, List.append_nil, List.length_replicate]
    simp [layout, Spec.heads, Spec.tails, headSize]
  have := decode_encodeArgs prof _ _ [] h1 (by decide) h2 (by rw [h3]; simp) (by rw [h3]; simp) (Or.inl rfl)
  rwa [h3, List.append_nil] at this

/-! ## C11 large offsets and lengths -/

/-- **C11 (offsets).** A dynamic value whose offset word holds 2^32 or more is rejected, wherever it stands
in the argument list (`us` are the types before it). -/
theorem C11_large_offset_rejected (prof : Profile) (us ts : List ParamType) (t : ParamType) (data : Bytes)
    (toks : List Token) (n : Nat) (hu : ParamType.usizeOkAll us = true) (hd : data.length < 2 ^ 63)
    (hus : decode prof us data = .ok toks) (ht : dynamic t = true)
    (hw : (data.drop (headPos us)).take 32 = word n) (h1 : 2 ^ 32 ≤ n) (h2 : n < 2 ^ 256) :
    decode prof (us ++ t :: ts) data = .err .invalidData := by
  refine decode_at_error hu hd ?_ hus (decodeParam_big_offset (by omega) ht hw h1 h2)
  intro e; subst e
  have := congrArg List.length hw
  rw [length_word] at this; simp at this

/-- **C11 (lengths).** A length word of 2^32 or more for `bytes`, `string` or `T[]` is rejected. -/
theorem C11_large_length_rejected (prof : Profile) (us ts : List ParamType) (t : ParamType) (data : Bytes)
    (toks : List Token) (o n : Nat) (hu : ParamType.usizeOkAll us = true) (hd : data.length < 2 ^ 63)
    (hus : decode prof us data = .ok toks) (ht : t = .bytes ∨ t = .string ∨ ∃ u, t = .array u)
    (hw : (data.drop (headPos us)).take 32 = word o) (ho : o < 2 ^ 32)
    (hn : (data.drop o).take 32 = word n) (h1 : 2 ^ 32 ≤ n) (h2 : n < 2 ^ 256) :
    decode prof (us ++ t :: ts) data = .err .invalidData := by
  refine decode_at_error hu hd ?_ hus (decodeParam_big_length (by omega) ht hw ho hn h1 h2)
  intro e; subst e
  have := congrArg List.length hw
  rw [length_word] at this; simp at this

example : decode .debug [.fixedArray (.uint 8) 2] (word 1 ++ word 2 ++ word (2 ^ 32)) = .ok [.fixedArray [.uint 1, .uint 2]]
    ∧ headPos [.fixedArray (.uint 8) 2] = 64 := by decide +kernel

/-! ## C12 booleans -/

/-- **C12, partial.** Exact behaviour on every word, after any successfully decoded arguments of types `us`:
1 is `true`; 0 *and 2..255* are `false`; everything else is rejected.  Missing: rejection of 2..255, which the
code does not do (`C12_counterexample`). -/
theorem C12_bool_partial (prof : Profile) (us : List ParamType) (toks : List Token) (data : Bytes) (n : Nat)
    (hu : ParamType.usizeOkAll us = true) (hd : data.length < 2 ^ 63) (hus : decode prof us data = .ok toks)
    (hn : n < 2 ^ 256) (hw : (data.drop (headPos us)).take 32 = word n) :
    decode prof (us ++ [.bool]) data =
      if n = 1 then .ok (toks ++ [.bool true]) else if n < 256 then .ok (toks ++ [.bool false])
      else .err .invalidData := by
  have hp := peek32_of_take (prof := prof) (by omega) hw
  have hl := take32_length hw
  have ho : usizeAdd prof (headPos us) 32 = .ok (headPos us + 32) := usizeAdd_ok (by omega)
  have hb : decodeParam prof .bool data (headPos us) =
      if n < 256 then .ok (.bool (decide (n = 1)), headPos us + 32) else .err .invalidData := by
    simp only [decodeParam, hp, Res.ok_bind, asBool_nat hn]
    by_cases h : n < 256
    · simp [h, ho]
    · simp [h]
  by_cases h : n < 256
  · rw [if_pos h] at hb
    rw [decode_at_ok hu hd (take32_ne_nil hw) hus hb]
    by_cases h1 : n = 1 <;> simp [h1, h]
  · rw [if_neg h] at hb
    rw [decode_at_error hu hd (take32_ne_nil hw) hus hb, if_neg (by omega), if_neg h]

example : decode .debug [.uint 8] (word 7 ++ word 1) = .ok [.uint 7] ∧ headPos [.uint 8] = 32
    ∧ ((word 7 ++ word 1).drop 32).take 32 = word 1 := by decide +kernel

/-- The word 2 is not rejected: it decodes to `false`. -/
theorem C12_counterexample (prof : Profile) : decode prof [.bool] (word 2) = .ok [.bool false] := by
  cases prof <;> decide +kernel

/-! ## C13 empty data -/

/-- **C13.** Empty data is refused with `InvalidName` unless every type is `bytes0` or `T[0]`. -/
theorem C13_empty_data_rejected (prof : Profile) (ts : List ParamType)
    (h : ¬ ∀ t ∈ ts, t = .fixedBytes 0 ∨ ∃ u, t = .fixedArray u 0) :
    ∃ msg, decode prof ts [] = .err (.invalidName msg) := by
  refine ⟨emptyDataMsg, ?_⟩
  rw [decode, if_pos]
  simp only [List.isEmpty_nil, Bool.and_true, Bool.not_eq_true']
  rw [Bool.eq_false_iff]
  intro hall
  apply h
  intro t ht
  have := List.all_eq_true.1 hall t ht
  cases t <;> simp_all [ParamType.isEmptyBytesValidEncoding]

/-- **C13.** The empty type list accepts every byte string. -/
theorem C13_no_types (prof : Profile) (data : Bytes) : decode prof [] data = .ok [] := rfl

/-- zero-length fixed arrays of static types are accepted on empty data -/
theorem C13_zero_length_accepted (prof : Profile) (us : List ParamType) (hs : ∀ u ∈ us, dynamic u = false) :
    decode prof (us.map (.fixedArray · 0)) [] = .ok (us.map fun _ => .fixedArray []) := by
  have key : ∀ off, decodeParams prof (us.map (.fixedArray · 0)) [] off = .ok (us.map fun _ => .fixedArray [], off) := by
    intro off
    induction us with
    | nil => rfl
    | cons u us ih =>
      have h1 := hs u (by simp)
      simp [decodeParams, decodeParam, type_isDynamic_eq, h1, decodeLoop, ih (fun v hv => hs v (by simp [hv]))]
  refine decode_of_params (key 0) (Or.inr ?_)
  simp [ParamType.isEmptyBytesValidEncoding]

example : ¬ ∀ t ∈ [ParamType.fixedBytes 0, .uint 256], t = .fixedBytes 0 ∨ ∃ u, t = .fixedArray u 0 := by
  intro h
  have := h (.uint 256) (by simp)
  simp at this

/-! ## C14 strings -/

/-- **C14.** A string field (after any successfully decoded arguments of types `us`) whose payload `b` is in
range always decodes; if `b` is the UTF-8 encoding (Lean core's `String.utf8EncodeChar`) of `s'` the result is
exactly `s'`; otherwise the result contains U+FFFD. -/
theorem C14_string_payload (prof : Profile) (us : List ParamType) (toks : List Token) (data b : Bytes) (o : Nat)
    (hu : ParamType.usizeOkAll us = true) (hd : data.length < 2 ^ 63) (hus : decode prof us data = .ok toks)
    (ho : o < 2 ^ 32) (hbl : b.length < 2 ^ 32) (h0 : (data.drop (headPos us)).take 32 = word o)
    (h1 : (data.drop o).take 32 = word b.length) (h2 : (data.drop (o + 32)).take b.length = b) :
    ∃ s, decode prof (us ++ [.string]) data = .ok (toks ++ [.string s]) ∧
      (∀ s', b = s'.flatMap String.utf8EncodeChar → s = s') ∧
      ((∀ s' : Str, b ≠ s'.flatMap String.utf8EncodeChar) → Char.ofNat 0xFFFD ∈ s) := by
  refine ⟨fromUtf8Lossy b, ?_, ?_, ?_⟩
  · exact decode_at_ok hu hd (take32_ne_nil h0) hus (payload_reads hd ho hbl h0 h1 h2).2
  · rintro s' rfl
    rw [← utf8_eq_core, lossy_utf8]
  · intro h
    rcases utf8_lossy b with e | e
    · exact absurd (utf8_eq_core _ ▸ e.symm) (h _)
    · exact e

/-- **C14** for `bytes`: the payload is returned unchanged. -/
theorem C14_bytes_payload (prof : Profile) (us : List ParamType) (toks : List Token) (data b : Bytes) (o : Nat)
    (hu : ParamType.usizeOkAll us = true) (hd : data.length < 2 ^ 63) (hus : decode prof us data = .ok toks)
    (ho : o < 2 ^ 32) (hbl : b.length < 2 ^ 32) (h0 : (data.drop (headPos us)).take 32 = word o)
    (h1 : (data.drop o).take 32 = word b.length) (h2 : (data.drop (o + 32)).take b.length = b) :
    decode prof (us ++ [.bytes]) data = .ok (toks ++ [.bytes b]) :=
  decode_at_ok hu hd (take32_ne_nil h0) hus (payload_reads hd ho hbl h0 h1 h2).1

example : (word 32 ++ word 3 ++ [0x61, 0xFF, 0x62] : Bytes).take 32 = word 32
    ∧ ((word 32 ++ word 3 ++ [0x61, 0xFF, 0x62] : Bytes).drop 32).take 32 = word 3
    ∧ decode .debug [.string] (word 32 ++ word 3 ++ [0x61, 0xFF, 0x62])
        = .ok [.string ['a', Char.ofNat 0xFFFD, 'b']] := by decide +kernel

/-! ## C15 short fixed bytes -/

/-- **C15.** Tokens with `bytesN` values of 1..N bytes type-check, and decoding their encoding returns them
right-padded with zeros to N bytes — at any position and nesting. -/
theorem C15_short_fixed_bytes (pe pd : Profile) (ts : List ParamType) (toks : List Token)
    (hv : valuesOf toks ts = true) (h0 : nonemptyFixedAll toks = true) (hc : codableAll ts = true)
    (hf : countsFitAll toks = true) (hb : (encodeArgs (zeroExtends toks ts) ts).length < 2 ^ 32)
    (hw : nonzeroWidthAny ts = true ∨ ∀ t ∈ ts, ∃ u, t = .fixedArray u 0) :
    Token.typesCheck toks ts = .ok true ∧
      ∃ bs, encode pe toks = .ok bs ∧ decode pd ts bs = .ok (zeroExtends toks ts) := by
  obtain ⟨i1, -, i3, i4⟩ := encodeTokens_zeroExtends pe toks ts hv h0 hc
  obtain ⟨bs, e1, e2⟩ := C01_round_trip pe pd ts (zeroExtends toks ts) i3 hc (by rw [i4]; exact hf) hb hw
  refine ⟨typesCheck_of_valuesOf hv, bs, ?_, e2⟩
  rw [encode, i1] at e1
  exact e1

example : valuesOf [.array [.fixedBytes [1]], .fixedBytes [7, 8]] [.array (.fixedBytes 3), .fixedBytes 2] = true
    ∧ nonemptyFixedAll [.array [.fixedBytes [1]], .fixedBytes [7, 8]] = true
    ∧ codableAll [.array (.fixedBytes 3), .fixedBytes 2] = true
    ∧ zeroExtends [.array [.fixedBytes [1]], .fixedBytes [7, 8]] [.array (.fixedBytes 3), .fixedBytes 2]
        = [.array [.fixedBytes [1, 0, 0]], .fixedBytes [7, 8]] := by decide +kernel

/-- An *empty* `FixedBytes` also type-checks as `bytesN` but encodes to no word at all, shifting everything
after it. -/
theorem C15_counterexample_empty (pe pd : Profile) :
    Token.typesCheck [.fixedBytes [], .uint 7] [.fixedBytes 4, .uint 256] = .ok true ∧
      encode pe [.fixedBytes [], .uint 7] = .ok (word 7) ∧
      decode pd [.fixedBytes 4, .uint 256] (word 7) = .err .invalidData := by
  cases pe <;> cases pd <;> decide +kernel

/-! ## C16 static sizes -/

/-- **C16.** For static types the encoding has the size given by the types alone and is the concatenation of
the encodings of the single tokens. -/
theorem C16_static_size (prof : Profile) (ts : List ParamType) (toks : List Token)
    (ht : haveTypes toks ts = true) (hc : codableAll ts = true) (hst : dynamicAny ts = false)
    (hf : countsFitAll toks = true) (hb : staticSizeAll ts < 2 ^ 32) :
    ∃ bss : List Bytes, List.Forall₂ (fun tok b => encode prof [tok] = .ok b) toks bss ∧
      encode prof toks = .ok bss.flatten ∧ bss.flatten.length = staticSizeAll ts := by
  have hsz := staticSize_encZip toks ts ht hc hst
  have he := encode_eq_spec prof toks ts ht hc hf (by rw [encodeArgs, hsz]; exact hb)
  have hl := static_layout (allStatic_encZip toks ts hst)
  refine ⟨(encZip toks ts).map (·.2), ?_, ?_, ?_⟩
  · clear he hl hsz
    induction toks generalizing ts with
    | nil =>
      cases ts with
      | nil => exact .nil
      | cons => simp [haveTypes] at ht
    | cons tok toks ih =>
      cases ts with
      | nil => simp [haveTypes] at ht
      | cons t ts =>
        simp only [haveTypes, Bool.and_eq_true] at ht
        simp only [codableAll, Bool.and_eq_true] at hc
        simp only [countsFitAll, Bool.and_eq_true] at hf
        simp only [dynamicAny, Bool.or_eq_false_iff] at hst
        simp only [staticSizeAll] at hb
        refine .cons ?_ (ih ts ht.2 hc.2 hst.2 hf.2 (by omega))
        have h1 := staticSize_enc tok t ht.1 hc.1 hst.1
        have h2 : layout (encZip [tok] [t]) = enc tok t := by
          rw [static_layout (allStatic_encZip _ _ (by simp [dynamicAny, hst.1]))]; simp [encZip]
        have := encode_eq_spec prof [tok] [t] (by simp [haveTypes, ht.1]) (by simp [codableAll, hc.1])
          (by simp [countsFitAll, hf.1]) (by rw [encodeArgs, h2]; omega)
        rw [this, encodeArgs, h2]
  · rw [he, encodeArgs, hl, List.flatMap_def]
  · rw [← List.flatMap_def, ← hl, hsz]

example : haveTypes [.tuple [.uint 1, .fixedArray [.bool true, .bool false]], .address ⟨List.replicate 20 9, rfl⟩]
      [.tuple [.uint 8, .fixedArray .bool 2], .address] = true
    ∧ staticSizeAll [.tuple [.uint 8, .fixedArray .bool 2], .address] = 128 := by decide +kernel

/-! ## C17 type checking -/

/-- **C17, partial.** If member counts agree wherever a tuple token meets a tuple type (`arityMatchZip`; in
particular for tuple-free types), `types_check` is true exactly for the values of the types and does not panic.
Missing: tuples with a different number of members (`C17_counterexample_*`). -/
theorem C17_types_check_partial (toks : List Token) (ts : List ParamType) (h : arityMatchZip toks ts = true) :
    Token.typesCheck toks ts = .ok (valuesOf toks ts) := typesCheck_eq toks ts h

/-- **C17** in full for tuple-free types. -/
theorem C17_types_check_tuple_free (toks : List Token) (ts : List ParamType) (h : ts.all tupleFree = true) :
    Token.typesCheck toks ts = .ok (valuesOf toks ts) := typesCheck_eq toks ts (tupleFree_arityZip toks ts h)

/-- **C17**, one direction without any restriction: every value of the types is accepted. -/
theorem C17_values_accepted (toks : List Token) (ts : List ParamType) (h : valuesOf toks ts = true) :
    Token.typesCheck toks ts = .ok true := typesCheck_of_valuesOf h

example : arityMatchZip [.tuple [.uint 1, .bool true]] [.tuple [.uint 8, .string]] = true
    ∧ valuesOf [.tuple [.uint 1, .bool true]] [.tuple [.uint 8, .string]] = false := by decide

/-- A tuple with too few members passes the type check … -/
theorem C17_counterexample_short_tuple :
    Token.typesCheck [.tuple []] [.tuple [.bool]] = .ok true ∧ valuesOf [.tuple []] [.tuple [.bool]] = false := by
  decide

/-- … and one with too many members makes it panic (index out of range, token.rs:128). -/
theorem C17_counterexample_long_tuple :
    Token.typesCheck [.tuple [.bool true, .bool true]] [.tuple [.bool]] = .panic := by decide

/-! ## C53 oversized input -/

/-- **C53, partial.** Below 4 GiB every offset and length word is the true one (C02, restated for the record);
missing: inputs of 4 GiB and more, for which the claim is false (`C53_counterexample`). -/
theorem C53_words_true_partial (prof : Profile) (ts : List ParamType) (toks : List Token)
    (ht : haveTypes toks ts = true) (hs : solidityAll ts = true) (hb : (encodeArgs toks ts).length < 2 ^ 32) :
    encode prof toks = .ok (encodeArgs toks ts) := C02_encode_conforms_solidity prof ts toks ht hs hb

/-- In a release build a `bytes` value of exactly 2^32 bytes is encoded with length word 0, no error;
a debug build panics. -/
theorem C53_counterexample (b : Bytes) (hb : b.length = 2 ^ 32) :
    (∃ bs, encode .release [.bytes b] = .ok bs ∧ (bs.drop 32).take 32 = word 0) ∧
      encode .debug [.bytes b] = .panic := by
  have hpl : (padFixedBytes b).length = 134217728 := by
    simp only [padFixedBytes, List.length_map, List.length_range, hb]; norm_num
  have hl : (padBytes b).length = 134217729 := by simp [padBytes, hpl]
  have h0 : asU32 b.length = 0 := by rw [hb]; rfl
  have hm : asU32 (padBytes b).length * 32 = 4294967328 := by rw [hl]; rfl
  refine ⟨⟨(padU32 32).1 ++ flattenWords (padBytes b), ?_, ?_⟩, ?_⟩
  · simp only [encode, encodeTokens, encodeToken, Res.ok_bind, encodeHeadTail, Mediate.assemble,
      Mediate.sumHeadLen, Mediate.headLen, Mediate.heads, Mediate.tailLen, Mediate.tails, Mediate.tail,
      Mediate.head, u32mul, hm, u32add, machine]
    simp [flattenWords_cons]
  · have h32 : (padU32 32).1.length = 32 := (padU32 32).2
    rw [List.drop_append_of_le_length (by omega), List.drop_of_length_le (by omega), List.nil_append, padBytes,
      flattenWords_cons, h0]
    have h32' : (padU32 0).1.length = 32 := (padU32 0).2
    rw [List.take_append_of_le_length (by omega), List.take_of_length_le (by omega)]
    exact padU32_val 0 (by decide)
  · simp only [encode, encodeTokens, encodeToken, Res.ok_bind, encodeHeadTail, Mediate.assemble,
      Mediate.sumHeadLen, Mediate.headLen, Mediate.heads, Mediate.tailLen, Mediate.tails, Mediate.tail,
      Mediate.head, u32mul, hm, u32add, machine]
    simp

theorem exists_bytes (n : Nat) : ∃ b : Bytes, b.length = n := ⟨List.replicate n 0, List.length_replicate⟩
example : ∃ b : Bytes, b.length = 2 ^ 32 := exists_bytes _

end Ethabi.Props

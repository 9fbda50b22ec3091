import Verif.Proofs.Size
import Verif.Proofs.EncodeFine
import Verif.Proofs.SizeSpec
import Verif.Props.Codec
/-!
# Properties C66, C67 and more of C53: build profiles, sizes, overflow
-/
namespace Ethabi.Props
open Ethabi Spec

/-! ## C66 debug and release builds agree -/

/-- **C66, encoder.** If a debug build does not panic, a release build returns the same. -/
theorem C66_encode (toks : List Token) (h : encode .debug toks ≠ .panic) :
    encode .release toks = encode .debug toks := (agree_encode toks).resolve_left h

/-- **C66, decoder.** Decoding does not depend on the profile at all (`bytesN` widths below 2^62). -/
theorem C66_decode (ts : List ParamType) (data : Bytes) (hn : narrowAll ts = true) (hd : data.length < 2 ^ 63) :
    decode .release ts data = decode .debug ts data := decode_profile _ _ ts data hn hd

/-- … and for all types if the debug build does not panic -/
theorem C66_decode_any (ts : List ParamType) (data : Bytes) (h : decode .debug ts data ≠ .panic) :
    decode .release ts data = decode .debug ts data := (agree_decode ts data).resolve_left h

theorem C66_function_encode_input (hash : Bytes → Word) (f : Function) (toks : List Token)
    (h : f.encodeInput hash .debug toks ≠ .panic) : f.encodeInput hash .release toks = f.encodeInput hash .debug toks :=
  (agree_function_encodeInput hash f toks).resolve_left h

theorem C66_constructor_encode_input (c : Constructor) (code : Bytes) (toks : List Token)
    (h : c.encodeInput .debug code toks ≠ .panic) : c.encodeInput .release code toks = c.encodeInput .debug code toks :=
  (agree_constructor_encodeInput c code toks).resolve_left h

theorem C66_filter (hash : Bytes → Word) (e : Event) (raw : RawTopicFilter)
    (h : e.filter hash .debug raw ≠ .panic) : e.filter hash .release raw = e.filter hash .debug raw :=
  (agree_filter hash e raw).resolve_left h

theorem C66_parse_log (hash : Bytes → Word) (e : Event) (log : RawLog)
    (h : e.parseLog hash .debug log ≠ .panic) : e.parseLog hash .release log = e.parseLog hash .debug log :=
  (agree_parseLog hash e log).resolve_left h

example : encode .debug [.string ['x'], .uint 7] ≠ .panic := by decide +kernel
example : narrowAll [.fixedArray .string 1, .tuple [.fixedBytes 32]] = true := by decide

/-! ## C67 size of an encoding; overflow -/

/-- **C67.** `encode` never returns an error, for any tokens, and in release builds never panics. -/
theorem C67_never_error (prof : Profile) (toks : List Token) :
    (∀ e, encode prof toks ≠ .err e) ∧ ∃ bs, encode .release toks = .ok bs := by
  refine ⟨(fine_encode prof toks).1, ?_⟩
  have h := fine_encode .release toks
  cases he : encode .release toks with
  | ok bs => exact ⟨bs, rfl⟩
  | err e => exact absurd he (h.1 e)
  | panic => exact absurd he (h.2 rfl)

/-- **C67.** Below 4 GiB `encode` succeeds in every build, for arbitrary (also ill-typed) tokens, and the result has exactly the
size computed from the values. -/
theorem C67_size (prof : Profile) (toks : List Token) (h : sizeAll toks < 2 ^ 32) :
    ∃ bs, encode prof toks = .ok bs ∧ bs.length = sizeAll toks := by
  obtain ⟨bs, hb, hl⟩ := (encode_sized toks (payloadsBelowAll_of_size toks h)).1 h
  cases prof with
  | debug => exact ⟨bs, hb, hl⟩
  | release => exact ⟨bs, by rw [C66_encode toks (by rw [hb]; simp), hb], hl⟩

/-- **C67, C53.** A debug build panics exactly when the encoding has 4 GiB or more, as long as no single byte string has
2^37 - 63 bytes (128 GiB). -/
theorem C67_debug_overflow (toks : List Token) (hp : payloadsBelowAll (2 ^ 37 - 63) toks = true) :
    encode .debug toks = .panic ↔ 2 ^ 32 ≤ sizeAll toks := by
  obtain ⟨h1, h2⟩ := encode_sized toks hp
  constructor
  · intro h
    by_contra hlt
    obtain ⟨bs, hb, -⟩ := h1 (by omega)
    rw [hb] at h; cases h
  · exact h2

example : sizeAll [.array [.bytes [1, 2, 3], .bytes (List.replicate 33 0)], .tuple [.bool true, .fixedArray []], .fixedBytes []]
    = 32 + 32 + 32 + 64 + 32 + 96 + 32 := by decide
example : payloadsBelowAll (2 ^ 37 - 63) [.array [.bytes [1, 2, 3]], .string ['x']] = true := by decide

/-! ## C53: in debug builds -/

/-- **C53, debug builds, partial.** The call fails rather than produce wrong words: tokens of Solidity types are encoded as specified
or the call panics.  Missing: byte strings of 128 GiB and more (`C53_counterexample_debug`), and release builds
(`C53_counterexample`). -/
theorem C53_debug_partial (ts : List ParamType) (toks : List Token) (ht : haveTypes toks ts = true) (hs : solidityAll ts = true)
    (hp : payloadsBelowAll (2 ^ 37 - 63) toks = true) :
    encode .debug toks = .ok (encodeArgs toks ts) ∨ (encode .debug toks = .panic ∧ 2 ^ 32 ≤ (encodeArgs toks ts).length) := by
  have hsz := size_encodeArgs toks ts ht (solidity_codableAll ts hs)
  by_cases hlt : (encodeArgs toks ts).length < 2 ^ 32
  · exact .inl (C02_encode_conforms_solidity .debug ts toks ht hs hlt)
  · exact .inr ⟨(C67_debug_overflow toks hp).2 (by omega), by omega⟩

example : haveTypes [.bytes [1, 2, 3]] [.bytes] = true ∧ solidityAll [.bytes] = true := by decide

/-- Even in a debug build a `bytes` value of 2^37 - 63 bytes gets the length word 2^32 - 63, without error: the number of words,
2^32, is cast to `u32` (encoder.rs:67) before the checked multiplication. -/
theorem C53_counterexample_debug (prof : Profile) (b : Bytes) (hb : b.length = 2 ^ 37 - 63) :
    ∃ bs, encode prof [.bytes b] = .ok bs ∧ (bs.drop 32).take 32 = word (2 ^ 32 - 63) := by
  have hpl : (padFixedBytes b).length = 4294967295 := by
    simp only [padFixedBytes, List.length_map, List.length_range, hb]; norm_num
  have hl : (padBytes b).length = 4294967296 := by simp [padBytes, hpl]
  have h0 : asU32 b.length = 2 ^ 32 - 63 := by rw [hb]; rfl
  have hm : asU32 (padBytes b).length * 32 = 0 := by rw [hl]; rfl
  refine ⟨(padU32 32).1 ++ flattenWords (padBytes b), ?_, ?_⟩
  · simp only [encode, encodeTokens, encodeToken, Res.ok_bind, encodeHeadTail, Mediate.assemble,
      Mediate.sumHeadLen, Mediate.headLen, Mediate.heads, Mediate.tailLen, Mediate.tails, Mediate.tail,
      Mediate.head, u32mul, hm, u32add, machine]
    simp [flattenWords_cons]
  · have h32 : (padU32 32).1.length = 32 := (padU32 32).2
    rw [List.drop_append_of_le_length (by omega), List.drop_of_length_le (by omega), List.nil_append, padBytes,
      flattenWords_cons, h0]
    have h32' : (padU32 (2 ^ 32 - 63)).1.length = 32 := (padU32 (2 ^ 32 - 63)).2
    rw [List.take_append_of_le_length (by omega), List.take_of_length_le (by omega)]
    exact padU32_val _ (by decide)

example : ∃ b : Bytes, b.length = 2 ^ 37 - 63 := exists_bytes _

end Ethabi.Props

import Verif.Proofs.Canonical
import Verif.Props.Significant
import Verif.Props.Limits
/-!
# C116: the data that `encode` gives back

`encode(decode(data)) = data` as a test for canonical data.
-/
namespace Ethabi.Props
open Spec Canonical

/-- **C116**, one list of values: the values decoded from `a` are encoded as `a` exactly if `a` is the specified encoding of
these values. -/
theorem C116_values (pe pd : Profile) (ts : List ParamType) (a : Bytes) (toks : List Token) (hu : ParamType.usizeOkAll ts = true)
    (hc : codableAll ts = true) (ha : a.length < 2 ^ 32) (h : decode pd ts a = .ok toks) :
    encode pe toks = .ok a ↔ encodeArgs toks ts = a := by
  have ht := (C05_decoded_typed pd ts a toks hu (by omega) h).2.1
  have hf : countsFitAll toks = true := by
    obtain ⟨-, o, h1⟩ := decode_eq_ok h; exact decodeParams_counts pd ts a 0 toks o h1
  constructor
  · intro he
    have hl : (encodeArgs toks ts).length = a.length := by
      rcases C82_any_build pe ts toks ht hc with h1 | ⟨_, h1⟩
      · rw [he] at h1
        rw [Res.ok.inj h1]
        exact (Wrap.alike_args toks ts).symm
      · rw [he] at h1; cases h1
    have := C02_encode_conforms pe ts toks ht hc hf (by omega)
    rw [he] at this
    exact (Res.ok.inj this).symm
  · intro he
    rw [C02_encode_conforms pe ts toks ht hc hf (by rw [he]; exact ha), he]

/-- **C116**: `decode` followed by `encode` gives back `a` exactly if `a` is the specified encoding of some values of the types. -/
theorem C116_fixed_points (pe pd : Profile) (ts : List ParamType) (a : Bytes) (hu : ParamType.usizeOkAll ts = true)
    (hc : codableAll ts = true) (ha : a.length < 2 ^ 32) (hw : nonzeroWidthAny ts = true ∨ ∀ t ∈ ts, ∃ u, t = .fixedArray u 0) :
    (∃ toks, decode pd ts a = .ok toks ∧ encode pe toks = .ok a) ↔
      ∃ toks, haveTypes toks ts = true ∧ countsFitAll toks = true ∧ encodeArgs toks ts = a := by
  constructor
  · rintro ⟨toks, h1, h2⟩
    refine ⟨toks, (C05_decoded_typed pd ts a toks hu (by omega) h1).2.1, ?_, (C116_values pe pd ts a toks hu hc ha h1).1 h2⟩
    obtain ⟨-, o, h3⟩ := decode_eq_ok h1; exact decodeParams_counts pd ts a 0 toks o h3
  · rintro ⟨toks, ht, hf, rfl⟩
    obtain ⟨bs, h1, h2⟩ := C01_round_trip pe pd ts toks ht hc hf ha hw
    have := C02_encode_conforms pe ts toks ht hc hf ha
    rw [h1] at this
    cases this
    exact ⟨toks, h2, h1⟩

/-- **C116**, static types: exactly the data of the right length with zero padding are given back. -/
theorem C116_static (pe pd : Profile) (ts : List ParamType) (a : Bytes) (toks : List Token) (hu : ParamType.usizeOkAll ts = true)
    (hc : codableAll ts = true) (hs : dynamicAny ts = false) (hb : staticSizeAll ts < 2 ^ 32) (ha : a.length < 2 ^ 63)
    (h : decode pd ts a = .ok toks) : encode pe toks = .ok a ↔ a.length = staticSizeAll ts ∧ paddedAll ts 0 a := by
  have ht := (C05_decoded_typed pd ts a toks hu ha h).2.1
  have hf : countsFitAll toks = true := by
    obtain ⟨-, o, h1⟩ := decode_eq_ok h; exact decodeParams_counts pd ts a 0 toks o h1
  have hl := staticSize_encZip toks ts ht hc hs
  have hr := ((C74_decodes_exactly pd ts a toks (narrowAll_of_codable ts hc) ha).1 h).2
  have hx := encZip_slice a ts 0 toks hs hc ht hr
  rw [List.drop_zero] at hx
  rw [C02_encode_conforms pe ts toks ht hc hf (by rw [encodeArgs, hl]; exact hb), encodeArgs, ← hx, Res.ok.injEq]
  constructor
  · rintro rfl
    exact ⟨hl, by rw [← hl, List.take_length]⟩
  · rintro ⟨h1, h2⟩
    rw [h2, ← h1, List.take_length]

/-- **C116**, integers and `bytes32`: only the length matters. -/
theorem C116_full (pe pd : Profile) (ts : List ParamType) (a : Bytes) (toks : List Token) (hu : ParamType.usizeOkAll ts = true)
    (hc : codableAll ts = true) (hf : fullAll ts = true) (hb : staticSizeAll ts < 2 ^ 32) (ha : a.length < 2 ^ 63)
    (h : decode pd ts a = .ok toks) : encode pe toks = .ok a ↔ a.length = staticSizeAll ts := by
  rw [C116_static pe pd ts a toks hu hc (Significant.fullAll_static ts hf).1 hb ha h]
  exact ⟨fun x => x.1, fun x => ⟨x, paddedAll_full a ts 0 hf⟩⟩

/-- **C116**: accepted data may be shorter than what is given back: here two `bytes` share their tail. -/
theorem C116_counterexample_shorter : (∃ bs, decode .debug [.bytes, .bytes] (word 64 ++ word 64 ++ word 1 ++ [5]) = .ok [.bytes [5], .bytes [5]] ∧
    encode .debug [.bytes [5], .bytes [5]] = .ok bs ∧ (word 64 ++ word 64 ++ word 1 ++ [5]).length = 97 ∧ bs.length = 192) :=
  ⟨encodeArgs [.bytes [5], .bytes [5]] [.bytes, .bytes], by decide +kernel, by decide +kernel, by decide +kernel, by decide +kernel⟩

example : codableAll [.bool, .fixedBytes 2, .fixedArray .address 1] = true ∧ dynamicAny [.bool, .fixedBytes 2, .fixedArray .address 1] = false ∧
    ParamType.usizeOkAll [.bool, .fixedBytes 2, .fixedArray .address 1] = true ∧ staticSizeAll [.bool, .fixedBytes 2, .fixedArray .address 1] = 96 ∧
    decode .debug [.bool, .fixedBytes 2, .fixedArray .address 1] (word 1 ++ [1, 2] ++ List.replicate 30 0 ++ word 5) =
      .ok [.bool true, .fixedBytes [1, 2], .fixedArray [.address ⟨List.replicate 19 0 ++ [5], rfl⟩]] ∧
    encode .debug [.bool true, .fixedBytes [1, 2], .fixedArray [.address ⟨List.replicate 19 0 ++ [5], rfl⟩]] =
      .ok (word 1 ++ [1, 2] ++ List.replicate 30 0 ++ word 5) := by decide +kernel
/-- padding that is not zero is accepted and lost -/
example : decode .debug [.bool, .fixedBytes 2] (word 2 ++ [1, 2] ++ List.replicate 30 7) = .ok [.bool false, .fixedBytes [1, 2]] ∧
    encode .debug [.bool false, .fixedBytes [1, 2]] = .ok (word 0 ++ [1, 2] ++ List.replicate 30 0) ∧
    ¬ paddedAll [.bool, .fixedBytes 2] 0 (word 2 ++ [1, 2] ++ List.replicate 30 7) := by
  refine ⟨by decide +kernel, by decide +kernel, ?_⟩
  unfold paddedAll
  rintro ⟨h, _⟩
  revert h
  unfold padded
  decide +kernel
example : encodeArgs [.bytes [5], .bool true] [.bytes, .bool] = word 64 ++ word 1 ++ word 1 ++ [5] ++ List.replicate 31 0 ∧
    decode .release [.bytes, .bool] (word 64 ++ word 1 ++ word 1 ++ [5] ++ List.replicate 31 0) = .ok [.bytes [5], .bool true] := by decide +kernel

end Ethabi.Props

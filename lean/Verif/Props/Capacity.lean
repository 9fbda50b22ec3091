import Verif.Proofs.Capacity
import Verif.Props.Sizes
/-! # Property C103: encoding on targets with a `usize` of 32 bits -/
namespace Ethabi.Props
open Ethabi Spec

/-- The model with the capacity checks is the model of the other claims for 64 bits: there the checks never fail. -/
theorem C103_same_code (prof : Profile) (toks : List Token) : encodeOn 64 prof toks = encode prof toks :=
  Capacity.encode_64 prof toks

/-- On every target `encode` returns what it returns on 64 bits, or panics. -/
theorem C103_same_or_panic (bits : Nat) (prof : Profile) (toks : List Token) :
    encodeOn bits prof toks = .panic ∨ encodeOn bits prof toks = encode prof toks := Capacity.cut_encode bits prof toks

/-- **C103.** On 32 bits `encode` panics exactly when the head area or the tail area of the encoding takes 64 MiB (2^26 bytes)
or more, and otherwise returns what it returns on 64 bits (both profiles, encodings below 4 GiB, any tokens). -/
theorem C103_exact (prof : Profile) (toks : List Token) (hs : sizeAll toks < 2 ^ 32) :
    encodeOn 32 prof toks = if 2 ^ 26 ≤ headBytes toks ∨ 2 ^ 26 ≤ tailBytes toks then .panic else encode prof toks :=
  Capacity.encode_32 prof toks hs

/-- **C103**, debug builds: without the limit of 4 GiB, for byte strings below 2^37 - 63 bytes. -/
theorem C103_debug (toks : List Token) (hp : payloadsBelowAll (2 ^ 37 - 63) toks = true) :
    encodeOn 32 .debug toks = if 2 ^ 26 ≤ headBytes toks ∨ 2 ^ 26 ≤ tailBytes toks then .panic else encode .debug toks := by
  by_cases hs : sizeAll toks < 2 ^ 32
  · exact C103_exact .debug toks hs
  · have hb := Capacity.bytes_sum toks
    rw [if_pos (by omega)]
    rcases C103_same_or_panic 32 .debug toks with e | e
    · exact e
    · rw [e, (C67_debug_overflow toks hp).2 (by omega)]

/-- Heads and tails make up the encoding. -/
theorem C103_areas (prof : Profile) (toks : List Token) (hs : sizeAll toks < 2 ^ 32) :
    ∃ bs, encode prof toks = .ok bs ∧ bs.length = headBytes toks + tailBytes toks := by
  rw [Capacity.bytes_sum]
  exact C67_size prof toks hs

/-- **C103**, values of Solidity types: an encoding below 64 MiB comes out as specified on 32 bits too. -/
theorem C103_conforms (prof : Profile) (ts : List ParamType) (toks : List Token) (ht : haveTypes toks ts = true)
    (hs : solidityAll ts = true) (hl : (encodeArgs toks ts).length < 2 ^ 26) :
    encodeOn 32 prof toks = .ok (encodeArgs toks ts) := by
  have hsz := size_encodeArgs toks ts ht (solidity_codableAll ts hs)
  have hb := Capacity.bytes_sum toks
  rw [C103_exact prof toks (by omega), if_neg (by omega)]
  exact C02_encode_conforms_solidity prof ts toks ht hs (by omega)

/-- **C103**, calls: `Function::encode_input` on 32 bits. -/
theorem C103_function (hash : Bytes → Word) (prof : Profile) (f : Function) (toks : List Token) (hs : sizeAll toks < 2 ^ 32) :
    f.encodeInputOn 32 hash prof toks = match f.encodeInput hash prof toks with
      | .ok out => if 2 ^ 26 ≤ headBytes toks ∨ 2 ^ 26 ≤ tailBytes toks then .panic else .ok out
      | r => r := by
  obtain ⟨bs, hb, -⟩ := C67_size prof toks hs
  unfold Function.encodeInputOn Function.encodeInput
  dsimp only
  cases Token.typesCheck toks f.inputParamTypes with
  | err e => rfl
  | panic => rfl
  | ok b =>
    cases b with
    | false => rfl
    | true =>
      rw [C103_exact prof toks hs, hb]
      simp only [Res.ok_bind, Bool.not_true, Bool.false_eq_true, if_false]
      split <;> simp

/-- **C103**, calls: `Constructor::encode_input` on 32 bits. -/
theorem C103_constructor (prof : Profile) (c : Constructor) (code : Bytes) (toks : List Token) (hs : sizeAll toks < 2 ^ 32) :
    c.encodeInputOn 32 prof code toks = match c.encodeInput prof code toks with
      | .ok out => if 2 ^ 26 ≤ headBytes toks ∨ 2 ^ 26 ≤ tailBytes toks then .panic else .ok out
      | r => r := by
  obtain ⟨bs, hb, -⟩ := C67_size prof toks hs
  unfold Constructor.encodeInputOn Constructor.encodeInput
  cases Token.typesCheck toks c.paramTypes with
  | err e => rfl
  | panic => rfl
  | ok b =>
    cases b with
    | false => rfl
    | true =>
      rw [C103_exact prof toks hs, hb]
      simp only [Res.ok_bind, if_true]
      split <;> simp

/-- The two targets differ: a `bytes` value of 64 MiB - 32 bytes. -/
theorem C103_counterexample (prof : Profile) (b : Bytes) (hb : b.length = 2 ^ 26 - 32) :
    encodeOn 32 prof [.bytes b] = .panic ∧ ∃ bs, encode prof [.bytes b] = .ok bs ∧ bs.length = 2 ^ 26 + 32 := by
  have hsz : size (.bytes b) = 2 ^ 26 := by rw [size, hb, roundUp]; norm_num
  have h1 : sizeAll [.bytes b] = 2 ^ 26 + 32 := by simp only [sizeAll, tailed, hsz, if_true]; norm_num
  refine ⟨?_, ?_⟩
  · rw [C103_exact prof _ (by rw [h1]; norm_num), if_pos (Or.inr (by simp only [tailBytes, tailed, hsz, if_true]; norm_num))]
  · obtain ⟨bs, e, hl⟩ := C67_size prof [.bytes b] (by rw [h1]; norm_num)
    exact ⟨bs, e, by rw [hl, h1]⟩

/-- With 32 bytes less it is as on 64 bits. -/
theorem C103_limit (prof : Profile) (b : Bytes) (hb : b.length ≤ 2 ^ 26 - 64) :
    encodeOn 32 prof [.bytes b] = encode prof [.bytes b] := by
  have hsz : size (.bytes b) < 2 ^ 26 := by rw [size, roundUp]; omega
  have h1 : sizeAll [.bytes b] < 2 ^ 32 := by
    simp only [sizeAll, tailed, if_true]; omega
  rw [C103_exact prof _ h1, if_neg]
  simp only [headBytes, tailBytes, tailed, if_true]
  omega

example : ∃ b : Bytes, b.length = 2 ^ 26 - 32 := exists_bytes _
/-- heads and tails of a mixed list -/
example : headBytes [.uint 1, .bytes [1], .fixedArray [.bool true, .bool false], .array [.string ['x']]] = 32 + 32 + 64 + 32 ∧
    tailBytes [.uint 1, .bytes [1], .fixedArray [.bool true, .bool false], .array [.string ['x']]] = 64 + 128 := by decide
/-- the same code on a small value, nested -/
example : encodeOn 32 .debug [.array [.tuple [.string ['x'], .uint 7]], .fixedArray [.bool true]] =
    encode .debug [.array [.tuple [.string ['x'], .uint 7]], .fixedArray [.bool true]] ∧
    (encodeOn 32 .debug [.array [.tuple [.string ['x'], .uint 7]], .fixedArray [.bool true]]) ≠ .panic := by decide +kernel

end Ethabi.Props

import Verif.Props.Codec
import Verif.Proofs.Text
/-!
# Properties C18–C21: function and constructor calls

`hash` stands for Keccak-256 and is universally quantified.
-/
namespace Ethabi.Props
open Spec

/-- a function `f(uint256[],(string,bytes3)[2],bool)` returning `bool` -/
def sampleFunction : Function :=
  { name := lit "f"
    inputs := sampleTypes.map fun t => { name := [], kind := t, internalType := none }
    outputs := [{ name := [], kind := .bool, internalType := none }]
    constant := false
    stateMutability := .nonPayable }

/-! ## C18 -/

/-- **C18.** On well-typed tokens `encode_input` yields four selector bytes followed by the specified
encoding, and `decode_input` of what follows the selector gives the tokens back. -/
theorem C18_function_round_trip (hash : Bytes → Word) (pe pd : Profile) (f : Function) (toks : List Token)
    (ht : haveTypes toks (f.inputs.map (·.kind)) = true) (hc : codableAll (f.inputs.map (·.kind)) = true)
    (hf : countsFitAll toks = true) (hb : (encodeArgs toks (f.inputs.map (·.kind))).length < 2 ^ 32)
    (hw : nonzeroWidthAny (f.inputs.map (·.kind)) = true ∨ f.inputs = []) :
    ∃ sel args, sel.length = 4 ∧ f.encodeInput hash pe toks = .ok (sel ++ args) ∧
      args = encodeArgs toks (f.inputs.map (·.kind)) ∧ f.decodeInput pd args = .ok toks := by
  obtain ⟨bs, h1, h2⟩ := C01_round_trip pe pd _ toks ht hc hf hb (by
    rcases hw with h | h
    · exact Or.inl h
    · exact Or.inr (by simp [h]))
  have h3 := C02_encode_conforms pe _ toks ht hc hf hb
  have e : bs = encodeArgs toks (f.inputs.map (·.kind)) := by
    rw [h1] at h3; exact Res.ok.inj h3
  refine ⟨shortSignature hash f.name f.inputParamTypes, bs, ?_, ?_, e, h2⟩
  · simp [shortSignature, (hash _).2]
  · have hty := typesCheck_of_valuesOf (haveTypes_valuesOf _ _ ht)
    simp only [Function.encodeInput, Function.inputParamTypes, hty, Res.ok_bind, h1]
    rfl

/-- **C18** for Solidity types. -/
theorem C18_function_round_trip_solidity (hash : Bytes → Word) (pe pd : Profile) (f : Function) (toks : List Token)
    (ht : haveTypes toks (f.inputs.map (·.kind)) = true) (hs : solidityAll (f.inputs.map (·.kind)) = true)
    (hb : (encodeArgs toks (f.inputs.map (·.kind))).length < 2 ^ 32) :
    ∃ sel args, sel.length = 4 ∧ f.encodeInput hash pe toks = .ok (sel ++ args) ∧
      args = encodeArgs toks (f.inputs.map (·.kind)) ∧ f.decodeInput pd args = .ok toks := by
  refine C18_function_round_trip hash pe pd f toks ht (solidity_codableAll _ hs)
    (solidity_countsFitZip _ _ ht hs hb) hb ?_
  rcases hi : f.inputs with _ | ⟨p, ps⟩
  · exact Or.inr rfl
  · rw [hi] at hs
    exact Or.inl (solidity_nonzeroAny _ rfl hs)

example : haveTypes sampleTokens (sampleFunction.inputs.map (·.kind)) = true
    ∧ solidityAll (sampleFunction.inputs.map (·.kind)) = true
    ∧ (encodeArgs sampleTokens (sampleFunction.inputs.map (·.kind))).length < 2 ^ 32 := by decide +kernel

/-! ## C19 -/

/-- **C19.** Whatever the tokens, successful call data is the first four bytes of the hash of the UTF-8 text
`name(type1,...,typeN)` followed by `encode(tokens)`. -/
theorem C19_selector (hash : Bytes → Word) (prof : Profile) (f : Function) (toks : List Token) (bs : Bytes)
    (h : f.encodeInput hash prof toks = .ok bs) :
    ∃ e, encode prof toks = .ok e ∧
      bs = (hash ((signature (String.ofList f.name) (f.inputs.map (·.kind))).toList.flatMap
        String.utf8EncodeChar)).1.take 4 ++ e := by
  simp only [Function.encodeInput, Res.bind_eq_ok] at h
  obtain ⟨b, -, h⟩ := h
  split at h
  · cases h
  · simp only [Res.bind_eq_ok, Res.ok.injEq] at h
    obtain ⟨e, he, rfl⟩ := h
    refine ⟨e, he, ?_⟩
    rw [shortSignature, signatureText_eq, strBytes, utf8_eq_core]
    rfl

/-- **C19.** `decode_output` and `decode_input` are `decode` on the declared types. -/
theorem C19_decode_output (prof : Profile) (f : Function) (data : Bytes) :
    f.decodeOutput prof data = decode prof (f.outputs.map (·.kind)) data ∧
      f.decodeInput prof data = decode prof (f.inputs.map (·.kind)) data := ⟨rfl, rfl⟩

/-- the canonical text for a non-trivial signature -/
example : signature "f" sampleTypes = "f(uint256[],(string,bytes3)[2],bool)" := by decide +kernel

/-! ## C20 -/

/-- **C20, partial.** Tokens that are not values of the declared types are rejected with `InvalidData` by
functions and constructors, provided the tuples among them have the declared number of members
(`arityMatchZip`).  Missing: tuples with another number of members (`C20_counterexample_*`). -/
theorem C20_ill_typed_rejected_partial (hash : Bytes → Word) (prof : Profile) (f : Function) (c : Constructor)
    (code : Bytes) (toks : List Token) :
    (arityMatchZip toks (f.inputs.map (·.kind)) = true → valuesOf toks (f.inputs.map (·.kind)) = false →
      f.encodeInput hash prof toks = .err .invalidData) ∧
    (arityMatchZip toks (c.inputs.map (·.kind)) = true → valuesOf toks (c.inputs.map (·.kind)) = false →
      c.encodeInput prof code toks = .err .invalidData) := by
  constructor
  · intro ha hv
    have := typesCheck_eq toks _ ha
    rw [hv] at this
    simp only [Function.encodeInput, Function.inputParamTypes, this, Res.ok_bind]
    rfl
  · intro ha hv
    have := typesCheck_eq toks _ ha
    rw [hv] at this
    simp only [Constructor.encodeInput, Constructor.paramTypes, this, Res.ok_bind]
    rfl

/-- **C20**, wrong number of arguments: always rejected. -/
theorem C20_wrong_count_rejected (hash : Bytes → Word) (prof : Profile) (f : Function) (c : Constructor)
    (code : Bytes) (toks : List Token) :
    (toks.length ≠ f.inputs.length → f.encodeInput hash prof toks = .err .invalidData) ∧
    (toks.length ≠ c.inputs.length → c.encodeInput prof code toks = .err .invalidData) := by
  constructor
  · intro h
    have : Token.typesCheck toks f.inputParamTypes = .ok false := by
      rw [Token.typesCheck, if_neg]; simp [Function.inputParamTypes]; omega
    simp only [Function.encodeInput, this, Res.ok_bind]; rfl
  · intro h
    have : Token.typesCheck toks c.paramTypes = .ok false := by
      rw [Token.typesCheck, if_neg]; simp [Constructor.paramTypes]; omega
    simp only [Constructor.encodeInput, this, Res.ok_bind]; rfl

/-- **C20** in full for tuple-free parameter types. -/
theorem C20_ill_typed_rejected_tuple_free (hash : Bytes → Word) (prof : Profile) (f : Function)
    (toks : List Token) (htf : (f.inputs.map (·.kind)).all tupleFree = true)
    (hv : valuesOf toks (f.inputs.map (·.kind)) = false) : f.encodeInput hash prof toks = .err .invalidData :=
  (C20_ill_typed_rejected_partial hash prof f ⟨[]⟩ [] toks).1 (tupleFree_arityZip toks _ htf) hv

/-- non-vacuous: `f(uint256[])` with an ill-typed element deep inside -/
example : arityMatchZip [.array [.uint 1, .bool true]] [.array (.uint 256)] = true
    ∧ valuesOf [.array [.uint 1, .bool true]] [.array (.uint 256)] = false := by decide

/-- A tuple lacking members is accepted and encoded … -/
theorem C20_counterexample_short_tuple (hash : Bytes → Word) (prof : Profile) :
    (Function.mk (lit "f") [⟨[], .tuple [.bool, .bool], none⟩] [] false .nonPayable).encodeInput hash prof
        [.tuple [.bool true]]
      = .ok ((hash (strBytes (lit "f((bool,bool))"))).1.take 4 ++ word 1) := by
  have h1 : Token.typesCheck [.tuple [.bool true]] [.tuple [.bool, .bool]] = .ok true := by decide
  have h2 : encode prof [.tuple [.bool true]] = .ok (word 1) := by cases prof <;> decide +kernel
  have h3 : signatureText (lit "f") [.tuple [.bool, .bool]] = lit "f((bool,bool))" := by decide +kernel
  simp only [Function.encodeInput, Function.inputParamTypes, List.map, h1, Res.ok_bind, h2, shortSignature, h3]
  rfl

/-- … and one with extra members makes `encode_input` panic. -/
theorem C20_counterexample_long_tuple (hash : Bytes → Word) (prof : Profile) :
    (Function.mk (lit "f") [⟨[], .tuple [.bool], none⟩] [] false .nonPayable).encodeInput hash prof
        [.tuple [.bool true, .bool true]] = .panic := by
  have h1 : Token.typesCheck [.tuple [.bool true, .bool true]] [.tuple [.bool]] = .panic := by decide
  simp only [Function.encodeInput, Function.inputParamTypes, List.map, h1, Res.panic_bind]

/-! ## C21 -/

/-- **C21.** A constructor call is the code followed by the specified encoding; decoding what follows the code
gives the tokens back. -/
theorem C21_constructor (pe pd : Profile) (c : Constructor) (code : Bytes) (toks : List Token)
    (ht : haveTypes toks (c.inputs.map (·.kind)) = true) (hc : codableAll (c.inputs.map (·.kind)) = true)
    (hf : countsFitAll toks = true) (hb : (encodeArgs toks (c.inputs.map (·.kind))).length < 2 ^ 32)
    (hw : nonzeroWidthAny (c.inputs.map (·.kind)) = true ∨ c.inputs = []) :
    ∃ bs, c.encodeInput pe code toks = .ok bs ∧ bs = code ++ encodeArgs toks (c.inputs.map (·.kind)) ∧
      decode pd (c.inputs.map (·.kind)) (bs.drop code.length) = .ok toks := by
  obtain ⟨bs, h1, h2⟩ := C01_round_trip pe pd _ toks ht hc hf hb (by
    rcases hw with h | h
    · exact Or.inl h
    · exact Or.inr (by simp [h]))
  have h3 := C02_encode_conforms pe _ toks ht hc hf hb
  have e : bs = encodeArgs toks (c.inputs.map (·.kind)) := by
    rw [h1] at h3; exact Res.ok.inj h3
  refine ⟨code ++ bs, ?_, by rw [e], by simpa using h2⟩
  have hty := typesCheck_of_valuesOf (haveTypes_valuesOf _ _ ht)
  simp only [Constructor.encodeInput, Constructor.paramTypes, hty, Res.ok_bind, h1]
  rfl

example : (Constructor.mk [⟨[], .array (.uint 8), none⟩]).encodeInput .debug [0xde, 0xad] [.array []]
    = .ok ([0xde, 0xad] ++ word 32 ++ word 0) := by decide +kernel

end Ethabi.Props

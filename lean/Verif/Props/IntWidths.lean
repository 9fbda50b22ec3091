import Verif.Proofs.IntWidths
import Verif.Props.Codec
import Verif.Props.Signatures
/-! # Property C113: the widths of integers -/
namespace Ethabi.Props
open Spec

/-- **C113.** `decode` gives the same for types that differ in the widths of integers only: the same values, errors and
panics for all data. -/
theorem C113_decode (prof : Profile) (ts us : List ParamType) (h : sameShape ts us) (data : Bytes) :
    decode prof ts data = decode prof us data := by
  rw [← IntWidths.decode_same prof ts, ← IntWidths.decode_same prof us, h]

/-- **C113.** So does the check of values against types. -/
theorem C113_check (ts us : List ParamType) (h : sameShape ts us) (tokens : List Token) :
    Token.typesCheck tokens ts = Token.typesCheck tokens us := by
  rw [← IntWidths.typesCheck_same tokens ts, ← IntWidths.typesCheck_same tokens us, h]

/-- **C113.** So do the tokenizers, strict and lenient, for every text. -/
theorem C113_tokenize (m : Tokenizer) (t u : ParamType) (h : sameShape [t] [u]) (s : Str) : tokenize m t s = tokenize m u s := by
  have h' : noWidths t = noWidths u := by
    simp only [sameShape, noWidthsAll, List.cons.injEq, and_true] at h; exact h
  rw [← IntWidths.tokenize_same m t, ← IntWidths.tokenize_same m u, h']

/-- **C113.** Functions whose parameters differ in the widths of integers only have the same call data behind the selector, and
refuse the same arguments. -/
theorem C113_calls (hash : Bytes → Word) (prof : Profile) (f g : Function) (h : sameShape f.inputParamTypes g.inputParamTypes)
    (tokens : List Token) :
    (∀ body, f.encodeInput hash prof tokens = .ok (shortSignature hash f.name f.inputParamTypes ++ body) ↔
      g.encodeInput hash prof tokens = .ok (shortSignature hash g.name g.inputParamTypes ++ body)) ∧
    (∀ e, f.encodeInput hash prof tokens = .err e ↔ g.encodeInput hash prof tokens = .err e) ∧
    (f.encodeInput hash prof tokens = .panic ↔ g.encodeInput hash prof tokens = .panic) := by
  simp only [Function.encodeInput, C113_check _ _ h tokens]
  cases Token.typesCheck tokens g.inputParamTypes with
  | ok b =>
    cases b
    · simp
    · cases encode prof tokens <;> simp
  | err e => simp
  | panic => simp

/-- **C113.** Anonymous events whose parameters differ in the widths of integers only parse the same logs, and other events the
same logs behind their signatures. -/
theorem C113_logs (hash : Bytes → Word) (prof : Profile) (e e' : Event) (h : sameEvents e e') :
    (e.anonymous = true → ∀ log, e.parseLog hash prof log = e'.parseLog hash prof log) ∧
    (e.anonymous = false → ∀ topics data, e.parseLog hash prof ⟨e.signature hash :: topics, data⟩ =
      e'.parseLog hash prof ⟨e'.signature hash :: topics, data⟩) := by
  constructor
  · intro ha log
    rw [IntWidths.parseLog_anonymous hash prof e ha, IntWidths.parseLog_anonymous hash prof e' (h.2 ▸ ha),
      IntWidths.parseRest_same prof h.1]
  · intro ha topics data
    rw [IntWidths.parseLog_signed hash prof e ha, IntWidths.parseLog_signed hash prof e' (h.2 ▸ ha),
      IntWidths.parseRest_same prof h.1]

/-- **C113.** Their filters differ in the signature at most. -/
theorem C113_filters (hash : Bytes → Word) (prof : Profile) (e e' : Event) (h : sameEvents e e') (raw : RawTopicFilter) :
    (e.anonymous = true → e.filter hash prof raw = e'.filter hash prof raw) ∧
    (e.anonymous = false → ∀ t1 t2 t3, e.filter hash prof raw = .ok ⟨.this (e.signature hash), t1, t2, t3⟩ ↔
      e'.filter hash prof raw = .ok ⟨.this (e'.signature hash), t1, t2, t3⟩) := by
  constructor
  · intro ha
    simp only [Event.filter, ha, ← h.2, if_true, IntWidths.slot_same hash prof h.1]
  · intro ha t1 t2 t3
    simp only [Event.filter, ha, ← h.2, Bool.false_eq_true, if_false, IntWidths.slot_same hash prof h.1, Res.bind_eq_ok,
      Res.ok.injEq, TopicFilter.mk.injEq, true_and]

/-- **C113.** `encode params` prints the same, or fails in the same way, for type texts that denote types which differ in the
widths of integers only; each element of `l` is two type texts and a value. -/
theorem C113_tool (prof : Profile) (lenient : Bool) (l : List (Str × Str × Str))
    (h : ∀ x ∈ l, ∃ t u, read x.1 = .ok t ∧ read x.2.1 = .ok u ∧ sameShape [t] [u]) :
    cliEncodeParams prof (l.flatMap fun x => [x.1, x.2.2]) lenient = cliEncodeParams prof (l.flatMap fun x => [x.2.1, x.2.2]) lenient := by
  obtain ⟨ps, qs, h1, h2, h3⟩ := IntWidths.readPairs_same lenient l fun x hx => by
    obtain ⟨t, u, h1, h2, h3⟩ := h x hx
    simp only [sameShape, noWidthsAll, List.cons.injEq, and_true] at h3
    exact ⟨t, u, h1, h2, h3⟩
  have hl : (l.flatMap fun x => [x.1, x.2.2]).length = (l.flatMap fun x => [x.2.1, x.2.2]).length := by
    simp only [List.length_flatMap, List.length_cons, List.length_nil]
  simp only [cliEncodeParams, h1, h2, hl, Res.ok_bind, h3]

/-- **C113.** In particular no value is too large for its type: a `uintN` parameter takes, and `decode` returns for it, every
256-bit value, whatever `N`; likewise `intN`. -/
theorem C113_any_value (hash : Bytes → Word) (prof : Profile) (f : Function) (n : Nat) (v : U256) :
    (f.inputParamTypes = [.uint n] → f.encodeInput hash prof [.uint v] =
      .ok (shortSignature hash f.name f.inputParamTypes ++ (U256.toWord v).1)) ∧
    decode prof [.uint n] (U256.toWord v).1 = .ok [.uint v] ∧
    (f.inputParamTypes = [.int n] → f.encodeInput hash prof [.int v] =
      .ok (shortSignature hash f.name f.inputParamTypes ++ (U256.toWord v).1)) ∧
    decode prof [.int n] (U256.toWord v).1 = .ok [.int v] := by
  have h1 : encode prof [.uint v] = .ok (U256.toWord v).1 := by
    have : encode prof [.uint v] = .ok ((U256.toWord v).1 ++ []) := by cases prof <;> rfl
    rw [this, List.append_nil]
  have h2 : encode prof [.int v] = .ok (U256.toWord v).1 := by
    have : encode prof [.int v] = .ok ((U256.toWord v).1 ++ []) := by cases prof <;> rfl
    rw [this, List.append_nil]
  refine ⟨fun h => ?_, ?_, fun h => ?_, ?_⟩
  · simp only [Function.encodeInput, h, h1]; rfl
  · obtain ⟨bs, e1, e2⟩ := C01_round_trip prof prof [.uint n] [.uint v] rfl rfl rfl (by
      simp [encodeArgs, encZip, enc, layout, dynamic, heads, tails]) (Or.inl rfl)
    rw [Res.ok.inj (h1.symm.trans e1)]
    exact e2
  · simp only [Function.encodeInput, h, h2]; rfl
  · obtain ⟨bs, e1, e2⟩ := C01_round_trip prof prof [.int n] [.int v] rfl rfl rfl (by
      simp [encodeArgs, encZip, enc, layout, dynamic, heads, tails]) (Or.inl rfl)
    rw [Res.ok.inj (h2.symm.trans e1)]
    exact e2

/-- **C113.** The type matters for the selector: the signatures of types of one shape are different texts unless the types
are the same. -/
theorem C113_signature (name : Str) (ts us : List ParamType) : signatureText name ts = signatureText name us ↔ ts = us := by
  refine ⟨fun h => ?_, fun h => by rw [h]⟩
  rw [signatureText_tuple, signatureText_tuple] at h
  have := List.append_cancel_left h
  refine (C22_signature_injective [] [] ts us (by simp) (by simp) ?_).2
  rw [signatureText_tuple, signatureText_tuple]
  simpa using this

example : sameShape [.tuple [.uint 8, .array (.int 24)], .uint 256] [.tuple [.uint 16, .array (.int 256)], .uint 0] ∧
    ¬ sameShape [.uint 8] [.int 8] ∧ ¬ sameShape [.fixedBytes 8] [.fixedBytes 16] := by decide

/-- 300 as a `uint8` -/
example (prof : Profile) : decode prof [.uint 8] (U256.toWord (BitVec.ofNat 256 300)).1 = .ok [.uint (BitVec.ofNat 256 300)] ∧
    tokenize .lenient (.uint 8) (lit "300") = .ok (.uint (BitVec.ofNat 256 300)) := by
  cases prof <;> decide +kernel

example : sameEvents ⟨lit "A", [⟨lit "x", .uint 8, true⟩, ⟨lit "y", .array (.int 8), false⟩], false⟩
    ⟨lit "B", [⟨lit "x", .uint 256, true⟩, ⟨lit "y", .array (.int 128), false⟩], false⟩ := ⟨rfl, rfl⟩

example (prof : Profile) : cliEncodeParams prof [lit "uint8", lit "300"] true = cliEncodeParams prof [lit "uint", lit "300"] true :=
  C113_tool prof true [(lit "uint8", lit "uint", lit "300")] (by
    intro x hx
    rw [List.mem_singleton] at hx
    subst hx
    exact ⟨.uint 8, .uint 256, by decide +kernel, by decide +kernel, rfl⟩)

end Ethabi.Props

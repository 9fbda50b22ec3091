import Verif.Proofs.Derive
import Verif.Props.Calls
import Verif.Props.Filters
import Verif.Props.Cli
/-!
# Properties of the generated code: C54, C55, C63, C64
-/
namespace Ethabi.Props
open Spec

/-! ## C55 arguments -/

/-- **C55.** A typed argument becomes a token of its type, which passes the type check; reading the token back gives the
argument. -/
theorem C55_conversion (t : ParamType) (v : Rust t) :
    hasType (toToken t v) t = true ∧ (toToken t v).typeCheck t = .ok true ∧
      (generated t = true → fromToken t (toToken t v) = .ok v) := by
  refine ⟨hasType_toToken t v, ?_, fun h => fromToken_toToken t h v⟩
  have h := hasType_valueOf _ _ (hasType_toToken t v)
  rw [typeCheck_eq _ _ (valueOf_arity _ _ h), h]

/-- **C55**: every token of the type arises in this way, from exactly one argument. -/
theorem C55_conversion_onto (t : ParamType) (hg : generated t = true) (tok : Token) (h : hasType tok t = true) :
    ∃ v, toToken t v = tok ∧ ∀ v', toToken t v' = tok → v' = v := by
  obtain ⟨v, h1, h2⟩ := fromToken_of_hasType t hg tok h
  refine ⟨v, h2, fun v' h3 => ?_⟩
  have := fromToken_toToken t hg v'
  rw [h3, h1] at this
  exact (Res.ok.inj this).symm

theorem genFunction_inputs (f : Function) : (genFunction f).inputs.map (·.kind) = f.inputs.map (·.kind) := by
  simp [genFunction]
theorem genFunction_outputs (f : Function) : (genFunction f).outputs.map (·.kind) = f.outputs.map (·.kind) := by
  simp [genFunction]

theorem genFunction_encodeInput (hash : Bytes → Word) (prof : Profile) (f : Function) (toks : List Token) :
    (genFunction f).encodeInput hash prof toks = f.encodeInput hash prof toks := by
  unfold Function.encodeInput Function.inputParamTypes
  rw [genFunction_inputs]; rfl

/-- **C55** for release builds: the generated `encode_input` never panics and returns what the dynamic `encode_input`
returns for the tokens. -/
theorem C55_encode_input_release (hash : Bytes → Word) (f : Function) (args : RustArgs (f.inputs.map (·.kind))) :
    ∃ bs, genEncodeInput hash .release f args = .ok bs ∧
      f.encodeInput hash .release (toTokens (f.inputs.map (·.kind)) args) = .ok bs := by
  have ht := typesCheck_of_valuesOf (haveTypes_valuesOf _ _ (haveTypes_toTokens _ args))
  have hfine := fine_encode .release (toTokens (f.inputs.map (·.kind)) args)
  rcases he : encode .release (toTokens (f.inputs.map (·.kind)) args) with bs | e | _
  · have : f.encodeInput hash .release (toTokens (f.inputs.map (·.kind)) args) =
        .ok (shortSignature hash f.name (f.inputs.map (·.kind)) ++ bs) := by
      simp only [Function.encodeInput, Function.inputParamTypes, ht, Res.ok_bind, he]; rfl
    refine ⟨_, ?_, this⟩
    rw [genEncodeInput, genFunction_encodeInput, this]; rfl
  · exact absurd he (hfine.1 e)
  · exact absurd he (hfine.2 rfl)

/-- **C55** for both profiles and Solidity types, below 4 GiB: the generated `encode_input` returns selector and encoding.
Missing: in debug builds arguments of 4 GiB and more panic, see `C55_counterexample_huge`. -/
theorem C55_encode_input_partial (hash : Bytes → Word) (prof : Profile) (f : Function) (args : RustArgs (f.inputs.map (·.kind)))
    (hs : solidityAll (f.inputs.map (·.kind)) = true)
    (hb : (encodeArgs (toTokens (f.inputs.map (·.kind)) args) (f.inputs.map (·.kind))).length < 2 ^ 32) :
    genEncodeInput hash prof f args =
      .ok ((hash ((signature (String.ofList f.name) (f.inputs.map (·.kind))).toList.flatMap String.utf8EncodeChar)).1.take 4 ++
        encodeArgs (toTokens (f.inputs.map (·.kind)) args) (f.inputs.map (·.kind))) := by
  have ht := haveTypes_toTokens _ args
  obtain ⟨sel, args', -, h1, -, -⟩ := C18_function_round_trip_solidity hash prof prof f _ ht hs hb
  obtain ⟨e, h3, h4⟩ := C19_selector hash prof f _ _ h1
  rw [C02_encode_conforms_solidity prof _ _ ht hs hb] at h3
  cases h3
  rw [genEncodeInput, genFunction_encodeInput, h1, h4]; rfl

/-- In debug builds the generated `encode_input` panics on a `bytes` argument of 4 GiB. -/
theorem C55_counterexample_huge (hash : Bytes → Word) (b : Bytes) (hb : b.length = 2 ^ 32) :
    genEncodeInput hash .debug ⟨lit "f", [⟨[], .bytes, none⟩], [], false, .nonPayable⟩ (b, ()) = .panic := by
  have h := (C53_counterexample b hb).2
  have ht : Token.typesCheck [Token.bytes b] [.bytes] = .ok true := rfl
  have he : (⟨lit "f", [⟨[], .bytes, none⟩], [], false, .nonPayable⟩ : Function).encodeInput hash .debug [Token.bytes b] = .panic := by
    simp only [Function.encodeInput, Function.inputParamTypes, List.map, ht, Res.ok_bind, h]; rfl
  exact congrArg Res.expect ((genFunction_encodeInput _ _ _ _).trans he)

/-- **C55**, constructors: never a panic in release builds; the code followed by the encoding for Solidity types below
4 GiB. -/
theorem C55_constructor (prof : Profile) (c : Constructor) (code : Bytes) (args : RustArgs (c.inputs.map (·.kind))) :
    (∃ bs, genConstructor .release c code args = .ok bs) ∧
    (solidityAll (c.inputs.map (·.kind)) = true →
      (encodeArgs (toTokens (c.inputs.map (·.kind)) args) (c.inputs.map (·.kind))).length < 2 ^ 32 →
      genConstructor prof c code args =
        .ok (code ++ encodeArgs (toTokens (c.inputs.map (·.kind)) args) (c.inputs.map (·.kind)))) := by
  have ht' := haveTypes_toTokens _ args
  have ht := typesCheck_of_valuesOf (haveTypes_valuesOf _ _ ht')
  have hk : (c.inputs.map fun p => { p with internalType := none }).map (·.kind) = c.inputs.map (·.kind) := by simp
  have key : ∀ prof bs, encode prof (toTokens (c.inputs.map (·.kind)) args) = .ok bs →
      genConstructor prof c code args = .ok (code ++ bs) := by
    intro prof bs he
    simp only [genConstructor, Constructor.encodeInput, Constructor.paramTypes, hk, ht, Res.ok_bind, he, if_true, Res.expect]
  constructor
  · have hfine := fine_encode .release (toTokens (c.inputs.map (·.kind)) args)
    rcases he : encode .release (toTokens (c.inputs.map (·.kind)) args) with bs | e | _
    · exact ⟨_, key _ _ he⟩
    · exact absurd he (hfine.1 e)
    · exact absurd he (hfine.2 rfl)
  · intro hs hb
    exact key _ _ (C02_encode_conforms_solidity prof _ _ ht' hs hb)

/-- `f(uint8[2], bytes4[])` called with `[1, 2]` and one `bytes4` -/
example : genEncodeInput (fun _ => ⟨List.replicate 32 7, rfl⟩) .debug
    ⟨lit "f", [⟨[], .fixedArray (.uint 8) 2, none⟩, ⟨[], .array (.fixedBytes 4), none⟩], [], false, .nonPayable⟩
    (⟨([1, 2] : List U256), rfl⟩, ([⟨[9, 8, 7, 6], rfl⟩] : List { l : Bytes // l.length = 4 }), ()) =
    .ok ([7, 7, 7, 7] ++ word 1 ++ word 2 ++ word 96 ++ word 1 ++ [9, 8, 7, 6] ++ List.replicate 28 0) := by decide +kernel

/-! ## C54 results -/

theorem generated_noDyn : ∀ t, generated t = true → noDynFixedArray t = true
  | .address, _ => rfl
  | .bytes, _ => rfl
  | .int _, _ => rfl
  | .uint _, _ => rfl
  | .bool, _ => rfl
  | .string, _ => rfl
  | .fixedBytes _, h => h
  | .array t, h => generated_noDyn t h
  | .fixedArray _ _, h => by cases h
  | .tuple _, h => by cases h

theorem generated_noDynAll : ∀ ts, (∀ t ∈ ts, generated t = true) → noDynFixedArrayAll ts = true
  | [], _ => rfl
  | t :: ts, h => by
      rw [noDynFixedArrayAll, generated_noDyn t (h t List.mem_cons_self),
        generated_noDynAll ts fun x hx => h x (List.mem_cons_of_mem _ hx)]; rfl

/-- **C54**, functions: for every output data the generated `decode_output` returns `Ok` or `Err`, never a panic; it
returns the error of the dynamic `decode_output`, or the Rust values of its tokens. -/
theorem C54_decode_output (prof : Profile) (f : Function) (data : Bytes)
    (hg : ∀ p ∈ f.outputs, generated p.kind = true) (hu : ParamType.usizeOkAll (f.outputs.map (·.kind)) = true)
    (hd : data.length < 2 ^ 63) :
    genDecodeOutput prof f data ≠ .panic ∧
    (f.outputs ≠ [] → (∀ e, f.decodeOutput prof data = .err e → genDecodeOutput prof f data = .err e) ∧
      (∀ toks, f.decodeOutput prof data = .ok toks →
        ∃ as, genDecodeOutput prof f data = .ok as ∧ toTokens (f.outputs.map (·.kind)) as = toks)) := by
  have hg' : ∀ t ∈ f.outputs.map (·.kind), generated t = true := by
    intro t ht
    obtain ⟨p, hp, rfl⟩ := List.mem_map.1 ht
    exact hg p hp
  have hnp := C06_decode_no_panic_partial prof (f.outputs.map (·.kind)) data (generated_noDynAll _ hg') hd
  by_cases h0 : f.outputs.length = 0
  · have h0' : f.outputs = [] := List.length_eq_zero_iff.1 h0
    refine ⟨?_, fun h => absurd h0' h⟩
    rw [genDecodeOutput, if_pos h0]
    rw [show f.outputs.map (·.kind) = [] by rw [h0']; rfl]
    simp [fromTokens]
  · have hdec : (genFunction f).decodeOutput prof data = decode prof (f.outputs.map (·.kind)) data := by
      rw [Function.decodeOutput, Function.outputParamTypes, genFunction_outputs]
    have hdec' : f.decodeOutput prof data = decode prof (f.outputs.map (·.kind)) data := rfl
    rw [genDecodeOutput, if_neg h0, hdec, hdec']
    rcases he : decode prof (f.outputs.map (·.kind)) data with toks | e | _
    · have ht := (C05_decoded_typed prof _ data toks hu hd he).2.1
      obtain ⟨as, h1, h2⟩ := fromTokens_of_haveTypes _ hg' toks ht
      rw [he, Res.ok_bind, h1]
      refine ⟨by simp, fun _ => ⟨by simp, fun toks' ht' => ⟨as, rfl, ?_⟩⟩⟩
      rw [h2]; exact Res.ok.inj ht'
    · rw [he]
      exact ⟨by simp [Bind.bind, Res.bind], fun _ => ⟨fun e' h => by cases h; rfl, by simp⟩⟩
    · exact absurd he hnp

/-- Without outputs any data is accepted. -/
theorem C54_no_outputs (prof : Profile) (name : Str) (ins : List Param) (data : Bytes) :
    genDecodeOutput prof ⟨name, ins, [], false, .nonPayable⟩ data = .ok () := rfl

example : genDecodeOutput .debug ⟨lit "f", [], [⟨[], .array .bool, none⟩, ⟨[], .uint 8, none⟩], false, .nonPayable⟩
    (word 64 ++ word 300 ++ word 2 ++ word 1 ++ word 0) = .ok (([true, false] : List Bool), (300 : U256), ()) := by
  have h : decode .debug [.array .bool, .uint 8] (word 64 ++ word 300 ++ word 2 ++ word 1 ++ word 0) =
      .ok [.array [.bool true, .bool false], .uint 300] := by decide +kernel
  show (decode .debug [.array .bool, .uint 8] _ >>= fromTokens [.array .bool, .uint 8]) = _
  rw [h]; rfl

theorem kinds_usizeOk (ps : List EventParam) (h : ParamType.usizeOkAll (ps.map (·.kind)) = true) :
    ParamType.usizeOkAll ((ps.filter (·.indexed)).map fun p => topicType p.kind) = true ∧
      ParamType.usizeOkAll ((ps.filter (!·.indexed)).map (·.kind)) = true := by
  induction ps with
  | nil => exact ⟨rfl, rfl⟩
  | cons p ps ih =>
    rw [List.map_cons, ParamType.usizeOkAll, Bool.and_eq_true] at h
    obtain ⟨h1, h2⟩ := ih h.2
    cases hp : p.indexed with
    | true =>
      rw [List.filter_cons_of_pos (by simp [hp]), List.filter_cons_of_neg (by simp [hp]), List.map_cons,
        ParamType.usizeOkAll, h1, Bool.and_true]
      refine ⟨?_, h2⟩
      unfold topicType; split
      · exact h.1
      · decide
    | false =>
      rw [List.filter_cons_of_neg (by simp [hp]), List.filter_cons_of_pos (by simp [hp]), List.map_cons,
        ParamType.usizeOkAll, h2, Bool.and_true]
      exact ⟨h1, h.1⟩

theorem words_length (ws : List Word) : (ws.flatMap (·.1)).length = 32 * ws.length := by
  induction ws with
  | nil => rfl
  | cons w ws ih => rw [List.flatMap_cons, List.length_append, ih, w.2, List.length_cons]; omega

/-- the values found by `parse_log` (distinct names) have the types under which they were read -/
theorem parsed_typed (hash : Bytes → Word) (prof : Profile) (e : Event) (log : RawLog) (l : Log)
    (hn : (e.inputs.map (·.name)).Nodup) (hu : ParamType.usizeOkAll (e.inputs.map (·.kind)) = true)
    (hk : log.topics.length < 2 ^ 58) (hd : log.data.length < 2 ^ 63) (h : e.parseLog hash prof log = .ok l) :
    haveTypes (l.params.map (·.value)) (e.inputs.map fun p => if p.indexed then topicType p.kind else p.kind) = true := by
  obtain ⟨tt, dt, h1, h2, h3⟩ := C36_positional_partial hash prof e log l hn h
  obtain ⟨u1, u2⟩ := kinds_usizeOk e.inputs hu
  rw [h3]
  refine interleave_typed e.inputs tt dt (C05_decoded_typed prof _ _ tt u1 ?_ h1).2.1 (C05_decoded_typed prof _ _ dt u2 hd h2).2.1
  rw [words_length, List.length_drop]
  split <;> omega

/-- **C54**, events: when the parameter names are distinct and every indexed parameter is of a value type, the generated
`parse_log` returns `Ok` or `Err` for every log, never a panic: the error of the dynamic `parse_log` or the Rust values
of its tokens.  Missing: events with an indexed `string`, `bytes` or array, or with equal names
(`C54_counterexample_indexed`, `C54_counterexample_unnamed`). -/
theorem C54_parse_log_partial (camel : Str → Str) (hash : Bytes → Word) (prof : Profile) (e : Event) (log : RawLog)
    (hg : ∀ p ∈ e.inputs, generated p.kind = true) (hu : ParamType.usizeOkAll (e.inputs.map (·.kind)) = true)
    (hn : (e.inputs.map (·.name)).Nodup) (hv : ∀ p ∈ e.inputs, p.indexed = true → valueType p.kind = true)
    (hk : log.topics.length < 2 ^ 58) (hd : log.data.length < 2 ^ 63) :
    genParseLog camel hash prof e log ≠ .panic ∧
    (∀ x, Event.parseLog hash prof { e with name := camel e.name } log = .err x → genParseLog camel hash prof e log = .err x) ∧
    (∀ l, Event.parseLog hash prof { e with name := camel e.name } log = .ok l →
      ∃ as, genParseLog camel hash prof e log = .ok as ∧
        toTokens (e.inputs.map (·.kind)) as = l.params.map (·.value)) := by
  have hg' : ∀ t ∈ e.inputs.map (·.kind), generated t = true := by
    intro t ht
    obtain ⟨p, hp, rfl⟩ := List.mem_map.1 ht
    exact hg p hp
  have hkinds : (e.inputs.map fun p => if p.indexed then topicType p.kind else p.kind) = e.inputs.map (·.kind) := by
    refine List.map_congr_left fun p hp => ?_
    split
    · rename_i hi; rw [topicType, if_pos (hv p hp hi)]
    · rfl
  have hnp : Event.parseLog hash prof { e with name := camel e.name } log ≠ .panic := by
    refine C35_no_panic hash prof _ log ?_ ?_
    · refine C06_decode_no_panic_partial prof _ _ (generated_noDynAll _ ?_) ?_
      · intro t ht
        obtain ⟨p, hp, rfl⟩ := List.mem_map.1 ht
        have hp' := List.mem_filter.1 hp
        show generated (topicType p.kind) = true
        rw [topicType, if_pos (hv p hp'.1 hp'.2)]
        exact hg p hp'.1
      · rw [words_length, List.length_drop]; split <;> omega
    · refine C06_decode_no_panic_partial prof _ _ (generated_noDynAll _ ?_) hd
      intro t ht
      obtain ⟨p, hp, rfl⟩ := List.mem_map.1 ht
      exact hg p (List.mem_filter.1 hp).1
  have hgen : genParseLog camel hash prof e log = (Event.parseLog hash prof { e with name := camel e.name } log >>=
      fun l => fromTokens (e.inputs.map (·.kind)) (l.params.map (·.value))) := rfl
  rw [hgen]
  rcases hl : Event.parseLog hash prof { e with name := camel e.name } log with l | x | _
  · have ht := parsed_typed hash prof { e with name := camel e.name } log l hn hu hk hd hl
    rw [show (Event.mk (camel e.name) e.inputs e.anonymous).inputs = e.inputs from rfl, hkinds] at ht
    obtain ⟨as, h1, h2⟩ := fromTokens_of_haveTypes _ hg' _ ht
    rw [Res.ok_bind, h1]
    refine ⟨by simp, by simp, fun l' h => ?_⟩
    cases h
    exact ⟨as, rfl, h2⟩
  · refine ⟨by simp [Bind.bind, Res.bind], fun y h => ?_, by simp⟩
    cases h; rfl
  · exact absurd hl hnp

/-- **C54**, the other half: the log emitted for `ps` parses to a struct holding exactly the emitted values, when the
event's name is already in camel case. -/
theorem C54_parse_emitted (camel : Str → Str) (hash : Bytes → Word) (prof : Profile) (e : Event) (ps : List Emitted) (log : RawLog)
    (hc : camel e.name = e.name)
    (hin : e.inputs = ps.map fun p => { name := p.name, kind := p.kind, indexed := p.indexed })
    (hg : ∀ p ∈ ps, generated p.kind = true) (hv : ∀ p ∈ ps, p.indexed = true → valueType p.kind = true)
    (hn : (ps.map (·.name)).Nodup)
    (ht : ∀ p ∈ ps, hasType p.value p.kind = true) (hs : ∀ p ∈ ps, solidity p.kind = true)
    (hlt : log.topics.map (·.1) = emitTopics hash e.name e.anonymous ps) (hld : log.data = emitData ps)
    (hk : log.topics.length < 2 ^ 27) (hb : log.data.length < 2 ^ 32) :
    ∃ as, genParseLog camel hash prof e log = .ok as ∧ toTokens (e.inputs.map (·.kind)) as = ps.map (·.value) := by
  have hp := C33_parse_emitted hash prof e ps log hin hn ht hs hlt hld hk hb
  have hval : ps.map (recoverable hash) = ps.map (·.value) := by
    refine List.map_congr_left fun p hp => ?_
    rw [recoverable]
    cases hi : p.indexed with
    | true => rw [hv p hp hi]; rfl
    | false => rfl
  have hkinds : e.inputs.map (·.kind) = ps.map (·.kind) := by rw [hin, List.map_map]; rfl
  have hgen : genParseLog camel hash prof e log = fromTokens (e.inputs.map (·.kind)) (ps.map (·.value)) := by
    have : genEvent camel e = e := by rw [genEvent, hc]
    rw [genParseLog, this, hp, Res.ok_bind, List.map_map]
    rw [← hval]; rfl
  rw [hgen]
  have hty : haveTypes (ps.map (·.value)) (e.inputs.map (·.kind)) = true := by rw [hkinds]; exact haveTypes_map ps ht
  exact fromTokens_of_haveTypes _ (by
    intro t h; rw [hkinds] at h
    obtain ⟨p, hp, rfl⟩ := List.mem_map.1 h
    exact hg p hp) _ hty

/-- **C54 is false** for events with an indexed parameter that is not of a value type: the generated `parse_log` panics on
every log that the dynamic `parse_log` accepts. -/
theorem C54_counterexample_indexed (camel : Str → Str) (hash : Bytes → Word) (prof : Profile) (e : Event) (log : RawLog) (l : Log)
    (hu : ParamType.usizeOkAll (e.inputs.map (·.kind)) = true) (hn : (e.inputs.map (·.name)).Nodup)
    (hk : log.topics.length < 2 ^ 58) (hd : log.data.length < 2 ^ 63)
    (hv : ∃ p ∈ e.inputs, p.indexed = true ∧ valueType p.kind = false)
    (h : Event.parseLog hash prof { e with name := camel e.name } log = .ok l) :
    genParseLog camel hash prof e log = .panic := by
  have hgen : genParseLog camel hash prof e log = fromTokens (e.inputs.map (·.kind)) (l.params.map (·.value)) := by
    have : genParseLog camel hash prof e log = (Event.parseLog hash prof { e with name := camel e.name } log >>=
      fun l => fromTokens (e.inputs.map (·.kind)) (l.params.map (·.value))) := rfl
    rw [this, h]; rfl
  rw [hgen]
  have ht := parsed_typed hash prof { e with name := camel e.name } log l hn hu hk hd h
  obtain ⟨p, hp, hi, hv⟩ := hv
  obtain ⟨i, hlt, rfl⟩ := List.mem_iff_getElem.1 hp
  have e1 : (e.inputs.map (·.kind))[i]? = some e.inputs[i].kind := by simp [hlt]
  have e2 : (e.inputs.map fun p => if p.indexed then topicType p.kind else p.kind)[i]? = some (.fixedBytes 32) := by
    simp [hlt, hi, topicType, hv]
  obtain ⟨tok, h1, h2⟩ := haveTypes_get _ _ ht i _ e2
  obtain ⟨b, rfl, -⟩ := hasType_cases h2
  rcases hf : fromTokens (e.inputs.map (·.kind)) (l.params.map (·.value)) with as | x | _
  · obtain ⟨v, hv'⟩ := fromTokens_get _ _ as hf i _ _ e1 h1
    exact absurd hv' (fromToken_fixedBytes hv b v)
  · exact absurd hf (fromTokens_noErr _ _ x)
  · exact hf

/-- such a log: `event E(string indexed s)` -/
example : Event.parseLog constHash .release { name := lit "E", inputs := [⟨lit "s", .string, true⟩], anonymous := false }
    { topics := [constHash [], constHash [1]], data := [] } = .ok { params := [⟨lit "s", .fixedBytes (List.replicate 32 7)⟩] } := by
  decide +kernel

/-- **C54 is false** for events with several unnamed parameters of different types: of `event E(bool, uint8)` the emitted
log (1, 9) makes the generated `parse_log` panic (both parameters read the value of the last one, C36). -/
theorem C54_counterexample_unnamed (camel : Str → Str) (prof : Profile) :
    genParseLog camel constHash prof dupEvent { topics := [], data := word 1 ++ word 9 } = .panic := by
  have h : (genEvent camel dupEvent).parseLog constHash prof { topics := [], data := word 1 ++ word 9 } =
      .ok { params := [⟨[], .uint 9⟩, ⟨[], .uint 9⟩] } := by
    have : ∀ n : Str, Event.parseLog constHash prof { dupEvent with name := n } { topics := [], data := word 1 ++ word 9 } =
        dupEvent.parseLog constHash prof { topics := [], data := word 1 ++ word 9 } := fun _ => rfl
    exact (this _).trans (C36_counterexample_unnamed prof).1
  rw [genParseLog, h]; rfl

/-! ## C63 filters -/

theorem generated_tupleFree : ∀ t, generated t = true → tupleFree t = true
  | .address, _ => rfl
  | .bytes, _ => rfl
  | .int _, _ => rfl
  | .uint _, _ => rfl
  | .bool, _ => rfl
  | .string, _ => rfl
  | .fixedBytes _, _ => rfl
  | .array t, h => by rw [tupleFree]; exact generated_tupleFree t h
  | .fixedArray _ _, h => by cases h
  | .tuple _, h => by cases h

theorem filterTopics_get : ∀ (ts : List ParamType) (as : FilterArgs ts) (i : Nat),
    (∀ topic, (filterTopics ts as)[i]? = some topic → ∃ t, ts[i]? = some t ∧ ∃ a : Topic (Rust t), topic = a.map (toToken t)) ∧
    ((filterTopics ts as)[i]? = none ↔ ts[i]? = none)
  | [], _, i => by simp [filterTopics]
  | t :: ts, (a, as), 0 => by
      rw [filterTopics]
      refine ⟨fun topic h => ⟨t, rfl, a, ?_⟩, by simp⟩
      simpa using h.symm
  | t :: ts, (a, as), i + 1 => by
      rw [filterTopics, List.getElem?_cons_succ, List.getElem?_cons_succ]
      exact filterTopics_get ts as i

/-- the topics of the generated filter are never wrong -/
theorem filterTopics_notWrong (ts : List ParamType) (as : FilterArgs ts) (i : Nat) :
    ¬ WrongTopic ((filterTopics ts as)[i]?.getD .default) ts[i]? := by
  rcases h : (filterTopics ts as)[i]? with _ | topic
  · rintro ⟨h1, -⟩; exact h1 rfl
  · obtain ⟨t, ht, a, rfl⟩ := (filterTopics_get ts as i).1 topic h
    rw [ht, Option.getD_some]
    have hv : ∀ v : Rust t, valueOf (toToken t v) t = true := fun v => hasType_valueOf _ _ (hasType_toToken t v)
    rintro ⟨-, h2 | ⟨k, h2, tok, h3, h4⟩⟩
    · cases h2
    · cases h2
      cases a with
      | any => simp [Topic.map, tokensOf] at h3
      | this v =>
        simp only [Topic.map, tokensOf, List.mem_singleton] at h3
        rw [h3, hv] at h4; cases h4
      | oneOf l =>
        simp only [Topic.map, tokensOf, List.mem_map] at h3
        obtain ⟨v, -, rfl⟩ := h3
        rw [hv] at h4; cases h4

/-- **C63** for release builds: the generated `filter` never panics, whatever the arguments; it returns what the dynamic
`Event::filter` returns for the first three of them. -/
theorem C63_filter_release (camel : Str → Str) (hash : Bytes → Word) (e : Event)
    (hg : ∀ p ∈ e.inputs, generated p.kind = true) (args : FilterArgs ((e.indexedParams true).map (·.kind))) :
    ∃ f, genFilter camel hash .release e args = .ok f ∧
      Event.filter hash .release { e with name := camel e.name }
        (rawOfTopics (filterTopics ((e.indexedParams true).map (·.kind)) args)) = .ok f := by
  have hk : indexedKinds (genEvent camel e) = (e.indexedParams true).map (·.kind) := by
    unfold indexedKinds Event.indexedParams genEvent
    congr 2; funext p; cases p.indexed <;> rfl
  have htf : ∀ k ∈ indexedKinds (genEvent camel e), tupleFree k = true := by
    intro k h
    rw [hk] at h
    obtain ⟨p, hp, rfl⟩ := List.mem_map.1 h
    exact generated_tupleFree _ (hg p (List.mem_filter.1 hp).1)
  have h := (C38_rejects_exactly_tuple_free hash (genEvent camel e)
    (rawOfTopics (filterTopics ((e.indexedParams true).map (·.kind)) args)) htf).2
  rw [hk] at h
  obtain ⟨f, hf⟩ := h (by
    rintro (h | h | h)
    · exact filterTopics_notWrong _ args 0 h
    · exact filterTopics_notWrong _ args 1 h
    · exact filterTopics_notWrong _ args 2 h)
  exact ⟨f, by rw [genFilter, hf]; rfl, hf⟩

/-- **C63**, wildcard: the generated `wildcard_filter` constrains at most the signature topic. -/
theorem C63_wildcard (camel : Str → Str) (hash : Bytes → Word) (prof : Profile) (e : Event) :
    ∃ f, genWildcardFilter camel hash prof e = .ok f ∧ f.topic1 = .any ∧ f.topic2 = .any ∧ f.topic3 = .any ∧
      (e.anonymous = true → f.topic0 = .any) := by
  have hany : ∀ (ts : List ParamType) (i : Nat), (filterTopics ts (anyArgs ts))[i]?.getD .default = .any := by
    intro ts
    induction ts with
    | nil => intro i; rfl
    | cons t ts ih =>
      intro i
      cases i with
      | zero => rfl
      | succ i => rw [anyArgs, filterTopics, List.getElem?_cons_succ]; exact ih i
  have hraw : rawOfTopics (filterTopics ((e.indexedParams true).map (·.kind)) (anyArgs _)) = {} := by
    unfold rawOfTopics; rw [hany, hany, hany]
  rw [genWildcardFilter, genFilter, hraw, Event.filter]
  cases ha : e.anonymous with
  | true =>
    refine ⟨{}, ?_, rfl, rfl, rfl, fun _ => rfl⟩
    rw [show (genEvent camel e).anonymous = true from ha]; rfl
  | false =>
    refine ⟨{ topic0 := .this ((genEvent camel e).signature hash) }, ?_, rfl, rfl, rfl, by simp⟩
    rw [show (genEvent camel e).anonymous = false from ha]; rfl

/-! ## C64 signatures of generated events -/

/-- **C64**, for events whose name is already in camel case: the generated event is the declared one.
Missing: other names, see `C64_counterexample`. -/
theorem C64_signature_partial (camel : Str → Str) (hash : Bytes → Word) (e : Event) (h : camel e.name = e.name) :
    genEvent camel e = e ∧ ((genEvent camel e).signature hash).1 = eventTopic hash e.name (e.inputs.map (·.kind)) := by
  have : genEvent camel e = e := by rw [genEvent, h]
  exact ⟨this, by rw [this]; exact signature_eventTopic hash e⟩

/-- **C64 is false** for other names, e.g. an event `transfer` (camel case `Transfer`): unless the two texts collide, every
log of the declared event is rejected by the generated `parse_log`. -/
theorem C64_counterexample (camel : Str → Str) (hash : Bytes → Word) (prof : Profile) (e : Event) (log : RawLog)
    (ha : e.anonymous = false)
    (hc : eventTopic hash (camel e.name) (e.inputs.map (·.kind)) ≠ eventTopic hash e.name (e.inputs.map (·.kind)))
    (hl : (log.topics.map (·.1)).head? = some (eventTopic hash e.name (e.inputs.map (·.kind)))) :
    genParseLog camel hash prof e log = .err .invalidData := by
  have h := C34_wrong_signature hash prof (genEvent camel e) log ha (by
    intro h
    rw [hl] at h
    exact hc (Option.some.inj h).symm)
  rw [genParseLog, h]; rfl

/-- for example with `camel "transfer" = "Transfer"` -/
example : eventTopic prefixHash (lit "Transfer") [.bool] ≠ eventTopic prefixHash (lit "transfer") [.bool] := by decide +kernel

end Ethabi.Props

import Verif.Model.DeriveOn
import Verif.Props.Derive
import Verif.Props.TargetCalls
import Verif.Props.Capacity
import Verif.Props.EventFields
/-! # Property C123: generated code on targets with a `usize` of 32 bits -/
namespace Ethabi.Props
open Spec

theorem outputTypes_gen (f : Function) : (genFunction f).outputParamTypes = f.outputs.map (·.kind) := by
  simp [genFunction, Function.outputParamTypes, List.map_map, Function.comp_def]

/-- The model with the width as a parameter is the model of the other claims for 64 bits. -/
theorem C123_same_code (camel : Str → Str) (hash : Bytes → Word) (prof : Profile) :
    (∀ f args, genEncodeInputOn 64 hash prof f args = genEncodeInput hash prof f args) ∧
    (∀ f data, genDecodeOutputOn 64 prof f data = genDecodeOutput prof f data) ∧
    (∀ c code args, genConstructorOn 64 prof c code args = genConstructor prof c code args) ∧
    (∀ e log, genParseLogOn 64 camel hash prof e log = genParseLog camel hash prof e log) ∧
    (∀ e args, genFilterOn 64 camel hash prof e args = genFilter camel hash prof e args) ∧
    ∀ e, genWildcardFilterOn 64 camel hash prof e = genWildcardFilter camel hash prof e := by
  obtain ⟨h1, -, h2, h3, h4, h5⟩ := C104_same_code hash prof
  refine ⟨fun f args => ?_, fun f data => ?_, fun c code args => ?_, fun e log => ?_, fun e args => ?_, fun e => ?_⟩
  · rw [genEncodeInputOn, genEncodeInput, h2]
  · rw [genDecodeOutputOn, genDecodeOutput, h1]
  · rw [genConstructorOn, genConstructor, h3]
  · rw [genParseLogOn, genParseLog, h5]
  · rw [genFilterOn, genFilter, h4]
  · rw [genWildcardFilterOn, genWildcardFilter, genFilterOn, genFilter, h4]

/-- **C123.** The generated `encode_input` panics exactly when the heads or the tails of the arguments take 64 MiB or more, and
otherwise returns what it returns on 64 bits (arguments below 4 GiB). -/
theorem C123_encode_input (hash : Bytes → Word) (prof : Profile) (f : Function) (args : RustArgs (f.inputs.map (·.kind)))
    (hs : sizeAll (toTokens (f.inputs.map (·.kind)) args) < 2 ^ 32) :
    genEncodeInputOn 32 hash prof f args =
      if 2 ^ 26 ≤ headBytes (toTokens (f.inputs.map (·.kind)) args) ∨ 2 ^ 26 ≤ tailBytes (toTokens (f.inputs.map (·.kind)) args)
      then .panic else genEncodeInput hash prof f args := by
  rw [genEncodeInputOn, genEncodeInput, C103_function hash prof _ _ hs]
  cases (genFunction f).encodeInput hash prof (toTokens (f.inputs.map (·.kind)) args) with
  | ok out => dsimp only; split <;> rfl
  | err e => dsimp only; split <;> rfl
  | panic => dsimp only; split <;> rfl

/-- **C123.** So does the generated `constructor`. -/
theorem C123_constructor (prof : Profile) (c : Constructor) (code : Bytes) (args : RustArgs (c.inputs.map (·.kind)))
    (hs : sizeAll (toTokens (c.inputs.map (·.kind)) args) < 2 ^ 32) :
    genConstructorOn 32 prof c code args =
      if 2 ^ 26 ≤ headBytes (toTokens (c.inputs.map (·.kind)) args) ∨ 2 ^ 26 ≤ tailBytes (toTokens (c.inputs.map (·.kind)) args)
      then .panic else genConstructor prof c code args := by
  rw [genConstructorOn, genConstructor, C103_constructor prof _ code _ hs]
  cases Constructor.encodeInput prof { inputs := c.inputs.map fun p => { p with internalType := none } } code
    (toTokens (c.inputs.map (·.kind)) args) with
  | ok out => dsimp only; split <;> rfl
  | err e => dsimp only; split <;> rfl
  | panic => dsimp only; split <;> rfl

/-- **C123.** Below 4 GiB these are the only panics: the generated `encode_input` and `constructor` return bytes unless the heads or
the tails of the arguments take 64 MiB or more. -/
theorem C123_encode_panics (hash : Bytes → Word) (prof : Profile) :
    (∀ (f : Function) (args : RustArgs (f.inputs.map (·.kind))), sizeAll (toTokens (f.inputs.map (·.kind)) args) < 2 ^ 32 →
      (genEncodeInputOn 32 hash prof f args = .panic ↔
        2 ^ 26 ≤ headBytes (toTokens (f.inputs.map (·.kind)) args) ∨ 2 ^ 26 ≤ tailBytes (toTokens (f.inputs.map (·.kind)) args)) ∧
      (genEncodeInputOn 32 hash prof f args ≠ .panic → ∃ bs, genEncodeInputOn 32 hash prof f args = .ok bs)) ∧
    ∀ (c : Constructor) (code : Bytes) (args : RustArgs (c.inputs.map (·.kind))),
      sizeAll (toTokens (c.inputs.map (·.kind)) args) < 2 ^ 32 →
      (genConstructorOn 32 prof c code args = .panic ↔
        2 ^ 26 ≤ headBytes (toTokens (c.inputs.map (·.kind)) args) ∨ 2 ^ 26 ≤ tailBytes (toTokens (c.inputs.map (·.kind)) args)) ∧
      (genConstructorOn 32 prof c code args ≠ .panic → ∃ bs, genConstructorOn 32 prof c code args = .ok bs) := by
  refine ⟨fun f args hs => ?_, fun c code args hs => ?_⟩
  · have ht := typesCheck_of_valuesOf (haveTypes_valuesOf _ _ (haveTypes_toTokens _ args))
    obtain ⟨bs, he, -⟩ := C67_size prof _ hs
    have h64 : ∃ out, genEncodeInput hash prof f args = .ok out := by
      refine ⟨shortSignature hash f.name (f.inputs.map (·.kind)) ++ bs, ?_⟩
      rw [genEncodeInput, genFunction_encodeInput]
      simp only [Function.encodeInput, Function.inputParamTypes, ht, Res.ok_bind, he]; rfl
    obtain ⟨out, h64⟩ := h64
    rw [C123_encode_input hash prof f args hs, h64]
    split
    · next h => exact ⟨⟨fun _ => h, fun _ => rfl⟩, fun hn => absurd rfl hn⟩
    · next h => exact ⟨⟨nofun, fun hc => absurd hc h⟩, fun _ => ⟨out, rfl⟩⟩
  · have ht := typesCheck_of_valuesOf (haveTypes_valuesOf _ _ (haveTypes_toTokens _ args))
    have hk : (c.inputs.map fun p => { p with internalType := none }).map (·.kind) = c.inputs.map (·.kind) := by simp
    obtain ⟨bs, he, -⟩ := C67_size prof _ hs
    have h64 : genConstructor prof c code args = .ok (code ++ bs) := by
      simp only [genConstructor, Constructor.encodeInput, Constructor.paramTypes, hk, ht, Res.ok_bind, he, if_true, Res.expect]
    rw [C123_constructor prof c code args hs, h64]
    split
    · next h => exact ⟨⟨fun _ => h, fun _ => rfl⟩, fun hn => absurd rfl hn⟩
    · next h => exact ⟨⟨nofun, fun hc => absurd hc h⟩, fun _ => ⟨_, rfl⟩⟩

/-- **C123.** The generated `decode_output` panics exactly when reading the data meets an offset or a length that reaches 2^32,
where it reports `InvalidData` on 64 bits; otherwise it does what it does on 64 bits. -/
theorem C123_decode_output (prof : Profile) (f : Function) (data : Bytes) (hg : ∀ p ∈ f.outputs, generated p.kind = true)
    (hu : ParamType.usizeOkAll (f.outputs.map (·.kind)) = true) (hn : narrow32All (f.outputs.map (·.kind)) = true)
    (hd : data.length < 2 ^ 31) :
    (genDecodeOutputOn 32 prof f data = .panic ↔ wrapsAny 32 (f.outputs.map (·.kind)) data 0) ∧
    (wrapsAny 32 (f.outputs.map (·.kind)) data 0 → genDecodeOutput prof f data = .err .invalidData) ∧
    (¬ wrapsAny 32 (f.outputs.map (·.kind)) data 0 → genDecodeOutputOn 32 prof f data = genDecodeOutput prof f data) := by
  have h64 := (C54_decode_output prof f data hg hu (by omega)).1
  have hw : wrapsAny 32 (f.outputs.map (·.kind)) data 0 →
      genDecodeOutputOn 32 prof f data = .panic ∧ genDecodeOutput prof f data = .err .invalidData := fun h => by
    obtain ⟨e1, e2⟩ := C87_wraps prof _ data hn hd h
    have h0 : f.outputs.length ≠ 0 := fun h0 => by
      rw [List.length_eq_zero_iff.1 h0] at h
      exact h
    rw [genDecodeOutputOn, genDecodeOutput, if_neg h0, if_neg h0, Function.decodeOutputOn, Function.decodeOutput, outputTypes_gen, e1, e2]
    exact ⟨rfl, rfl⟩
  have hs : ¬ wrapsAny 32 (f.outputs.map (·.kind)) data 0 → genDecodeOutputOn 32 prof f data = genDecodeOutput prof f data := fun h => by
    rw [genDecodeOutputOn, genDecodeOutput, Function.decodeOutputOn, Function.decodeOutput, outputTypes_gen,
      C87_otherwise_same prof _ data hn hd h]
  refine ⟨⟨fun h => ?_, fun h => (hw h).1⟩, fun h => (hw h).2, hs⟩
  by_contra hb
  rw [hs hb] at h
  exact h64 h

/-- **C123.** The generated `parse_log` returns structs for exactly the same logs, and the same structs. Where the topics are in
order and the data hold an offset or a length that reaches 2^32, it panics, where it reports `InvalidData` on 64 bits;
otherwise it does what it does on 64 bits. -/
theorem C123_parse_log (camel : Str → Str) (hash : Bytes → Word) (prof : Profile) (e : Event) (log : RawLog)
    (hn : ∀ p ∈ e.inputs, narrow32 p.kind = true) (ht : log.topics.length < 2 ^ 26) (hd : log.data.length < 2 ^ 31) :
    let differs := (∃ tt, topicsHold hash (camel e.name) (e.inputs.map (·.kind)) e.anonymous (log.topics.map (·.1))
      ((e.inputs.filter (·.indexed)).map (·.kind)) tt) ∧ wrapsAny 32 ((e.inputs.filter (!·.indexed)).map (·.kind)) log.data 0
    (differs → genParseLogOn 32 camel hash prof e log = .panic ∧ genParseLog camel hash prof e log = .err .invalidData) ∧
    (¬ differs → genParseLogOn 32 camel hash prof e log = genParseLog camel hash prof e log) ∧
    ∀ as, genParseLogOn 32 camel hash prof e log = .ok as ↔ genParseLog camel hash prof e log = .ok as := by
  intro differs
  have h1 : differs → genParseLogOn 32 camel hash prof e log = .panic ∧ genParseLog camel hash prof e log = .err .invalidData :=
    fun h => by
      obtain ⟨e1, e2⟩ := C104_log_wraps hash prof (genEvent camel e) log hn ht hd h.1 h.2
      rw [genParseLogOn, genParseLog, e1, e2]
      exact ⟨rfl, rfl⟩
  have h2 : ¬ differs → genParseLogOn 32 camel hash prof e log = genParseLog camel hash prof e log := fun h => by
    rw [genParseLogOn, genParseLog, C104_log_otherwise_same hash prof (genEvent camel e) log hn ht hd h]
  refine ⟨h1, h2, fun as => ?_⟩
  by_cases h : differs
  · rw [(h1 h).1, (h1 h).2]; simp
  · rw [h2 h]

/-- **C123.** The generated `filter` does what it does on 64 bits if all values asked for take less than 64 MiB, and panics if one
takes more; `wildcard_filter` is the same. -/
theorem C123_filter (camel : Str → Str) (hash : Bytes → Word) (prof : Profile) (e : Event)
    (args : FilterArgs ((e.indexedParams true).map (·.kind)))
    (hs : ∀ t, asked (rawOfTopics (filterTopics ((e.indexedParams true).map (·.kind)) args)) t → sizeAll [t] < 2 ^ 32) :
    ((∀ t, asked (rawOfTopics (filterTopics ((e.indexedParams true).map (·.kind)) args)) t → size t < 2 ^ 26) →
      genFilterOn 32 camel hash prof e args = genFilter camel hash prof e args) ∧
    ((∃ t, asked (rawOfTopics (filterTopics ((e.indexedParams true).map (·.kind)) args)) t ∧ 2 ^ 26 ≤ size t) →
      genFilterOn 32 camel hash prof e args = .panic) := by
  obtain ⟨h1, h2, h3⟩ := C104_filter hash prof (genEvent camel e) _ hs
  refine ⟨fun h => by rw [genFilterOn, genFilter, h1 h], fun ⟨t, ht, hl⟩ => ?_⟩
  rw [genFilterOn]
  cases hf : (genEvent camel e).filter hash prof (rawOfTopics (filterTopics ((e.indexedParams true).map (·.kind)) args)) with
  | ok r => rw [h2 t r ht hl hf]; rfl
  | err x => rcases h3 with e | e <;> rw [e]
             · rfl
             · rw [hf]; rfl
  | panic => rcases h3 with e | e <;> rw [e]
             · rfl
             · rw [hf]; rfl

theorem asked_any (ts : List ParamType) (t : Token) : ¬ asked (rawOfTopics (filterTopics ts (anyArgs ts))) t := by
  rcases ts with _ | ⟨t0, _ | ⟨t1, _ | ⟨t2, ts⟩⟩⟩ <;>
    simp [asked, asks, rawOfTopics, anyArgs, filterTopics, Topic.map, Topic.default]

/-- **C123.** The generated `wildcard_filter` is the same on both kinds of target. -/
theorem C123_wildcard (camel : Str → Str) (hash : Bytes → Word) (prof : Profile) (e : Event) :
    genWildcardFilterOn 32 camel hash prof e = genWildcardFilter camel hash prof e :=
  (C123_filter camel hash prof e (anyArgs _) (fun t h => (asked_any _ t h).elim)).1 (fun t h => (asked_any _ t h).elim)

/-- a function that returns bytes -/
def bytesFunction : Function := ⟨lit "f", [], [⟨[], .bytes, none⟩], false, .nonPayable⟩

/-- **C54 is false on 32 bits**: 64 bytes of output make the generated `decode_output` panic, in both builds. -/
theorem C123_counterexample_decode : ∀ prof : Profile,
    genDecodeOutputOn 32 prof bytesFunction (word 32 ++ word (2 ^ 32 - 1)) = .panic ∧
    genDecodeOutput prof bytesFunction (word 32 ++ word (2 ^ 32 - 1)) = .err .invalidData := by
  intro prof
  have h1 := C87_counterexample_length
  have h64 : decode prof [.bytes] (word 32 ++ word (2 ^ 32 - 1)) = .err .invalidData := by cases prof <;> decide +kernel
  have h32 : decodeOn 32 prof [.bytes] (word 32 ++ word (2 ^ 32 - 1)) = .panic := by
    cases prof
    · exact h1.2.1
    · exact h1.1
  have ht : (genFunction bytesFunction).outputParamTypes = [.bytes] := rfl
  rw [genDecodeOutputOn, genDecodeOutput, if_neg (by decide), if_neg (by decide), Function.decodeOutputOn, Function.decodeOutput, ht,
    h64, h32]
  exact ⟨rfl, rfl⟩

/-- a function that takes bytes, and its arguments -/
def takesBytes : Function := ⟨lit "f", [⟨[], .bytes, none⟩], [], false, .nonPayable⟩
def takesBytesArgs (b : Bytes) : RustArgs (takesBytes.inputs.map (·.kind)) := ((b, ()) : Bytes × Unit)

/-- **C55 is false on 32 bits**: `bytes` of 64 MiB - 32 bytes make the generated `encode_input` panic, in both builds. -/
theorem C123_counterexample_encode (hash : Bytes → Word) (prof : Profile) (b : Bytes) (hb : b.length = 2 ^ 26 - 32) :
    genEncodeInputOn 32 hash prof takesBytes (takesBytesArgs b) = .panic ∧
    ∃ bs, genEncodeInput hash prof takesBytes (takesBytesArgs b) = .ok bs := by
  have hsz : size (.bytes b) = 2 ^ 26 := by rw [size, hb, roundUp]; norm_num
  have h1 : sizeAll [.bytes b] = 2 ^ 26 + 32 := by simp only [sizeAll, tailed, hsz, if_true]; norm_num
  have hl : 2 ^ 26 ≤ tailBytes [.bytes b] := by simp only [tailBytes, tailed, hsz, if_true]; norm_num
  have htk : toTokens (takesBytes.inputs.map (·.kind)) (takesBytesArgs b) = [.bytes b] := rfl
  have hs : sizeAll (toTokens (takesBytes.inputs.map (·.kind)) (takesBytesArgs b)) < 2 ^ 32 := by
    rw [htk, h1]; norm_num
  refine ⟨?_, ?_⟩
  · rw [C123_encode_input hash prof takesBytes (takesBytesArgs b) hs, htk]
    exact if_pos (Or.inr hl)
  · obtain ⟨bs, e, -⟩ := C67_size prof [.bytes b] (by rw [h1]; norm_num)
    have ht : Token.typesCheck [.bytes b] [.bytes] = .ok true := rfl
    have hi : (genFunction takesBytes).inputParamTypes = [.bytes] := rfl
    rw [genEncodeInput, htk, Function.encodeInput, hi, ht, Res.ok_bind]
    simp only [Bool.not_true, Bool.false_eq_true, if_false, e, Res.ok_bind]
    exact ⟨_, rfl⟩

/-- **C123**, round trip: values of Solidity types whose encoding is below 64 MiB that a contract returns are the values the
generated `decode_output` returns, on both kinds of target. -/
theorem C123_returned (prof : Profile) (f : Function) (as : RustArgs (f.outputs.map (·.kind)))
    (hg : ∀ p ∈ f.outputs, generated p.kind = true) (hs : solidityAll (f.outputs.map (·.kind)) = true)
    (hl : (encodeArgs (toTokens (f.outputs.map (·.kind)) as) (f.outputs.map (·.kind))).length < 2 ^ 26) (bits : Nat)
    (hb : bits = 32 ∨ bits = 64) :
    genDecodeOutputOn bits prof f (encodeArgs (toTokens (f.outputs.map (·.kind)) as) (f.outputs.map (·.kind))) = .ok as := by
  have ht := haveTypes_toTokens (f.outputs.map (·.kind)) as
  have hf := fromTokens_toTokens (f.outputs.map (·.kind))
    (fun t h => by obtain ⟨p, hp, rfl⟩ := List.mem_map.1 h; exact hg p hp) as
  obtain ⟨bs, e1, e2⟩ := C104_round_trip prof prof _ _ ht hs hl 32 bits (Or.inl rfl) hb
  rw [C103_conforms prof _ _ ht hs hl] at e1
  cases e1
  have hd : Function.decodeOutputOn bits prof (genFunction f)
      (encodeArgs (toTokens (f.outputs.map (·.kind)) as) (f.outputs.map (·.kind))) = .ok (toTokens (f.outputs.map (·.kind)) as) := by
    rw [Function.decodeOutputOn, outputTypes_gen]; exact e2
  rw [genDecodeOutputOn]
  split
  · next h0 =>
      obtain ⟨nm, ins, outs, c, m⟩ := f
      obtain rfl : outs = [] := List.length_eq_zero_iff.1 h0
      rfl
  · rw [hd, Res.ok_bind, hf]

/-- **C123**, logs: the log emitted for `ps` parses to a struct holding the emitted values on 32 bits too, when the event's name is
already in camel case. -/
theorem C123_parse_emitted (camel : Str → Str) (hash : Bytes → Word) (prof : Profile) (e : Event) (ps : List Emitted) (log : RawLog)
    (hc : camel e.name = e.name)
    (hin : e.inputs = ps.map fun p => { name := p.name, kind := p.kind, indexed := p.indexed })
    (hg : ∀ p ∈ ps, generated p.kind = true) (hv : ∀ p ∈ ps, p.indexed = true → valueType p.kind = true)
    (hn : (ps.map (·.name)).Nodup)
    (ht : ∀ p ∈ ps, hasType p.value p.kind = true) (hs : ∀ p ∈ ps, solidity p.kind = true)
    (hlt : log.topics.map (·.1) = emitTopics hash e.name e.anonymous ps) (hld : log.data = emitData ps)
    (hk : log.topics.length < 2 ^ 26) (hb : log.data.length < 2 ^ 31) :
    ∃ as, genParseLogOn 32 camel hash prof e log = .ok as ∧ toTokens (e.inputs.map (·.kind)) as = ps.map (·.value) := by
  obtain ⟨as, h1, h2⟩ := C54_parse_emitted camel hash prof e ps log hc hin hg hv hn ht hs hlt hld (by omega) (by omega)
  refine ⟨as, ((C123_parse_log camel hash prof e log (fun p hp => ?_) hk hb).2.2 as).2 h1, h2⟩
  rw [hin] at hp
  obtain ⟨q, hq, rfl⟩ := List.mem_map.1 hp
  exact solidity_narrow32 _ (hs q hq)

/-- **C123**, logs: for the events whose generated `parse_log` never panics on 64 bits (C54_events_exactly), it panics on 32 bits
exactly if the topics are in order and the data hold an offset or a length that reaches 2^32. -/
theorem C123_parse_log_panics (camel : Str → Str) (hash : Bytes → Word) (prof : Profile) (e : Event) (log : RawLog)
    (hg : ∀ p ∈ e.inputs, generated p.kind = true) (hm : fieldsMatch e)
    (hn : ∀ p ∈ e.inputs, narrow32 p.kind = true) (ht : log.topics.length < 2 ^ 26) (hd : log.data.length < 2 ^ 31) :
    genParseLogOn 32 camel hash prof e log = .panic ↔
      (∃ tt, topicsHold hash (camel e.name) (e.inputs.map (·.kind)) e.anonymous (log.topics.map (·.1))
        ((e.inputs.filter (·.indexed)).map (·.kind)) tt) ∧ wrapsAny 32 ((e.inputs.filter (!·.indexed)).map (·.kind)) log.data 0 := by
  obtain ⟨h1, h2, -⟩ := C123_parse_log camel hash prof e log hn ht hd
  refine ⟨fun h => ?_, fun h => (h1 h).1⟩
  by_contra hc
  rw [h2 hc] at h
  exact C54_matching_fields camel hash prof e log hg hm (by omega) (by omega) h

/-- The two targets differ on a log: 64 bytes of data that announce a text of 2^32 - 1 bytes. -/
theorem C123_counterexample_log : ∀ prof : Profile,
    genParseLogOn 32 id constHash prof wrapEvent { topics := [U256.toWord 7], data := word 32 ++ word (2 ^ 32 - 1) } = .panic ∧
    genParseLog id constHash prof wrapEvent { topics := [U256.toWord 7], data := word 32 ++ word (2 ^ 32 - 1) } =
      .err .invalidData := by
  intro prof
  obtain ⟨h1, h2⟩ := C104_counterexample_log prof
  have he : genEvent id wrapEvent = wrapEvent := rfl
  rw [genParseLogOn, genParseLog, he, h1, h2]
  exact ⟨rfl, rfl⟩

/-- the conditions of `C123_parse_log_panics` hold of this event, so that the panic is one of those it describes -/
example : (∀ p ∈ wrapEvent.inputs, generated p.kind = true) ∧ fieldsMatch wrapEvent ∧
    ∀ p ∈ wrapEvent.inputs, narrow32 p.kind = true := by
  refine ⟨by decide, ?_, by decide⟩
  intro p hp u hu
  rcases List.mem_cons.1 hp with rfl | hp
  · rw [EventFields.lastNamed_unique hu ⟨[], [(lit "b", .string)], rfl, by decide⟩]; rfl
  · rcases List.mem_cons.1 hp with rfl | hp
    · rw [EventFields.lastNamed_unique hu ⟨[(lit "a", .uint 256)], [], rfl, nofun⟩]; rfl
    · cases hp

/-- an event with indexed bytes, and a filter for one value -/
def bytesEvent : Event := { name := lit "E", inputs := [⟨lit "a", .bytes, true⟩], anonymous := true }
def bytesFilter (b : Bytes) : FilterArgs ((bytesEvent.indexedParams true).map (·.kind)) :=
  ((Topic.this b, ()) : Topic Bytes × Unit)

/-- The two targets differ on a filter: a value of 64 MiB. -/
theorem C123_counterexample_filter (hash : Bytes → Word) (prof : Profile) (b : Bytes) (hb : b.length = 2 ^ 26 - 32) :
    genFilterOn 32 id hash prof bytesEvent (bytesFilter b) = .panic ∧
    ∃ r, genFilter id hash prof bytesEvent (bytesFilter b) = .ok r := by
  obtain ⟨h1, r, h2⟩ := C104_counterexample_filter hash prof b hb
  have hr : rawOfTopics (filterTopics ((bytesEvent.indexedParams true).map (·.kind)) (bytesFilter b)) =
      { topic0 := .this (.bytes b) } := rfl
  have he : genEvent id bytesEvent = bytesEvent := rfl
  rw [genFilterOn, genFilter, hr, he]
  refine ⟨?_, r, ?_⟩
  · rw [bytesEvent, h1]; rfl
  · rw [bytesEvent, h2]; rfl

example : ∃ b : Bytes, b.length = 2 ^ 26 - 32 := exists_bytes _

/-- the conditions hold, and the data are decoded -/
example : (∀ p ∈ bytesFunction.outputs, generated p.kind = true) ∧
    ParamType.usizeOkAll (bytesFunction.outputs.map (·.kind)) = true ∧ narrow32All (bytesFunction.outputs.map (·.kind)) = true ∧
    (decodeOn 32 .release bytesFunction.outputParamTypes (word 32 ++ word 1 ++ word (2 ^ 255)) = .ok [.bytes [128]]) := by
  refine ⟨by simp [bytesFunction, generated], rfl, rfl, by decide +kernel⟩

/-- the conditions of `C123_returned` -/
def returnedBytes : RustArgs (bytesFunction.outputs.map (·.kind)) := (([1, 2, 3], ()) : Bytes × Unit)
example : solidityAll (bytesFunction.outputs.map (·.kind)) = true ∧
    (encodeArgs (toTokens (bytesFunction.outputs.map (·.kind)) returnedBytes) (bytesFunction.outputs.map (·.kind))).length = 96 := by
  decide +kernel

end Ethabi.Props

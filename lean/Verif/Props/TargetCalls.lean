import Verif.Proofs.TargetCalls
import Verif.Props.LogsExact
/-! # Property C104: calls, filters and logs on targets with a `usize` of 32 bits -/
namespace Ethabi.Props
open Ethabi Spec Logs TargetCalls

/-- The model with the width as a parameter is the model of the other claims for 64 bits. -/
theorem C104_same_code (hash : Bytes → Word) (prof : Profile) :
    (∀ (f : Function) data, f.decodeOutputOn 64 prof data = f.decodeOutput prof data) ∧
    (∀ (f : Function) data, f.decodeInputOn 64 prof data = f.decodeInput prof data) ∧
    (∀ (f : Function) toks, f.encodeInputOn 64 hash prof toks = f.encodeInput hash prof toks) ∧
    (∀ (c : Constructor) code toks, c.encodeInputOn 64 prof code toks = c.encodeInput prof code toks) ∧
    (∀ (e : Event) raw, e.filterOn 64 hash prof raw = e.filter hash prof raw) ∧
    ∀ (e : Event) log, e.parseLogOn 64 hash prof log = e.parseLog hash prof log := by
  refine ⟨fun f data => C87_same_code _ _ _, fun f data => C87_same_code _ _ _, fun f toks => ?_, fun c code toks => ?_,
    filter_64 hash prof, parseLog_64 hash prof⟩
  · unfold Function.encodeInputOn Function.encodeInput; rw [C103_same_code]
  · unfold Constructor.encodeInputOn Constructor.encodeInput; rw [C103_same_code]

/-- **C104**, `decode_output` and `decode_input`: the values that the data hold, as on 64 bits. -/
theorem C104_decode (prof : Profile) (f : Function) (data : Bytes) (hi : ∀ p ∈ f.inputs, narrow32 p.kind = true)
    (ho : ∀ p ∈ f.outputs, narrow32 p.kind = true) (hd : data.length < 2 ^ 31) (toks : List Token) :
    (f.decodeOutputOn 32 prof data = .ok toks ↔ f.decodeOutput prof data = .ok toks) ∧
    (f.decodeInputOn 32 prof data = .ok toks ↔ f.decodeInput prof data = .ok toks) := by
  have key : ∀ ts : List ParamType, narrow32All ts = true →
      (decodeOn 32 prof ts data = .ok toks ↔ decode prof ts data = .ok toks) := fun ts h => by
    rw [C87_decodes_exactly prof ts data toks h hd,
      C74_decodes_exactly prof ts data toks (Targets.narrowAll_of_narrow32 ts h) (by omega)]
  refine ⟨key _ ?_, key _ ?_⟩
  · rw [narrow32All_iff]; intro t ht
    obtain ⟨p, hp, rfl⟩ := List.mem_map.1 ht
    exact ho p hp
  · rw [narrow32All_iff]; intro t ht
    obtain ⟨p, hp, rfl⟩ := List.mem_map.1 ht
    exact hi p hp

/-- **C104**, `filter`: as on 64 bits if all values asked for take less than 64 MiB; a filter that succeeds on 64 bits panics on 32
bits if one takes more.  (An error may come before the panic, so in the other cases: the same, or a panic.) -/
theorem C104_filter (hash : Bytes → Word) (prof : Profile) (e : Event) (raw : RawTopicFilter)
    (hs : ∀ t, asked raw t → sizeAll [t] < 2 ^ 32) :
    ((∀ t, asked raw t → size t < 2 ^ 26) → e.filterOn 32 hash prof raw = e.filter hash prof raw) ∧
    (∀ t f, asked raw t → 2 ^ 26 ≤ size t → e.filter hash prof raw = .ok f → e.filterOn 32 hash prof raw = .panic) ∧
    (e.filterOn 32 hash prof raw = .panic ∨ e.filterOn 32 hash prof raw = e.filter hash prof raw) := by
  have h := limited_filter hash prof e raw (fun t ht => hs t (.inl ht)) (fun t ht => hs t (.inr (.inl ht)))
    (fun t ht => hs t (.inr (.inr ht)))
  refine ⟨fun hsm => h.same ?_, fun t f ht hl hf => h.large ?_ f hf, h.cut⟩
  · rintro (⟨t, ha, hl⟩ | ⟨t, ha, hl⟩ | ⟨t, ha, hl⟩)
    · have := hsm t (.inl ha); omega
    · have := hsm t (.inr (.inl ha)); omega
    · have := hsm t (.inr (.inr ha)); omega
  · rcases ht with ha | ha | ha
    · exact .inl ⟨t, ha, hl⟩
    · exact .inr (.inl ⟨t, ha, hl⟩)
    · exact .inr (.inr ⟨t, ha, hl⟩)

/-- **C104**, `parse_log`, where the targets differ: the topics are in order and reading the data meets a position or an extent of
2^32 or more.  A 32-bit target panics, a 64-bit target reports `InvalidData`. -/
theorem C104_log_wraps (hash : Bytes → Word) (prof : Profile) (e : Event) (log : RawLog)
    (hn : ∀ p ∈ e.inputs, narrow32 p.kind = true) (ht : log.topics.length < 2 ^ 26) (hd : log.data.length < 2 ^ 31)
    (htt : ∃ tt, topicsHold hash e.name (e.inputs.map (·.kind)) e.anonymous (log.topics.map (·.1))
      ((e.inputs.filter (·.indexed)).map (·.kind)) tt)
    (hw : wrapsAny 32 ((e.inputs.filter (!·.indexed)).map (·.kind)) log.data 0) :
    e.parseLogOn 32 hash prof log = .panic ∧ e.parseLog hash prof log = .err .invalidData := by
  obtain ⟨tt, htt⟩ := htt
  have hnd : narrow32All ((e.inputs.filter (!·.indexed)).map (·.kind)) = true := by
    rw [narrow32All_iff]
    intro t ht
    obtain ⟨p, hp, rfl⟩ := List.mem_map.1 ht
    exact hn p (List.mem_filter.1 hp).1
  obtain ⟨h1, h2⟩ := C87_wraps prof _ log.data hnd hd hw
  rw [filter_false] at h1 h2
  rw [parseLogOn_eq, parseLog_eq]
  rcases checkSignature_cases hash e log.topics with ⟨hs, hk, -⟩ | ⟨hs, hk⟩
  · obtain ⟨h4, h5⟩ := (topics_iff hash prof e log.topics tt (fun p hp => narrow_of_narrow32 (hn p hp)) (by omega) hs).2 htt
    have hsame := topics_same prof e (log.topics.drop (skipped e)) hn (by rw [List.length_drop]; omega)
    rw [hk, Res.ok_bind, Res.ok_bind, hsame, h4, Res.ok_bind, Res.ok_bind, if_neg (by simp [h5]), if_neg (by simp [h5]), h1, h2]
    exact ⟨rfl, rfl⟩
  · exact absurd htt.1 hs

/-- **C104**, `parse_log`, everywhere else: the same report, the same error, the same panic. -/
theorem C104_log_otherwise_same (hash : Bytes → Word) (prof : Profile) (e : Event) (log : RawLog)
    (hn : ∀ p ∈ e.inputs, narrow32 p.kind = true) (ht : log.topics.length < 2 ^ 26) (hd : log.data.length < 2 ^ 31)
    (h : ¬ ((∃ tt, topicsHold hash e.name (e.inputs.map (·.kind)) e.anonymous (log.topics.map (·.1))
      ((e.inputs.filter (·.indexed)).map (·.kind)) tt) ∧
      wrapsAny 32 ((e.inputs.filter (!·.indexed)).map (·.kind)) log.data 0)) :
    e.parseLogOn 32 hash prof log = e.parseLog hash prof log := by
  have hnd : narrow32All ((e.inputs.filter (!·.indexed)).map (·.kind)) = true := by
    rw [narrow32All_iff]
    intro t ht
    obtain ⟨p, hp, rfl⟩ := List.mem_map.1 ht
    exact hn p (List.mem_filter.1 hp).1
  rw [parseLogOn_eq, parseLog_eq]
  rcases checkSignature_cases hash e log.topics with ⟨hs, hk, -⟩ | ⟨hs, hk⟩
  · have hsame := topics_same prof e (log.topics.drop (skipped e)) hn (by rw [List.length_drop]; omega)
    rw [hk, Res.ok_bind, Res.ok_bind, hsame]
    cases h4 : decode prof ((e.inputs.filter (·.indexed == true)).map fun p => convertTopicParamType p.kind)
        ((log.topics.drop (skipped e)).flatMap (·.1)) with
    | err e => rfl
    | panic => rfl
    | ok tt =>
      rw [Res.ok_bind, Res.ok_bind]
      by_cases hl : tt.length ≠ log.topics.length - skipped e
      · rw [if_pos hl, if_pos hl]
      · have htt := (topics_iff hash prof e log.topics tt (fun p hp => narrow_of_narrow32 (hn p hp)) (by omega) hs).1
          ⟨h4, by simpa using hl⟩
        have hsd := C87_otherwise_same prof _ log.data hnd hd fun hw => h ⟨⟨tt, htt⟩, hw⟩
        rw [filter_false] at hsd
        rw [if_neg hl, if_neg hl, hsd]
  · rw [hk]; rfl

/-- **C104**, `parse_log`: the same logs are accepted, with the same reports. -/
theorem C104_log_accepts (hash : Bytes → Word) (prof : Profile) (e : Event) (log : RawLog) (l : Log)
    (hn : ∀ p ∈ e.inputs, narrow32 p.kind = true) (ht : log.topics.length < 2 ^ 26) (hd : log.data.length < 2 ^ 31) :
    e.parseLogOn 32 hash prof log = .ok l ↔ e.parseLog hash prof log = .ok l := by
  by_cases h : (∃ tt, topicsHold hash e.name (e.inputs.map (·.kind)) e.anonymous (log.topics.map (·.1))
      ((e.inputs.filter (·.indexed)).map (·.kind)) tt) ∧
      wrapsAny 32 ((e.inputs.filter (!·.indexed)).map (·.kind)) log.data 0
  · obtain ⟨h1, h2⟩ := C104_log_wraps hash prof e log hn ht hd h.1 h.2
    rw [h1, h2]; exact ⟨nofun, nofun⟩
  · rw [C104_log_otherwise_same hash prof e log hn ht hd h]

/-- an event with an indexed `uint256` and a text in the data -/
def wrapEvent : Event := { name := lit "E", inputs := [⟨lit "a", .uint 256, true⟩, ⟨lit "b", .string, false⟩], anonymous := true }

/-- The two targets differ on a log: 64 bytes of data that announce a text of 2^32 - 1 bytes. -/
theorem C104_counterexample_log : ∀ prof : Profile,
    wrapEvent.parseLogOn 32 constHash prof { topics := [U256.toWord 7], data := word 32 ++ word (2 ^ 32 - 1) } = .panic ∧
    wrapEvent.parseLog constHash prof { topics := [U256.toWord 7], data := word 32 ++ word (2 ^ 32 - 1) } = .err .invalidData := by
  intro prof
  cases prof <;> decide +kernel

/-- The two targets differ on a filter: a text of 64 MiB. -/
theorem C104_counterexample_filter (hash : Bytes → Word) (prof : Profile) (b : Bytes) (hb : b.length = 2 ^ 26 - 32) :
    let e : Event := { name := lit "E", inputs := [⟨lit "a", .bytes, true⟩], anonymous := true }
    e.filterOn 32 hash prof { topic0 := .this (.bytes b) } = .panic ∧
      ∃ f, e.filter hash prof { topic0 := .this (.bytes b) } = .ok f := by
  intro e
  obtain ⟨h1, bs, h2, -⟩ := C103_counterexample prof b hb
  have hf : ∃ f, e.filter hash prof { topic0 := .this (.bytes b) } = .ok f := by
    simp only [Event.filter, e, Event.indexedParams, List.filter, convertTopic, convertToken, Token.typeCheck, List.map_cons,
      List.getElem?_cons_zero, h2, Res.ok_bind, Bool.not_true, if_true, Bool.false_eq_true, if_false, beq_self_eq_true]
    split <;> simp
  refine ⟨?_, hf⟩
  obtain ⟨f, hf⟩ := hf
  have hsz : size (.bytes b) = 2 ^ 26 := by rw [size, hb, roundUp]; norm_num
  refine (C104_filter hash prof e _ ?_).2.1 (.bytes b) f (Or.inl (Or.inl rfl)) (by omega) hf
  rintro t ((h | ⟨l, h, -⟩) | (h | ⟨l, h, -⟩) | (h | ⟨l, h, -⟩)) <;> cases h
  simp only [sizeAll, tailed, hsz, if_true]; norm_num

example : ∃ b : Bytes, b.length = 2 ^ 26 - 32 := exists_bytes _

/-- the hypotheses of `C104_log_wraps` -/
example : (∃ tt, topicsHold constHash wrapEvent.name (wrapEvent.inputs.map (·.kind)) wrapEvent.anonymous
      ([U256.toWord 7].map (·.1)) ((wrapEvent.inputs.filter (·.indexed)).map (·.kind)) tt) ∧
    wrapsAny 32 ((wrapEvent.inputs.filter (!·.indexed)).map (·.kind)) (word 32 ++ word (2 ^ 32 - 1)) 0 ∧
    (∀ p ∈ wrapEvent.inputs, narrow32 p.kind = true) := by
  refine and_assoc.1 ⟨?_, by decide⟩
  by_contra hc
  have h := C104_log_otherwise_same constHash .debug wrapEvent
    { topics := [U256.toWord 7], data := word 32 ++ word (2 ^ 32 - 1) } (by decide) (by decide) (by decide +kernel) hc
  obtain ⟨h1, h2⟩ := C104_counterexample_log .debug
  rw [h1, h2] at h
  cases h

/-- a log that both accept -/
example : (wrapEvent.parseLogOn 32 constHash .debug
    { topics := [U256.toWord 7], data := word 32 ++ word 1 ++ [0x78] ++ List.replicate 31 0 }) =
    .ok { params := [⟨lit "a", .uint 7⟩, ⟨lit "b", .string ['x']⟩] } := by decide +kernel

mutual
theorem solidity_narrow32 : ∀ t : ParamType, solidity t = true → narrow32 t = true
  | .fixedBytes n, h => by simp only [solidity, decide_eq_true_eq] at h; simp only [narrow32, decide_eq_true_eq]; omega
  | .array t, h => by rw [solidity] at h; rw [narrow32]; exact solidity_narrow32 t h
  | .fixedArray t _, h => by
      rw [solidity, Bool.and_eq_true] at h
      rw [narrow32]; exact solidity_narrow32 t h.1
  | .tuple ts, h => by
      rw [solidity, Bool.and_eq_true] at h
      rw [narrow32]; exact solidity_narrow32All ts h.2
  | .int _, _ => rfl
  | .uint _, _ => rfl
  | .address, _ => rfl
  | .bytes, _ => rfl
  | .bool, _ => rfl
  | .string, _ => rfl
theorem solidity_narrow32All : ∀ ts : List ParamType, solidityAll ts = true → narrow32All ts = true
  | [], _ => rfl
  | t :: ts, h => by
      rw [solidityAll, Bool.and_eq_true] at h
      rw [narrow32All, solidity_narrow32 t h.1, solidity_narrow32All ts h.2]; rfl
end

/-- **C104**, round trip: values of Solidity types whose encoding is below 64 MiB come back, whichever of the two kinds of target
encodes and whichever decodes. -/
theorem C104_round_trip (pe pd : Profile) (ts : List ParamType) (toks : List Token) (ht : haveTypes toks ts = true)
    (hs : solidityAll ts = true) (hl : (encodeArgs toks ts).length < 2 ^ 26) (be bd : Nat) (he : be = 32 ∨ be = 64)
    (hd : bd = 32 ∨ bd = 64) : ∃ bs, encodeOn be pe toks = .ok bs ∧ decodeOn bd pd ts bs = .ok toks := by
  obtain ⟨bs, h1, h2⟩ := C01_round_trip_solidity pe pd ts toks ht hs (by omega)
  have e : encodeOn 32 pe toks = .ok (encodeArgs toks ts) := C103_conforms pe ts toks ht hs hl
  have hb : bs = encodeArgs toks ts := by
    rw [C02_encode_conforms_solidity pe ts toks ht hs (by omega)] at h1
    cases h1; rfl
  have hn := solidity_narrow32All ts hs
  refine ⟨bs, ?_, ?_⟩
  · rcases he with rfl | rfl
    · rw [e, hb]
    · rw [C103_same_code, h1]
  · rcases hd with rfl | rfl
    · rw [C87_decodes_exactly pd ts bs toks hn (by rw [hb]; omega),
        ← C74_decodes_exactly pd ts bs toks (Targets.narrowAll_of_narrow32 ts hn) (by rw [hb]; omega)]
      exact h2
    · rw [C87_same_code, h2]

example : haveTypes sampleTokens sampleTypes = true ∧ solidityAll sampleTypes = true ∧
    (encodeArgs sampleTokens sampleTypes).length < 2 ^ 26 := by decide +kernel

end Ethabi.Props

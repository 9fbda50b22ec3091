import Verif.Proofs.Logs
import Verif.Props.Logs
/-!
# C79: exactly which logs `parse_log` accepts and what it reports

`Spec/Logs.lean` says, without reference to the decoder, when topics and data hold values.
-/
namespace Ethabi.Props
open Spec Logs

/-- the names and values in the order topics, data -/
def namedValues (e : Event) (tt dt : List Token) : List (Str × Token) :=
  ((e.inputs.filter (·.indexed)).map (·.name)).zip tt ++ ((e.inputs.filter (!·.indexed)).map (·.name)).zip dt

/-- **C79**, success: a log is accepted exactly if it is signed, has one topic for each indexed parameter, and topics
and data hold values of the types; the report lists the parameters in order, each with the value of the last parameter
of its name (indexed ones first). -/
theorem C79_accepts_exactly (hash : Bytes → Word) (prof : Profile) (e : Event) (log : RawLog) (l : Log)
    (hn : ∀ p ∈ e.inputs, narrow p.kind = true) (ht : log.topics.length < 2 ^ 58) (hd : log.data.length < 2 ^ 63) :
    e.parseLog hash prof log = .ok l ↔ ∃ tt dt,
      topicsHold hash e.name (e.inputs.map (·.kind)) e.anonymous (log.topics.map (·.1))
        ((e.inputs.filter (·.indexed)).map (·.kind)) tt ∧
      dataHold log.data ((e.inputs.filter (!·.indexed)).map (·.kind)) dt ∧
      List.Forall₂ (fun n p => p.name = n ∧ lastNamed (namedValues e tt dt) n p.value) (e.inputs.map (·.name)) l.params := by
  have hnd : narrowAll ((e.inputs.filter (!·.indexed)).map (·.kind)) = true := by
    rw [narrowAll_iff]
    intro t ht
    obtain ⟨p, hp, rfl⟩ := List.mem_map.1 ht
    exact hn p (List.mem_filter.1 hp).1
  have hdata := fun dt => C74_decodes_exactly prof _ log.data dt hnd hd
  rw [parseLog_eq]
  rcases checkSignature_cases hash e log.topics with ⟨hs, hk, -⟩ | ⟨hs, hk⟩
  · rw [hk, Res.ok_bind]
    have htop := fun tt => topics_iff hash prof e log.topics tt hn ht hs
    simp only [Res.bind_eq_ok]
    constructor
    · rintro ⟨tt, h1, h⟩
      split at h
      · cases h
      · rename_i hlen
        rw [ne_eq, not_not] at hlen
        simp only [Res.bind_eq_ok, Res.ok.injEq] at h
        obtain ⟨dt, h2, ps, h3, rfl⟩ := h
        refine ⟨tt, dt, (htop tt).1 ⟨h1, hlen⟩, ?_, ?_⟩
        · rw [filter_false] at hdata ⊢; exact (hdata dt).1 h2
        · unfold namedValues; rw [filter_false, filter_true]; exact logParams_iff.1 h3
    · rintro ⟨tt, dt, h1, h2, h3⟩
      obtain ⟨h4, h5⟩ := (htop tt).2 h1
      refine ⟨tt, h4, ?_⟩
      rw [if_neg (by simp [h5])]
      simp only [Res.bind_eq_ok, Res.ok.injEq]
      refine ⟨dt, ?_, l.params, ?_, rfl⟩
      · have := (hdata dt).2 h2
        rw [filter_false] at this; exact this
      · unfold namedValues at h3; rw [filter_false, filter_true] at h3; exact logParams_iff.2 h3
  · rw [hk]
    constructor
    · intro h; cases h
    · rintro ⟨_, _, h, _⟩; exact absurd h.1 hs

/-- **C79**, panic: exactly if the topics are in order and decoding the data meets a dynamic `T[k]` with an offset behind
the end of the data. -/
theorem C79_panics_exactly (hash : Bytes → Word) (prof : Profile) (e : Event) (log : RawLog)
    (hn : ∀ p ∈ e.inputs, narrow p.kind = true) (ht : log.topics.length < 2 ^ 58) (hd : log.data.length < 2 ^ 63) :
    e.parseLog hash prof log = .panic ↔
      (∃ tt, topicsHold hash e.name (e.inputs.map (·.kind)) e.anonymous (log.topics.map (·.1))
        ((e.inputs.filter (·.indexed)).map (·.kind)) tt) ∧
      overrunsAny ((e.inputs.filter (!·.indexed)).map (·.kind)) log.data 0 := by
  have hnd : narrowAll ((e.inputs.filter (!·.indexed)).map (·.kind)) = true := by
    rw [narrowAll_iff]
    intro t ht
    obtain ⟨p, hp, rfl⟩ := List.mem_map.1 ht
    exact hn p (List.mem_filter.1 hp).1
  have hpan := C06_panics_exactly prof _ log.data hnd hd
  rw [filter_false] at hpan ⊢
  rw [parseLog_eq]
  rcases checkSignature_cases hash e log.topics with ⟨hs, hk, -⟩ | ⟨hs, hk⟩
  · rw [hk, Res.ok_bind]
    have htop := fun tt => topics_iff hash prof e log.topics tt hn ht hs
    constructor
    · intro h
      rw [bind_eq_panic] at h
      rcases h with h | ⟨tt, h1, h⟩
      · exfalso
        have hct : ((e.inputs.filter (·.indexed == true)).map fun p => convertTopicParamType p.kind) =
            ((e.inputs.filter (·.indexed == true)).map (·.kind)).map topicType := by
          rw [List.map_map]
          apply List.map_congr_left
          intro p _; exact convertTopicParamType_eq _
        rw [hct] at h
        refine no_overrunAny _ _ 0 ((C06_panics_exactly prof _ _ ?_ ?_).1 h)
        · rw [narrowAll_iff]
          intro t ht
          obtain ⟨u, hu, rfl⟩ := List.mem_map.1 ht
          obtain ⟨p, hp, rfl⟩ := List.mem_map.1 hu
          exact narrow_topicType (hn p (List.mem_filter.1 hp).1)
        · rw [length_flat, List.length_drop]; omega
      · split at h
        · cases h
        · rename_i hlen
          rw [ne_eq, not_not] at hlen
          refine ⟨⟨tt, (htop tt).1 ⟨h1, hlen⟩⟩, hpan.1 ?_⟩
          rw [bind_eq_panic] at h
          rcases h with h | ⟨dt, hdt, h⟩
          · exact h
          · exfalso
            obtain ⟨ps, hps⟩ := namedPairs_noPanic e.inputs tt dt (by simpa using decode_length h1) (by simpa using decode_length hdt)
            rw [hps] at h; cases h
    · rintro ⟨⟨tt, h1⟩, h2⟩
      obtain ⟨h4, h5⟩ := (htop tt).2 h1
      rw [h4, Res.ok_bind, if_neg (by simp [h5]), hpan.2 h2]; rfl
  · rw [hk]
    constructor
    · intro h; cases h
    · rintro ⟨⟨_, h, _⟩, _⟩; exact absurd h hs

/-- **C79**, the remaining logs are refused with `InvalidData`, or with the message for empty data. -/
theorem C79_errors (hash : Bytes → Word) (prof : Profile) (e : Event) (log : RawLog) (err : Err)
    (h : e.parseLog hash prof log = .err err) : err = .invalidData ∨ err = .invalidName emptyDataMsg := by
  have hdec : ∀ ts data err, decode prof ts data = .err err → err = .invalidData ∨ err = .invalidName emptyDataMsg := by
    intro ts data err h
    rw [decode] at h
    split at h
    · cases h; exact Or.inr rfl
    · rw [bind_eq_err] at h
      rcases h with h | ⟨_, _, h⟩
      · exact Or.inl (onlyInvalid_params prof ts data 0 err h)
      · cases h
  rw [parseLog_eq] at h
  rcases checkSignature_cases hash e log.topics with ⟨hs, hk, -⟩ | ⟨hs, hk⟩
  · rw [hk, Res.ok_bind, bind_eq_err] at h
    rcases h with h | ⟨tt, h1, h⟩
    · exact hdec _ _ _ h
    · split at h
      · cases h; exact Or.inl rfl
      · rw [bind_eq_err] at h
        rcases h with h | ⟨dt, hdt, h⟩
        · exact hdec _ _ _ h
        · obtain ⟨ps, hps⟩ := namedPairs_noPanic e.inputs tt dt (by simpa using decode_length h1) (by simpa using decode_length hdt)
          rw [hps] at h; cases h
  · rw [hk] at h; cases h; exact Or.inl rfl

/-- **C36**, exactly: the value reported under a name is that of the last parameter with this name. -/
theorem C36_last_of_name (hash : Bytes → Word) (prof : Profile) (e : Event) (log : RawLog) (l : Log)
    (h : e.parseLog hash prof log = .ok l) :
    ∃ tt dt, decode prof ((e.inputs.filter (·.indexed)).map fun p => topicType p.kind)
        ((log.topics.drop (if e.anonymous then 0 else 1)).flatMap (·.1)) = .ok tt ∧
      decode prof ((e.inputs.filter (!·.indexed)).map (·.kind)) log.data = .ok dt ∧
      List.Forall₂ (fun n p => p.name = n ∧ lastNamed (namedValues e tt dt) n p.value) (e.inputs.map (·.name)) l.params := by
  rw [parseLog_eq] at h
  simp only [Res.bind_eq_ok] at h
  obtain ⟨k, hk, tt, htt, h⟩ := h
  have hke : k = if e.anonymous then 0 else 1 := by
    rcases checkSignature_ok hk with ⟨ha, rfl⟩ | ⟨ha, rfl, -⟩ <;> simp [ha]
  have hct : (fun p : EventParam => topicType p.kind) = fun p => convertTopicParamType p.kind := by
    funext p; exact (convertTopicParamType_eq _).symm
  split at h
  · cases h
  · simp only [Res.bind_eq_ok, Res.ok.injEq] at h
    obtain ⟨dt, hdt, ps, hps, rfl⟩ := h
    refine ⟨tt, dt, by rw [filter_true, hct, ← hke]; exact htt, by rw [filter_false]; exact hdt, ?_⟩
    unfold namedValues; rw [filter_false, filter_true]; exact logParams_iff.1 hps

/-- the sample event of C33 meets the hypotheses, and so does the one with equal names: of its two values both
parameters report the second -/
example : (∀ p ∈ sampleEvent.inputs, narrow p.kind = true) ∧ (∃ l, sampleEvent.parseLog constHash .debug sampleLog = .ok l) ∧
    (∀ p ∈ dupEvent.inputs, narrow p.kind = true) ∧
    lastNamed (namedValues dupEvent [] [.bool true, .uint 9]) [] (.uint 9) := by
  refine ⟨by decide, ?_, by decide, ?_⟩
  · cases h : sampleEvent.parseLog constHash .debug sampleLog with
    | ok l => exact ⟨l, rfl⟩
    | err e =>
      have : (match sampleEvent.parseLog constHash .debug sampleLog with | .ok _ => true | _ => false) = true := by
        decide +kernel
      rw [h] at this; cases this
    | panic =>
      have : (match sampleEvent.parseLog constHash .debug sampleLog with | .ok _ => true | _ => false) = true := by
        decide +kernel
      rw [h] at this; cases this
  · exact ⟨[([], .bool true)], [], rfl, by simp⟩

/-- data with an overrun: the panic is met -/
example : overrunsAny [.fixedArray .bytes 1] (word 1000) 0 ∧
    ({ name := lit "E", inputs := [⟨lit "a", .fixedArray .bytes 1, false⟩], anonymous := true } : Event).parseLog constHash .debug
      { topics := [], data := word 1000 } = .panic := by
  refine ⟨?_, by decide +kernel⟩
  rw [← C06_panics_exactly .debug _ _ (by decide) (by decide +kernel)]
  decide +kernel

end Ethabi.Props

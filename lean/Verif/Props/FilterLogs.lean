import Verif.Proofs.FilterLogs
import Verif.Props.Filters
import Verif.Props.LogsExact
/-!
# C80: filters and parsed logs agree

C39 speaks of logs as the EVM emits them; here the log is arbitrary, only known to be accepted by `parse_log`.
-/
namespace Ethabi.Props
open Spec Logs FilterLogs

/-- **C80**, wildcard: the filter without conditions asks for the signature and nothing else. -/
theorem C80_wildcard (hash : Bytes → Word) (prof : Profile) (e : Event) :
    ∃ f, e.filter hash prof { topic0 := .any, topic1 := .any, topic2 := .any } = .ok f ∧
      ∀ topics, filterMatches f topics ↔ signedBy hash e.name (e.inputs.map (·.kind)) e.anonymous topics := by
  unfold Event.filter signedBy
  cases ha : e.anonymous with
  | true =>
    exact ⟨⟨.any, .any, .any, .any⟩, rfl, fun topics => by simp [filterMatches, topicMatches]⟩
  | false =>
    refine ⟨⟨.this (e.signature hash), .any, .any, .any⟩, rfl, fun topics => ?_⟩
    have hs : (e.signature hash).1 = eventTopic hash e.name (e.inputs.map (·.kind)) := signature_eventTopic hash e
    simp [filterMatches, topicMatches, hs, List.head?_eq_getElem?]

/-- **C80**, wildcard: it matches every log that `parse_log` accepts. -/
theorem C80_accepted_matches (hash : Bytes → Word) (prof : Profile) (e : Event) (log : RawLog) (l : Log) (f : TopicFilter)
    (h : e.parseLog hash prof log = .ok l)
    (hf : e.filter hash prof { topic0 := .any, topic1 := .any, topic2 := .any } = .ok f) :
    filterMatches f (log.topics.map (·.1)) := by
  obtain ⟨f', hf', hm⟩ := C80_wildcard hash prof e
  rw [hf'] at hf
  simp only [Res.ok.injEq] at hf
  subst hf
  rw [hm]
  rw [parseLog_eq] at h
  rcases checkSignature_cases hash e log.topics with ⟨hs, -, -⟩ | ⟨-, hk⟩
  · exact hs
  · rw [hk] at h; cases h

/-- the values reported for the indexed parameters -/
def reportedTopics (e : Event) (l : Log) : List Token := ((e.inputs.zip l.params).filter (·.1.indexed)).map (·.2.value)

/-- **C80**, values: of an accepted log, a filter that matches its topics asks for the reported values; and it does match
if it asks for them and every topic is the encoding of a value, which is always the case for integers. -/
theorem C80_values (hash : Bytes → Word) (prof : Profile) (e : Event) (log : RawLog) (l : Log) (raw : RawTopicFilter)
    (f : TopicFilter) (hn : (e.inputs.map (·.name)).Nodup)
    (hk : ∀ k ∈ indexedKinds e, valueType k = true ∧ solidity k = true)
    (hl : log.topics.length < 2 ^ 58)
    (h : e.parseLog hash prof log = .ok l) (hf : e.filter hash prof raw = .ok f)
    (hr : ∀ (i : Nat) topic k, [raw.topic0, raw.topic1, raw.topic2][i]? = some topic → (indexedKinds e)[i]? = some k →
      ∀ t ∈ tokensOf topic, hasType t k = true) :
    (filterMatches f (log.topics.map (·.1)) → rawMatchesValues raw (reportedTopics e l)) ∧
    ((∀ (i : Nat) k topic, (indexedKinds e)[i]? = some k →
        (argumentTopics e.anonymous (log.topics.map (·.1)))[i]? = some topic →
        ((∃ n, k = .uint n) ∨ ∃ n, k = .int n) ∨ ∃ v, hasType v k = true ∧ topic = enc v k) →
      rawMatchesValues raw (reportedTopics e l) → filterMatches f (log.topics.map (·.1))) := by
  have hcount := C34_topic_count hash prof e log l h
  obtain ⟨tt, dt, h1, h2, h3⟩ := C36_positional_partial hash prof e log l hn h
  have hrep : reportedTopics e l = tt :=
    interleave_indexed e.inputs tt dt l.params (by simpa using decode_length h1) (by simpa using decode_length h2) h3
  have hto : ∀ topic, tokensOf topic = topicTokens topic := by intro t; cases t <;> rfl
  rw [hrep]
  have hsg : signedBy hash e.name (e.inputs.map (·.kind)) e.anonymous (log.topics.map (·.1)) := by
    rw [parseLog_eq] at h
    rcases checkSignature_cases hash e log.topics with ⟨hs, -, -⟩ | ⟨-, hk⟩
    · exact hs
    · rw [hk] at h; cases h
  have hskip : (if e.anonymous then 0 else 1) = skipped e := rfl
  have hflat : (argumentTopics e.anonymous (log.topics.map (·.1))).flatten =
      (log.topics.drop (if e.anonymous then 0 else 1)).flatMap (·.1) := by
    rw [arguments_eq, hskip, List.flatMap_def]
  have hlen : (argumentTopics e.anonymous (log.topics.map (·.1))).length = (indexedKinds e).length := by
    rw [arguments_eq, List.length_map, List.length_drop, ← hskip, hcount]; unfold indexedKinds; simp
  have hw32 : ∀ w ∈ argumentTopics e.anonymous (log.topics.map (·.1)), w.length = 32 := by
    intro w hw
    rw [arguments_eq] at hw
    obtain ⟨x, -, rfl⟩ := List.mem_map.1 hw
    exact x.2
  have hmap : ((e.inputs.filter (·.indexed)).map fun p => topicType p.kind) = (indexedKinds e).map topicType := by
    unfold indexedKinds; rw [List.map_map]; rfl
  have hnar : narrowAll ((indexedKinds e).map topicType) = true := by
    rw [narrowAll_iff]
    intro t ht
    obtain ⟨u, hu, rfl⟩ := List.mem_map.1 ht
    exact narrow_topicType (narrow_value (hk u hu).1 (hk u hu).2)
  rw [hmap] at h1
  have hread := ((C74_decodes_exactly prof _ _ tt hnar (by rw [length_flat, List.length_drop]; omega)).1 h1).2
  rw [← hflat] at hread
  obtain ⟨hlt, hpt⟩ := readsAll_topics (indexedKinds e) _ [] tt (fun t ht => (hk t ht).2) hw32 hlen hread
  have hks : ∀ i : Nat, ∀ q, (indexedKinds e)[i]? = some q → valueType q = true ∧ solidity q = true ∧
      ∃ x y, (argumentTopics e.anonymous (log.topics.map (·.1)))[i]? = some x ∧ tt[i]? = some y ∧ reads q x 0 y := by
    intro i q hq
    have hkq := hk q (List.mem_of_getElem? hq)
    have hi : i < (indexedKinds e).length := (List.getElem?_eq_some_iff.1 hq).1
    have hx := List.getElem?_eq_getElem (l := argumentTopics e.anonymous (log.topics.map (·.1))) (i := i) (by omega)
    have hy := List.getElem?_eq_getElem (l := tt) (i := i) (by omega)
    have := hpt i q _ _ hq hx hy
    have htq : topicType q = q := by unfold topicType; rw [if_pos hkq.1]
    rw [htq] at this
    exact ⟨hkq.1, hkq.2, _, _, hx, hy, this⟩
  have hik : indexedKinds e = (e.inputs.filter (·.indexed == true)).map (·.kind) := by
    unfold indexedKinds; rw [filter_true]
  obtain ⟨t0, t1, t2, c0, c1, c2, rfl⟩ := filter_ok hf
  rw [← hik] at c0 c1 c2
  have s0 := slot (hks 0) (fun q hq t ht => hr 0 _ q rfl hq t (by rw [hto]; exact ht)) c0
  have s1 := slot (hks 1) (fun q hq t ht => hr 1 _ q rfl hq t (by rw [hto]; exact ht)) c1
  have s2 := slot (hks 2) (fun q hq t ht => hr 2 _ q rfl hq t (by rw [hto]; exact ht)) c2
  have hfm : filterMatches (if e.anonymous then ⟨t0, t1, t2, .any⟩ else ⟨.this (e.signature hash), t0, t1, t2⟩)
      (log.topics.map (·.1)) ↔
      topicMatches t0 (argumentTopics e.anonymous (log.topics.map (·.1)))[0]? ∧
      topicMatches t1 (argumentTopics e.anonymous (log.topics.map (·.1)))[1]? ∧
      topicMatches t2 (argumentTopics e.anonymous (log.topics.map (·.1)))[2]? := by
    unfold argumentTopics
    unfold signedBy at hsg
    cases ha : e.anonymous with
    | true => simp [filterMatches, topicMatches]
    | false =>
      have hs : (e.signature hash).1 = eventTopic hash e.name (e.inputs.map (·.kind)) := signature_eventTopic hash e
      simp only [ha, Bool.false_eq_true, false_or] at hsg
      cases hl : log.topics.map (·.1) with
      | nil => rw [hl] at hsg; simp at hsg
      | cons a l =>
        rw [hl] at hsg
        simp only [List.head?_cons, Option.some.injEq] at hsg
        simp [filterMatches, topicMatches, hs, hsg]
  rw [hfm]
  refine ⟨fun ⟨a, b, c⟩ => ⟨s0.1 a, s1.1 b, s2.1 c⟩, fun hx ⟨a, b, c⟩ => ⟨s0.2 ?_ a, s1.2 ?_ b, s2.2 ?_ c⟩⟩ <;>
  · intro q hq x hxx
    rcases hx _ q x hq hxx with hi | ⟨v, hv, rfl⟩
    · obtain ⟨-, -, x', y, hx', -, hrd⟩ := hks _ q hq
      rw [hxx] at hx'
      simp only [Option.some.injEq] at hx'
      subst hx'
      exact ⟨y, integer_exact hi (hw32 x (List.mem_of_getElem? hxx)) hrd⟩
    · exact ⟨v, hv, rfl⟩

/-- **C80**, integers: if all indexed parameters are integers, filter and report agree on every accepted log. -/
theorem C80_integers (hash : Bytes → Word) (prof : Profile) (e : Event) (log : RawLog) (l : Log) (raw : RawTopicFilter)
    (f : TopicFilter) (hn : (e.inputs.map (·.name)).Nodup)
    (hk : ∀ k ∈ indexedKinds e, ((∃ n, k = .uint n) ∨ ∃ n, k = .int n) ∧ solidity k = true)
    (hl : log.topics.length < 2 ^ 58)
    (h : e.parseLog hash prof log = .ok l) (hf : e.filter hash prof raw = .ok f) :
    filterMatches f (log.topics.map (·.1)) ↔ rawMatchesValues raw (reportedTopics e l) := by
  have hv : ∀ k ∈ indexedKinds e, valueType k = true ∧ solidity k = true := by
    intro k hm
    obtain ⟨⟨n, rfl⟩ | ⟨n, rfl⟩, hs⟩ := hk k hm <;> exact ⟨rfl, hs⟩
  have hik : indexedKinds e = (e.inputs.filter (·.indexed == true)).map (·.kind) := by
    unfold indexedKinds; rw [filter_true]
  have hto : ∀ topic, tokensOf topic = topicTokens topic := by intro t; cases t <;> rfl
  have hty : ∀ (i : Nat) topic k tw, convertTopic hash prof topic (indexedKinds e)[i]? = .ok tw →
      (indexedKinds e)[i]? = some k → ∀ t ∈ tokensOf topic, hasType t k = true := by
    intro i topic k tw hc hki t ht
    rw [hto] at ht
    have hm := hk k (List.mem_of_getElem? hki)
    have hch : ∃ w, convertToken hash prof t k = .ok w := by
      rw [hki] at hc
      cases convertTopic_rel hc with
      | any => cases ht
      | this hr =>
        simp only [topicTokens, List.mem_singleton] at ht
        obtain ⟨q, hq, hr⟩ := hr
        cases hq; subst ht; exact ⟨_, hr⟩
      | oneOf hr =>
        obtain ⟨w, q, hq, hr⟩ := forall₂_mem_left hr t ht
        cases hq; exact ⟨w, hr⟩
    obtain ⟨w, hw⟩ := hch
    have htc := (convertToken_ok hw).1
    obtain ⟨⟨n, rfl⟩ | ⟨n, rfl⟩, -⟩ := hm <;> cases t <;> simp_all [Token.typeCheck, hasType]
  obtain ⟨t0, t1, t2, c0, c1, c2, -⟩ := filter_ok hf
  rw [← hik] at c0 c1 c2
  have := C80_values hash prof e log l raw f hn hv hl h hf ?_
  · refine ⟨this.1, this.2 ?_⟩
    intro i k topic hki _
    exact Or.inl (hk k (List.mem_of_getElem? hki)).1
  · intro i topic k hi hki
    rcases i with _ | _ | _ | i
    · cases hi; exact hty 0 _ k _ c0 hki
    · cases hi; exact hty 1 _ k _ c1 hki
    · cases hi; exact hty 2 _ k _ c2 hki
    · simp at hi

/-- `event E(uint8 indexed a, int256 indexed b)` with a log nobody emits: the first topic exceeds `uint8` -/
example (prof : Profile) :
    let e : Event := { name := lit "E", anonymous := false, inputs := [⟨lit "a", .uint 8, true⟩, ⟨lit "b", .int 256, true⟩] }
    let log : RawLog := { topics := [constHash [], ⟨word 1000, by decide⟩, ⟨word 3, by decide⟩], data := [] }
    (e.inputs.map (·.name)).Nodup ∧
    (∀ k ∈ indexedKinds e, ((∃ n, k = .uint n) ∨ ∃ n, k = .int n) ∧ solidity k = true) ∧
    e.parseLog constHash prof log = .ok { params := [⟨lit "a", .uint 1000⟩, ⟨lit "b", .int 3⟩] } ∧
    (∃ f, e.filter constHash prof { topic0 := .oneOf [.uint 7, .uint 1000], topic1 := .this (.int 3), topic2 := .any } = .ok f) := by
  refine ⟨by decide, ?_, by cases prof <;> decide +kernel,
    ⟨⟨.this (constHash []), .oneOf [⟨word 7, by decide⟩, ⟨word 1000, by decide⟩], .this ⟨word 3, by decide⟩, .any⟩, ?_⟩⟩
  · intro k hk
    have hk : k ∈ [ParamType.uint 8, .int 256] := hk
    simp only [List.mem_cons, List.not_mem_nil, or_false] at hk
    rcases hk with rfl | rfl
    · exact ⟨Or.inl ⟨8, rfl⟩, by decide⟩
    · exact ⟨Or.inr ⟨256, rfl⟩, by decide⟩
  · cases prof <;> decide +kernel

/-- The converse of `C80_values` fails without its condition: the topic 2 of a `bool` is reported as `false`, but the
filter for `false` does not match it. -/
theorem C80_counterexample_bool (prof : Profile) :
    let e : Event := { name := lit "E", anonymous := true, inputs := [⟨lit "a", .bool, true⟩] }
    let log : RawLog := { topics := [⟨word 2, by decide⟩], data := [] }
    e.parseLog constHash prof log = .ok { params := [⟨lit "a", .bool false⟩] } ∧
    ∃ f, e.filter constHash prof { topic0 := .this (.bool false), topic1 := .any, topic2 := .any } = .ok f ∧
      ¬ filterMatches f (log.topics.map (·.1)) := by
  refine ⟨by cases prof <;> decide +kernel, ⟨.this ⟨word 0, by decide⟩, .any, .any, .any⟩, by cases prof <;> decide +kernel, ?_⟩
  rintro ⟨h, -⟩
  exact absurd h (by simp only [topicMatches, List.map_cons, List.getElem?_cons_zero, Option.some.injEq]; decide)

/-- And the report on an indexed `string` cannot be used in a filter at all. -/
theorem C80_counterexample_string (prof : Profile) (w : Word) :
    let e : Event := { name := lit "E", anonymous := true, inputs := [⟨lit "a", .string, true⟩] }
    e.parseLog constHash prof { topics := [w], data := [] } = .ok { params := [⟨lit "a", .fixedBytes w.1⟩] } ∧
    e.filter constHash prof { topic0 := .this (.fixedBytes w.1), topic1 := .any, topic2 := .any } = .err .invalidData := by
  intro e
  refine ⟨?_, rfl⟩
  rw [C79_accepts_exactly constHash prof e _ _ (by decide) (by simp) (by simp)]
  refine ⟨[.fixedBytes w.1], [], ⟨Or.inl rfl, rfl, ?_⟩, ⟨Or.inr (by intro t ht; cases ht), rfl⟩, ?_⟩
  · have hw := w.2
    refine ⟨.fixedBytes w.1, [], ?_, rfl, rfl⟩
    simp only [reads, List.drop_zero]
    show 0 + 32 ≤ ([w.1].flatten).length ∧ Token.fixedBytes w.1 = .fixedBytes (([w.1].flatten).take 32)
    simp only [List.flatten_cons, List.flatten_nil, List.append_nil, hw]
    refine ⟨by omega, ?_⟩
    rw [List.take_of_length_le (by omega)]
  · exact .cons ⟨rfl, [], [], rfl, by simp⟩ .nil

end Ethabi.Props

import Verif.Proofs.Filter
import Verif.Props.Logs
/-!
# Properties of topic filters: C37-C42
-/
namespace Ethabi.Props
open Spec

/-! ## C37 slots -/

/-- the word of a token: its encoding if that is one word, else the hash of its encoding -/
def TopicWord (hash : Bytes → Word) (prof : Profile) (tok : Token) (w : Word) : Prop :=
  ∃ b, encode prof [tok] = .ok b ∧ w.1 = if b.length = 32 then b else (hash b).1

/-- **C37.** Which raw topic ends up in which slot; `TopicRel` says that `Any` stays `Any`, a single token stays
single and a list of alternatives keeps its order and length. -/
theorem C37_slots (hash : Bytes → Word) (prof : Profile) (e : Event) (raw : RawTopicFilter) (f : TopicFilter)
    (h : e.filter hash prof raw = .ok f) :
    (e.anonymous = false → (∃ w : Word, f.topic0 = .this w ∧ w.1 = eventTopic hash e.name (e.inputs.map (·.kind))) ∧
      TopicRel (TopicWord hash prof) raw.topic0 f.topic1 ∧ TopicRel (TopicWord hash prof) raw.topic1 f.topic2 ∧
      TopicRel (TopicWord hash prof) raw.topic2 f.topic3) ∧
    (e.anonymous = true → f.topic3 = .any ∧ TopicRel (TopicWord hash prof) raw.topic0 f.topic0 ∧
      TopicRel (TopicWord hash prof) raw.topic1 f.topic1 ∧ TopicRel (TopicWord hash prof) raw.topic2 f.topic2) := by
  obtain ⟨t0, t1, t2, h0, h1, h2, rfl⟩ := filter_ok h
  have hr : ∀ {a k b}, convertTopic hash prof a k = .ok b → TopicRel (TopicWord hash prof) a b := by
    intro a k b hc
    refine (convertTopic_rel hc).imp ?_
    rintro x y ⟨k, -, hy⟩
    exact (convertToken_ok hy).2
  constructor
  · intro ha
    simp only [ha, Bool.false_eq_true, if_false]
    exact ⟨⟨_, rfl, signature_eventTopic hash e⟩, hr h0, hr h1, hr h2⟩
  · intro ha
    simp only [ha, if_true]
    exact ⟨trivial, hr h0, hr h1, hr h2⟩

/-- `event E(bool indexed a, uint8 b, bytes4 indexed c, string indexed d)` -/
def filterEvent (anonymous : Bool) : Event :=
  { name := lit "E", anonymous := anonymous,
    inputs := [⟨lit "a", .bool, true⟩, ⟨lit "b", .uint 8, false⟩, ⟨lit "c", .fixedBytes 4, true⟩, ⟨lit "d", .string, true⟩] }

def sampleRaw : RawTopicFilter :=
  { topic0 := .oneOf [.bool true, .bool false], topic1 := .this (.fixedBytes [1, 2, 3, 4]), topic2 := .any }

example (prof : Profile) (a : Bool) : ∃ f, (filterEvent a).filter constHash prof sampleRaw = .ok f := by
  refine ⟨if a then ⟨.oneOf [⟨word 1, by decide⟩, ⟨word 0, by decide⟩], .this ⟨padRight [1, 2, 3, 4], by decide⟩, .any, .any⟩
    else ⟨.this (constHash []), .oneOf [⟨word 1, by decide⟩, ⟨word 0, by decide⟩], .this ⟨padRight [1, 2, 3, 4], by decide⟩, .any⟩, ?_⟩
  cases prof <;> cases a <;> decide +kernel

/-! ## C38 rejection -/

/-- the tokens given in a raw topic -/
def tokensOf : Topic Token → List Token
  | .any => []
  | .this t => [t]
  | .oneOf l => l

/-- a topic given for a parameter that does not exist, or containing a token that is not a value of its type -/
def WrongTopic (topic : Topic Token) (kind : Option ParamType) : Prop :=
  topic ≠ .any ∧ (kind = none ∨ ∃ k, kind = some k ∧ ∃ t ∈ tokensOf topic, valueOf t k = false)

/-- the types of the indexed parameters -/
def indexedKinds (e : Event) : List ParamType := (e.inputs.filter (·.indexed)).map (·.kind)

theorem wrong_eq_bad (topic : Topic Token) (kind : Option ParamType) : WrongTopic topic kind = badTopic topic kind := by
  cases topic <;> rfl

/-- **C38, partial.** `filter` succeeds unless some topic is wrong, and fails with `InvalidData` if one is.
Missing: tokens holding tuples with the wrong number of members (for these the claim is false, see below); in debug
builds tokens of 4 GiB and more (their encoding panics). -/
theorem C38_rejects_exactly_partial (hash : Bytes → Word) (prof : Profile) (e : Event) (raw : RawTopicFilter)
    (h : ∀ (i : Nat) topic, [raw.topic0, raw.topic1, raw.topic2][i]? = some topic → ∀ t ∈ tokensOf topic,
      ∀ k, (indexedKinds e)[i]? = some k → arityMatch t k = true ∧ encode prof [t] ≠ .panic) :
    let wrong := WrongTopic raw.topic0 (indexedKinds e)[0]? ∨ WrongTopic raw.topic1 (indexedKinds e)[1]? ∨
      WrongTopic raw.topic2 (indexedKinds e)[2]?
    (wrong → e.filter hash prof raw = .err .invalidData) ∧ (¬ wrong → ∃ f, e.filter hash prof raw = .ok f) := by
  intro wrong
  have hf : (fun p : EventParam => p.indexed) = fun p => p.indexed == true := by funext p; cases p.indexed <;> rfl
  have hk : indexedKinds e = (e.indexedParams true).map (·.kind) := by
    unfold indexedKinds Event.indexedParams; rw [hf]
  have hto : ∀ topic, tokensOf topic = topicTokens topic := by intro t; cases t <;> rfl
  have h0 := convertTopic_total (hash := hash) (prof := prof) (topic := raw.topic0) (kind := (indexedKinds e)[0]?)
    (fun t ht k hkk => h 0 _ rfl t (by rw [hto]; exact ht) k hkk)
  have h1 := convertTopic_total (hash := hash) (prof := prof) (topic := raw.topic1) (kind := (indexedKinds e)[1]?)
    (fun t ht k hkk => h 1 _ rfl t (by rw [hto]; exact ht) k hkk)
  have h2 := convertTopic_total (hash := hash) (prof := prof) (topic := raw.topic2) (kind := (indexedKinds e)[2]?)
    (fun t ht k hkk => h 2 _ rfl t (by rw [hto]; exact ht) k hkk)
  rw [← wrong_eq_bad] at h0 h1 h2
  have key : (¬ wrong ∧ ∃ f, e.filter hash prof raw = .ok f) ∨ (wrong ∧ e.filter hash prof raw = .err .invalidData) := by
    unfold Event.filter
    rw [← hk]
    cases ha : e.anonymous with
    | true =>
      simp only [if_true]
      have := three_steps (f := fun a b c => (⟨a, b, c, .any⟩ : TopicFilter)) h0 h1 h2
      exact this
    | false =>
      simp only [Bool.false_eq_true, if_false]
      have := three_steps (f := fun a b c => (⟨.this (e.signature hash), a, b, c⟩ : TopicFilter)) h0 h1 h2
      exact this
  rcases key with ⟨hn, hok⟩ | ⟨hw, herr⟩
  · exact ⟨fun hw => absurd hw hn, fun _ => hok⟩
  · exact ⟨fun _ => herr, fun hn => absurd hw hn⟩

/-- **C38** in full for release builds and events whose indexed parameters contain no tuples. -/
theorem C38_rejects_exactly_tuple_free (hash : Bytes → Word) (e : Event) (raw : RawTopicFilter)
    (htf : ∀ k ∈ indexedKinds e, tupleFree k = true) :
    let wrong := WrongTopic raw.topic0 (indexedKinds e)[0]? ∨ WrongTopic raw.topic1 (indexedKinds e)[1]? ∨
      WrongTopic raw.topic2 (indexedKinds e)[2]?
    (wrong → e.filter hash .release raw = .err .invalidData) ∧ (¬ wrong → ∃ f, e.filter hash .release raw = .ok f) := by
  apply C38_rejects_exactly_partial
  intro i topic _ t _ k hk
  exact ⟨tupleFree_arity t k (htf k (List.mem_of_getElem? hk)), (fine_encode .release [t]).2 rfl⟩

example : (∀ k ∈ indexedKinds (filterEvent false), tupleFree k = true) ∧
    ¬ WrongTopic sampleRaw.topic0 (indexedKinds (filterEvent false))[0]? ∧
    WrongTopic (.this (.bool true)) (indexedKinds (filterEvent false))[1]? ∧
    WrongTopic (.this (.bool true)) (indexedKinds (filterEvent false))[3]? ∧
    (filterEvent false).filter constHash .debug { topic1 := .this (.bool true) } = .err .invalidData := by
  refine ⟨by decide, ?_, ⟨by simp, Or.inr ⟨.fixedBytes 4, rfl, .bool true, by simp [tokensOf], rfl⟩⟩, ⟨by simp, Or.inl rfl⟩, by decide +kernel⟩
  rintro ⟨-, hb | ⟨k, hk, t, ht, hv⟩⟩
  · cases hb
  · have hk : some ParamType.bool = some k := hk
    cases hk
    have ht : t ∈ [Token.bool true, Token.bool false] := ht
    simp only [List.mem_cons, List.not_mem_nil, or_false] at ht
    rcases ht with rfl | rfl <;> cases hv

/-- **C38 is false in general**: for a tuple parameter a tuple with a missing member is accepted and one with an
additional member panics. -/
theorem C38_counterexample_tuple (prof : Profile) :
    let e : Event := { name := lit "E", inputs := [⟨lit "a", .tuple [.bool], true⟩], anonymous := false }
    (∃ f, e.filter constHash prof { topic0 := .this (.tuple []) } = .ok f) ∧ valueOf (.tuple []) (.tuple [.bool]) = false ∧
    e.filter constHash prof { topic0 := .this (.tuple [.bool true, .bool true]) } = .panic := by
  refine ⟨⟨⟨.this (constHash []), .this (constHash []), .any, .any⟩, ?_⟩, by decide, ?_⟩ <;> cases prof <;> decide +kernel

/-! ## C39 matching, value types -/

/-- **C39**, allowing `bytesN` tokens shorter than `N` (but not empty): such a token stands for the zero-extended
value. -/
theorem C39_matches_short (hash : Bytes → Word) (prof : Profile) (e : Event) (ps : List Emitted) (raw : RawTopicFilter)
    (f : TopicFilter) (hin : e.inputs = ps.map fun p => { name := p.name, kind := p.kind, indexed := p.indexed })
    (ht : ∀ p ∈ ps, p.indexed = true → valueType p.kind = true ∧ solidity p.kind = true ∧ hasType p.value p.kind = true)
    (h0 : ∀ topic ∈ [raw.topic0, raw.topic1, raw.topic2], ∀ t ∈ tokensOf topic, nonemptyFixed t = true)
    (hf : e.filter hash prof raw = .ok f) :
    filterMatches f (emitTopics hash e.name e.anonymous ps) ↔
      rawMatches (fun t p => p.value = zeroExtend t p.kind) raw (ps.filter (·.indexed)) := by
  have hft : (fun p : Emitted => p.indexed) = fun p => p.indexed == true := by funext p; cases p.indexed <;> rfl
  have hto : ∀ topic, tokensOf topic = topicTokens topic := by intro t; cases t <;> rfl
  have hks : ∀ i : Nat, ((e.inputs.filter (·.indexed == true)).map (·.kind))[i]? =
      ((ps.filter (·.indexed == true))[i]?).map (·.kind) := by
    intro i
    have : e.inputs = ps.map Emitted.param := hin
    rw [this, filter_indexed, List.map_map, List.getElem?_map]; rfl
  have hps : ∀ (i : Nat) q, (ps.filter (·.indexed == true))[i]? = some q →
      valueType q.kind = true ∧ solidity q.kind = true ∧ hasType q.value q.kind = true := by
    intro i q hq
    have hm := List.mem_filter.1 (List.mem_of_getElem? hq)
    exact ht q hm.1 (by simpa using hm.2)
  have hsig : (e.signature hash).1 = eventTopic hash e.name (ps.map (·.kind)) := by
    rw [signature_eventTopic, Event.paramTypes, hin, List.map_map]; rfl
  obtain ⟨t0, t1, t2, c0, c1, c2, rfl⟩ := filter_ok hf
  rw [hks] at c0 c1 c2
  have s0 := slot_value (hps 0) (fun t h => h0 raw.topic0 (by simp) t (by rw [hto]; exact h)) c0
  have s1 := slot_value (hps 1) (fun t h => h0 raw.topic1 (by simp) t (by rw [hto]; exact h)) c1
  have s2 := slot_value (hps 2) (fun t h => h0 raw.topic2 (by simp) t (by rw [hto]; exact h)) c2
  unfold rawMatches emitTopics
  rw [hft, ← s0, ← s1, ← s2]
  cases ha : e.anonymous with
  | true =>
    simp only [if_true, filterMatches, List.nil_append, List.getElem?_map, topicMatches, and_true]
  | false =>
    simp only [Bool.false_eq_true, if_false, filterMatches, topicMatches, List.cons_append, List.nil_append,
      List.getElem?_cons_zero, List.getElem?_cons_succ, List.getElem?_map, hsig, true_and]

/-- **C39.** A filter built from values of the parameter types matches the topics of an emitted log exactly when,
position by position, the emitted value is one of the given ones. -/
theorem C39_matches (hash : Bytes → Word) (prof : Profile) (e : Event) (ps : List Emitted) (raw : RawTopicFilter)
    (f : TopicFilter) (hin : e.inputs = ps.map fun p => { name := p.name, kind := p.kind, indexed := p.indexed })
    (ht : ∀ p ∈ ps, p.indexed = true → valueType p.kind = true ∧ solidity p.kind = true ∧ hasType p.value p.kind = true)
    (hr : ∀ (i : Nat) topic p, [raw.topic0, raw.topic1, raw.topic2][i]? = some topic → (ps.filter (·.indexed))[i]? = some p →
      ∀ t ∈ tokensOf topic, hasType t p.kind = true)
    (hf : e.filter hash prof raw = .ok f) :
    filterMatches f (emitTopics hash e.name e.anonymous ps) ↔
      rawMatches (fun t p => p.value = t) raw (ps.filter (·.indexed)) := by
  have hft : (fun p : Emitted => p.indexed) = fun p => p.indexed == true := by funext p; cases p.indexed <;> rfl
  have hto : ∀ topic, tokensOf topic = topicTokens topic := by intro t; cases t <;> rfl
  have hks : ∀ i : Nat, ((e.inputs.filter (·.indexed == true)).map (·.kind))[i]? =
      ((ps.filter (·.indexed))[i]?).map (·.kind) := by
    intro i
    have : e.inputs = ps.map Emitted.param := hin
    rw [this, filter_indexed, List.map_map, List.getElem?_map, hft]; rfl
  have hps : ∀ (i : Nat) q, (ps.filter (·.indexed))[i]? = some q →
      valueType q.kind = true ∧ solidity q.kind = true := by
    intro i q hq
    have hm := List.mem_filter.1 (List.mem_of_getElem? hq)
    exact ⟨(ht q hm.1 hm.2).1, (ht q hm.1 hm.2).2.1⟩
  obtain ⟨t0, t1, t2, c0, c1, c2, -⟩ := filter_ok hf
  -- a topic is only accepted where there is a parameter, so every token has its type
  have hne : ∀ (i : Nat) topic tw, [raw.topic0, raw.topic1, raw.topic2][i]? = some topic →
      convertTopic hash prof topic ((e.inputs.filter (·.indexed == true)).map (·.kind))[i]? = .ok tw →
      ∀ t ∈ tokensOf topic, ∃ p, (ps.filter (·.indexed))[i]? = some p ∧ hasType t p.kind = true := by
    intro i topic tw hi hc t htm
    rw [hks] at hc
    cases hp : (ps.filter (·.indexed))[i]? with
    | some p => exact ⟨p, rfl, hr i topic p hi hp t htm⟩
    | none =>
      rw [hp] at hc
      cases topic with
      | any => cases htm
      | this _ => cases hc
      | oneOf _ => cases hc
  have hall : ∀ topic ∈ [raw.topic0, raw.topic1, raw.topic2], ∀ t ∈ tokensOf topic, nonemptyFixed t = true := by
    intro topic htm t htt
    have hthis : ∃ (i : Nat) (p : Emitted), (ps.filter (·.indexed))[i]? = some p ∧ hasType t p.kind = true := by
      simp only [List.mem_cons, List.not_mem_nil, or_false] at htm
      rcases htm with rfl | rfl | rfl
      · exact ⟨0, hne 0 _ _ rfl c0 t htt⟩
      · exact ⟨1, hne 1 _ _ rfl c1 t htt⟩
      · exact ⟨2, hne 2 _ _ rfl c2 t htt⟩
    obtain ⟨i, p, hp, hty⟩ := hthis
    obtain ⟨hv, hs⟩ := hps i p hp
    exact nonemptyFixed_value t p.kind hv hs hty
  rw [C39_matches_short hash prof e ps raw f hin ht hall hf]
  have hz : ∀ (i : Nat) topic, [raw.topic0, raw.topic1, raw.topic2][i]? = some topic →
      (valueMatches (fun t p => p.value = zeroExtend t p.kind) topic (ps.filter (·.indexed))[i]? ↔
        valueMatches (fun t p => p.value = t) topic (ps.filter (·.indexed))[i]?) := by
    intro i topic hi
    apply valueMatches_congr
    intro t htm q hq
    rw [zeroExtend_value t q.kind (hps i q hq).1 (hr i topic q hi hq t (by rw [hto]; exact htm))]
  unfold rawMatches
  rw [hz 0 _ rfl, hz 1 _ rfl, hz 2 _ rfl]

/-- a matching and a non-matching instance -/
def matchEmitted (b : Bool) : List Emitted :=
  [⟨lit "a", .bool, true, .bool b⟩, ⟨lit "b", .string, false, .string []⟩, ⟨lit "c", .fixedBytes 4, true, .fixedBytes [1, 2, 3, 4]⟩]

example (b : Bool) : (∀ p ∈ matchEmitted b, p.indexed = true →
      valueType p.kind = true ∧ solidity p.kind = true ∧ hasType p.value p.kind = true) ∧
    (∀ (i : Nat) topic p, [Topic.this (.bool true), .this (.fixedBytes [1, 2, 3, 4]), .any][i]? = some topic →
      ((matchEmitted b).filter (·.indexed))[i]? = some p → ∀ t ∈ tokensOf topic, hasType t p.kind = true) := by
  constructor
  · cases b <;> decide
  · intro i topic p hi hp t ht
    match i with
    | 0 => cases hi; cases hp; simp only [tokensOf, List.mem_singleton] at ht; subst ht; rfl
    | 1 => cases hi; cases hp; simp only [tokensOf, List.mem_singleton] at ht; subst ht; rfl
    | 2 => cases hi; cases ht
    | _ + 3 => cases hi

/-! ## C40 matching, hashed types -/

/-- the slots of a filter that belong to the indexed parameters -/
def paramSlots (anonymous : Bool) (f : TopicFilter) : List (Topic Word) :=
  if anonymous then [f.topic0, f.topic1, f.topic2] else [f.topic1, f.topic2, f.topic3]

/-- **C40, partial.** For static arrays and structs that do not take exactly one word, `filter` computes the Solidity
topic of every token given.  Missing: `string`, `bytes`, `T[]` and everything containing them, and static aggregates of
one word; for these the claim is false, see below. -/
theorem C40_static_aggregates_partial (hash : Bytes → Word) (prof : Profile) (e : Event) (raw : RawTopicFilter)
    (f : TopicFilter) (i : Nat) (kind : ParamType) (topic : Topic Token) (tw : Topic Word)
    (hf : e.filter hash prof raw = .ok f) (hk : (indexedKinds e)[i]? = some kind)
    (hi : [raw.topic0, raw.topic1, raw.topic2][i]? = some topic) (hw : (paramSlots e.anonymous f)[i]? = some tw)
    (hs : solidity kind = true) (hv : valueType kind = false) (hd : dynamic kind = false)
    (hsz : staticSize kind ≠ 32) (hsz' : staticSize kind < 2 ^ 32) (ht : ∀ tok ∈ tokensOf topic, hasType tok kind = true) :
    TopicRel (fun tok w => w.1 = topicOf hash tok kind) topic tw := by
  have hfi : (fun p : EventParam => p.indexed) = fun p => p.indexed == true := by funext p; cases p.indexed <;> rfl
  unfold indexedKinds at hk
  rw [hfi] at hk
  obtain ⟨t0, t1, t2, c0, c1, c2, rfl⟩ := filter_ok hf
  have hslots : paramSlots e.anonymous (if e.anonymous then (⟨t0, t1, t2, .any⟩ : TopicFilter)
      else ⟨.this (e.signature hash), t0, t1, t2⟩) = [t0, t1, t2] := by
    cases e.anonymous <;> rfl
  rw [hslots] at hw
  have hconv : convertTopic hash prof topic (some kind) = .ok tw := by
    match i with
    | 0 => cases hi; cases hw; rw [hk] at c0; exact c0
    | 1 => cases hi; cases hw; rw [hk] at c1; exact c1
    | 2 => cases hi; cases hw; rw [hk] at c2; exact c2
    | _ + 3 => cases hi
  have key : ∀ tok ∈ tokensOf topic, ∀ w, (∃ k, some kind = some k ∧ convertToken hash prof tok k = .ok w) →
      w.1 = topicOf hash tok kind := by
    rintro tok htok w ⟨k, hkk, hc⟩
    cases hkk
    obtain ⟨-, b, hb, hwb⟩ := convertToken_ok hc
    have hty := ht tok htok
    have hl := staticSize_enc tok kind hty (solidity_codable _ hs) hd
    have hargs := encodeArgs_value tok kind hd
    have hb' := encode_eq_spec prof [tok] [kind] (by simp [haveTypes, hty]) (by simp [codableAll, solidity_codable _ hs])
      (by simp [countsFitAll, solidity_countsFit tok kind hty hs (by omega)]) (by rw [hargs]; omega)
    rw [hb, hargs] at hb'
    simp only [Res.ok.injEq] at hb'
    subst hb'
    rw [if_neg (by omega)] at hwb
    rw [hwb, topicOf, if_neg (by simp [hv])]
    have : topicPreimage tok kind = inPlace tok kind := by
      cases kind <;> cases tok <;> first | rfl | simp [dynamic] at hd
    rw [this, inPlace_static tok kind hd]
  cases convertTopic_rel hconv with
  | any => exact .any
  | this h => exact .this (key _ (by simp [tokensOf]) _ h)
  | oneOf h => exact .oneOf (forall₂_imp_mem h key)

example (prof : Profile) : solidity (.fixedArray .bool 2) = true ∧ dynamic (.fixedArray .bool 2) = false ∧
    valueType (.fixedArray .bool 2) = false ∧ staticSize (.fixedArray .bool 2) = 64 ∧
    hasType (.fixedArray [.bool true, .bool false]) (.fixedArray .bool 2) = true ∧
    ({ name := lit "E", inputs := [⟨[], .fixedArray .bool 2, true⟩], anonymous := true } : Event).filter constHash prof
      { topic0 := .this (.fixedArray [.bool true, .bool false]) } = .ok { topic0 := .this (constHash []) } := by
  cases prof <;> decide +kernel

/-- `event E(kind indexed)`, anonymous -/
def oneParamEvent (kind : ParamType) : Event := { name := lit "E", inputs := [⟨[], kind, true⟩], anonymous := true }

/-- **C40 is false for `string` and `bytes`**: `filter` hashes the ABI encoding with offset and length words, which is
never the plain contents that Solidity hashes. -/
theorem C40_counterexample_contents (hash : Bytes → Word) (prof : Profile) (kind : ParamType) (tok : Token)
    (hk : kind = .string ∨ kind = .bytes) (ht : hasType tok kind = true) (hb : (encodeArgs [tok] [kind]).length < 2 ^ 32) :
    (oneParamEvent kind).filter hash prof { topic0 := .this tok } =
      .ok { topic0 := .this (hash (encodeArgs [tok] [kind])) } ∧
    encodeArgs [tok] [kind] ≠ topicPreimage tok kind := by
  have hc : codable kind = true := by rcases hk with rfl | rfl <;> rfl
  have hcf : countsFit tok = true := by rcases hk with rfl | rfl <;> cases tok <;> simp_all [hasType, countsFit]
  have he := encode_eq_spec prof [tok] [kind] (by simp [haveTypes, ht]) (by simp [codableAll, hc])
    (by simp [countsFitAll, hcf]) hb
  have htc : Token.typeCheck tok kind = .ok true := by
    rw [typeCheck_eq tok kind (by rcases hk with rfl | rfl <;> cases tok <;> rfl), hasType_valueOf _ _ ht]
  have hlen : (topicPreimage tok kind).length + 64 ≤ (encodeArgs [tok] [kind]).length := by
    rcases hk with rfl | rfl <;> cases tok <;> simp only [hasType, Bool.false_eq_true] at ht <;>
      simp only [encodeArgs, encZip, dynamic, enc, layout, Spec.heads, Spec.tails, topicPreimage, List.length_append,
        length_word, length_padRight, List.append_nil, List.length_nil] <;> omega
  refine ⟨?_, fun h => by rw [h] at hlen; omega⟩
  have hct : convertToken hash prof tok kind = .ok (hash (encodeArgs [tok] [kind])) := by
    rw [convertToken, htc, Res.ok_bind]
    simp only [Bool.not_true, Bool.false_eq_true, if_false, he, Res.ok_bind]
    rw [dif_neg (by omega)]
  show (do
    let t0 ← convertTopic hash prof (.this tok) (some kind)
    let t1 ← convertTopic hash prof .any none
    let t2 ← convertTopic hash prof .any none
    (.ok { topic0 := t0, topic1 := t1, topic2 := t2, topic3 := .any } : Res TopicFilter)) = _
  simp only [convertTopic, hct, Res.ok_bind]

/-- a stand-in for Keccak-256 that returns the length of its input -/
def lengthHash : Bytes → Word := fun b => ⟨word b.length, by simp [word]⟩

/-- ... so a filter for a string does not match the log that was emitted with it; likewise for `T[]` ... -/
theorem C40_counterexample_no_match (prof : Profile) :
    (∃ f, (oneParamEvent .string).filter lengthHash prof { topic0 := .this (.string (lit "a")) } = .ok f ∧
      ¬ filterMatches f (emitTopics lengthHash (lit "E") true [⟨[], .string, true, .string (lit "a")⟩])) ∧
    (∃ f, (oneParamEvent (.array .bool)).filter lengthHash prof { topic0 := .this (.array [.bool true]) } = .ok f ∧
      ¬ filterMatches f (emitTopics lengthHash (lit "E") true [⟨[], .array .bool, true, .array [.bool true]⟩])) := by
  constructor
  · refine ⟨{ topic0 := .this (lengthHash (encodeArgs [.string (lit "a")] [.string])) }, by cases prof <;> decide +kernel, ?_⟩
    rintro ⟨h, -⟩
    revert h
    show ¬ (_ = _)
    decide +kernel
  · refine ⟨{ topic0 := .this (lengthHash (encodeArgs [.array [.bool true]] [.array .bool])) }, by cases prof <;> decide +kernel, ?_⟩
    rintro ⟨h, -⟩
    revert h
    show ¬ (_ = _)
    decide +kernel

/-- ... and for static aggregates of one word, such as `bool[1]` and `(bool)`, which are not hashed at all. -/
theorem C40_counterexample_one_word (hash : Bytes → Word) (prof : Profile) (b : Bool) :
    (oneParamEvent (.fixedArray .bool 1)).filter hash prof { topic0 := .this (.fixedArray [.bool b]) } =
      .ok { topic0 := .this ⟨word (if b then 1 else 0), by simp [word]⟩ } ∧
    topicOf hash (.fixedArray [.bool b]) (.fixedArray .bool 1) = (hash (word (if b then 1 else 0))).1 ∧
    (oneParamEvent (.tuple [.bool])).filter hash prof { topic0 := .this (.tuple [.bool b]) } =
      .ok { topic0 := .this ⟨word (if b then 1 else 0), by simp [word]⟩ } := by
  refine ⟨?_, ?_, ?_⟩
  · cases prof <;> cases b <;> rfl
  · cases b <;> rfl
  · cases prof <;> cases b <;> rfl

/-! ## C41 topics as containers -/

/-- **C41**: `map` keeps the shape and commutes with the conversion to `Vec`. -/
theorem C41_map {α β γ : Type} (f : α → β) (g : β → γ) (t : Topic α) :
    TopicRel (fun a b => b = f a) t (t.map f) ∧ (t.map f).toVec = t.toVec.map f ∧
      (t.map f).map g = t.map (fun a => g (f a)) ∧ t.map id = t ∧ (t.map f).isAny = t.isAny := by
  cases t with
  | any => exact ⟨.any, rfl, rfl, rfl, rfl⟩
  | this a => exact ⟨.this rfl, rfl, rfl, rfl, rfl⟩
  | oneOf l =>
    refine ⟨.oneOf ?_, rfl, by simp [Topic.map], by simp [Topic.map], rfl⟩
    induction l with
    | nil => exact .nil
    | cons a l ih => exact .cons rfl ih

/-- **C41**: the conversions agree. -/
theorem C41_conversions {α : Type} (a : α) (o : Option α) (l : List α) :
    Topic.ofOption (some a) = Topic.ofValue a ∧ Topic.ofOption (none : Option α) = Topic.default ∧
      (Topic.ofOption o).toVec = o.toList ∧ (Topic.ofValue a).toVec = [a] ∧ (Topic.ofVec l).toVec = l ∧
      (Topic.default : Topic α).toVec = [] := by
  cases o <;> exact ⟨rfl, rfl, rfl, rfl, rfl, rfl⟩

/-- **C41**: `is_any` holds only for `Any`. -/
theorem C41_is_any {α : Type} (t : Topic α) : t.isAny = true ↔ t = .any := by
  cases t <;> simp [Topic.isAny]

/-- **C41**: indexing returns the i-th element of the vector, and panics exactly when there is none. -/
theorem C41_index {α : Type} (t : Topic α) (i : Nat) :
    (∀ a, t.index i = .ok a ↔ t.toVec[i]? = some a) ∧ (t.index i = .panic ↔ t.toVec.length ≤ i) := by
  cases t with
  | any => simp [Topic.index, Topic.toVec]
  | this b =>
    cases i with
    | zero => simp [Topic.index, Topic.toVec]
    | succ i => simp [Topic.index, Topic.toVec]
  | oneOf l =>
    simp only [Topic.index, Topic.toVec]
    cases h : l[i]? with
    | some b =>
      have := (List.getElem?_eq_some_iff.1 h).1
      simp; omega
    | none =>
      rw [List.getElem?_eq_none_iff] at h
      simp [h]

example : (Topic.oneOf [3, 1, 2]).index 1 = .ok 1 ∧ (Topic.oneOf [3, 1, 2]).index 3 = .panic ∧ (Topic.this 5).index 0 = .ok 5 ∧
    (Topic.this 5).index 1 = .panic ∧ (Topic.oneOf ([] : List Nat)).isAny = false := by decide

/-! ## C42 JSON -/

/-- **C42**: the four slots can be read back from the JSON (reader in Spec/Filter.lean). -/
theorem C42_faithful (f : TopicFilter) : readTopicFilter (serTopicFilter f) = some f := by
  rw [serTopicFilter, readTopicFilter, readTopic_ser, readTopic_ser, readTopic_ser, readTopic_ser]

/-- **C42**: hence different filters have different JSON. -/
theorem C42_injective (f g : TopicFilter) (h : serTopicFilter f = serTopicFilter g) : f = g := by
  have := C42_faithful f
  rw [h, C42_faithful g] at this
  exact (Option.some.inj this).symm

/-- text of a hash: `0x` and 64 lower-case digits -/
def HashText (s : Str) : Prop := ∃ ds, s = '0' :: 'x' :: ds ∧ ds.length = 64 ∧ ∀ c ∈ ds, c ∈ hexDigits

/-- **C42**: an array of four entries, each `null`, a hash text, or an array of hash texts. -/
theorem C42_shape (f : TopicFilter) :
    ∃ a b c d, serTopicFilter f = .arr [a, b, c, d] ∧ ∀ j ∈ [a, b, c, d],
      j = .null ∨ (∃ s, j = .str s ∧ HashText s) ∨ (∃ ss : List Str, j = .arr (ss.map .str) ∧ ∀ s ∈ ss, HashText s) := by
  refine ⟨_, _, _, _, rfl, ?_⟩
  have hh : ∀ h : Word, HashText (hashText h) := by
    intro h
    exact ⟨hexEncode h.1, rfl, by rw [length_hexEncode, h.2], hexEncode_digits _⟩
  have : ∀ t : Topic Word, serTopic t = .null ∨ (∃ s, serTopic t = .str s ∧ HashText s) ∨
      (∃ ss : List Str, serTopic t = .arr (ss.map .str) ∧ ∀ s ∈ ss, HashText s) := by
    intro t
    cases t with
    | any => exact Or.inl rfl
    | this h => exact Or.inr (Or.inl ⟨_, rfl, hh h⟩)
    | oneOf l =>
      refine Or.inr (Or.inr ⟨l.map hashText, by rw [serTopic, List.map_map]; rfl, ?_⟩)
      intro s hs
      obtain ⟨h, -, rfl⟩ := List.mem_map.1 hs
      exact hh h
  intro j hj
  simp only [List.mem_cons, List.not_mem_nil, or_false] at hj
  rcases hj with rfl | rfl | rfl | rfl <;> exact this _

example : readTopicFilter (serTopicFilter ⟨.any, .this (constHash []), .oneOf [constHash []], .any⟩) =
    some ⟨.any, .this (constHash []), .oneOf [constHash []], .any⟩ := by decide +kernel

end Ethabi.Props

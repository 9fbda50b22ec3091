import Verif.Proofs.Event
import Verif.Proofs.Signature
/-! Parsing of emitted logs. -/
namespace Ethabi
open Spec

/-- the declaration of an emitted parameter -/
def Spec.Emitted.param (p : Emitted) : EventParam := { name := p.name, kind := p.kind, indexed := p.indexed }

theorem filter_indexed (ps : List Emitted) (b : Bool) :
    (ps.map Emitted.param).filter (·.indexed == b) = (ps.filter fun p => p.indexed == b).map Emitted.param := by
  rw [List.filter_map]; rfl

theorem positional_emitted (hash : Bytes → Word) (ps : List Emitted) :
    positional (ps.map Emitted.param) ((ps.filter (·.indexed == true)).map (recoverable hash))
      ((ps.filter (·.indexed == false)).map (·.value)) = ps.map (recoverable hash) := by
  induction ps with
  | nil => rfl
  | cons p ps ih =>
    cases hi : p.indexed with
    | true =>
      have : (p.param).indexed = true := hi
      simp only [List.map_cons, List.filter_cons, hi, beq_self_eq_true, if_true, tb_ft, Bool.false_eq_true, if_false, positional,
        this, ih]
    | false =>
      have : (p.param).indexed = false := hi
      have hr : recoverable hash p = p.value := by simp [recoverable, hi]
      simp only [List.map_cons, List.filter_cons, hi, beq_self_eq_true, if_true, tb_tf, Bool.false_eq_true, if_false, positional,
        this, ih, hr]

theorem recoverable_indexed (hash : Bytes → Word) (p : Emitted) (hi : p.indexed = true) :
    recoverable hash p = if valueType p.kind then p.value else .fixedBytes (topicOf hash p.value p.kind) := by
  cases hv : valueType p.kind <;> simp [recoverable, hi, hv]

/-- decoding the topics of indexed parameters -/
theorem topics_facts (hash : Bytes → Word) (ps : List Emitted) (hi : ∀ p ∈ ps, p.indexed = true)
    (ht : ∀ p ∈ ps, hasType p.value p.kind = true ∧ (valueType p.kind = true → codable p.kind = true)) :
    haveTypes (ps.map (recoverable hash)) (ps.map fun p => convertTopicParamType p.kind) = true ∧
      codableAll (ps.map fun p => convertTopicParamType p.kind) = true ∧
      countsFitAll (ps.map (recoverable hash)) = true ∧
      dynamicAny (ps.map fun p => convertTopicParamType p.kind) = false ∧
      (encZip (ps.map (recoverable hash)) (ps.map fun p => convertTopicParamType p.kind)).flatMap (·.2)
        = ps.flatMap (fun p => topicOf hash p.value p.kind) ∧
      (ps.flatMap (fun p => topicOf hash p.value p.kind)).length = 32 * ps.length := by
  induction ps with
  | nil => simp [haveTypes, codableAll, countsFitAll, dynamicAny, encZip]
  | cons p ps ih =>
    obtain ⟨h1, h2, h3, h4, h5, h6⟩ := ih (fun q hq => hi q (List.mem_cons_of_mem _ hq)) (fun q hq => ht q (List.mem_cons_of_mem _ hq))
    have hp := ht p (by simp)
    obtain ⟨g1, g2, g3, g4, g5, g6⟩ := topic_token hash p.value p.kind hp.1 hp.2
    rw [← recoverable_indexed hash p (hi p (by simp))] at g1 g3 g5
    simp only [List.map_cons, haveTypes, codableAll, countsFitAll, dynamicAny, encZip, List.flatMap_cons, List.length_append,
      List.length_cons, h1, h2, h3, h4, h5, h6, g1, g2, g3, g4, g5, g6, Bool.and_self, Bool.or_self, true_and]
    omega

theorem decode_topics (hash : Bytes → Word) (prof : Profile) (ps : List Emitted) (hi : ∀ p ∈ ps, p.indexed = true)
    (ht : ∀ p ∈ ps, hasType p.value p.kind = true ∧ (valueType p.kind = true → codable p.kind = true))
    (hk : ps.length < 2 ^ 27) :
    decode prof (ps.map fun p => convertTopicParamType p.kind) (ps.flatMap fun p => topicOf hash p.value p.kind)
      = .ok (ps.map (recoverable hash)) := by
  obtain ⟨h1, h2, h3, h4, h5, h6⟩ := topics_facts hash ps hi ht
  have he : encodeArgs (ps.map (recoverable hash)) (ps.map fun p => convertTopicParamType p.kind)
      = ps.flatMap fun p => topicOf hash p.value p.kind := by
    rw [encodeArgs, static_layout (allStatic_encZip _ _ h4), h5]
  have := decode_encodeArgs prof (ps.map (recoverable hash)) (ps.map fun p => convertTopicParamType p.kind) []
    h1 (bytesOkAll_of_codable _ h2) h3 (by rw [he, h6]; omega) (by rw [List.append_nil, he, h6]; omega) ?_
  · rwa [List.append_nil, he] at this
  · cases ps with
    | nil => right; intro t ht; cases ht
    | cons p ps =>
      left
      have hp := ht p (by simp)
      have : nonzeroWidth (convertTopicParamType p.kind) = true := by
        have hc := (topic_token hash p.value p.kind hp.1 hp.2).2.1
        cases hk : p.kind <;> rw [hk] at hc <;> simp only [convertTopicParamType, nonzeroWidth] at hc ⊢
        all_goals first
          | rfl
          | (simp only [codable, decide_eq_true_eq] at hc; simp; omega)
      simp only [List.map_cons, nonzeroWidthAny, this, Bool.true_or]

theorem haveTypes_map (ps : List Emitted) (h : ∀ p ∈ ps, hasType p.value p.kind = true) :
    haveTypes (ps.map (·.value)) (ps.map (·.kind)) = true := by
  induction ps with
  | nil => rfl
  | cons p ps ih =>
    simp only [List.map_cons, haveTypes, h p (by simp), ih (fun q hq => h q (List.mem_cons_of_mem _ hq)), Bool.and_self]

theorem solidityAll_map (ps : List Emitted) (h : ∀ p ∈ ps, solidity p.kind = true) : solidityAll (ps.map (·.kind)) = true := by
  induction ps with
  | nil => rfl
  | cons p ps ih =>
    simp only [List.map_cons, solidityAll, h p (by simp), ih (fun q hq => h q (List.mem_cons_of_mem _ hq)), Bool.and_self]

theorem signature_eventTopic (hash : Bytes → Word) (e : Event) : (e.signature hash).1 = eventTopic hash e.name e.paramTypes := by
  rw [Event.signature, longSignature, eventTopic, signatureText_eq, ← utf8_eq_core]; rfl

theorem flatMap_words (ws : List Word) : ws.flatMap (·.1) = (ws.map (·.1)).flatten := by
  rw [List.flatMap_def]

theorem convertTopicParamType_eq (t : ParamType) : convertTopicParamType t = topicType t := by
  cases t <;> rfl

theorem positional_eq (ps : List EventParam) : ∀ (tt dt : List Token),
    positional ps tt dt = interleave (ps.map (·.indexed)) tt dt := by
  induction ps with
  | nil => intro tt dt; cases tt <;> cases dt <;> rfl
  | cons p ps ih =>
    intro tt dt
    cases hi : p.indexed <;> cases tt <;> cases dt <;> simp [positional, interleave, hi, ih]

theorem checkSignature_ok {hash : Bytes → Word} {e : Event} {topics : List Word} {k : Nat}
    (h : e.checkSignature hash topics = .ok k) :
    (e.anonymous = true ∧ k = 0) ∨ (e.anonymous = false ∧ k = 1 ∧ topics.head? = some (e.signature hash)) := by
  unfold Event.checkSignature at h
  cases ha : e.anonymous with
  | true => rw [ha, if_pos rfl] at h; cases h; exact Or.inl ⟨rfl, rfl⟩
  | false =>
    rw [ha, if_neg (by simp)] at h
    cases topics with
    | nil => cases h
    | cons t ts =>
      simp only [List.getElem?_cons_zero] at h
      split at h
      · cases h
      · rename_i hs
        cases h
        exact Or.inr ⟨rfl, rfl, by simpa using hs⟩

theorem checkSignature_noPanic (hash : Bytes → Word) (e : Event) (topics : List Word) :
    e.checkSignature hash topics ≠ .panic := by
  unfold Event.checkSignature
  split
  · simp
  · split
    · simp
    · split <;> simp

theorem namedPairs_noPanic (ps : List EventParam) (tt dt : List Token)
    (ht : tt.length = (ps.filter (·.indexed == true)).length) (hd : dt.length = (ps.filter (·.indexed == false)).length) :
    ∃ l, logParams (namedPairs ps tt dt) (ps.map (·.name)) = .ok l := by
  apply logParams_noPanic
  intro n hn
  rw [namedPairs_keys ps tt dt ht hd]
  exact (names_perm ps).mem_iff.2 hn

end Ethabi

import Verif.Spec.Logs
import Verif.Proofs.EventEmit
import Verif.Props.Reading
/-! Which logs `parse_log` accepts. -/
namespace Ethabi.Logs
open Spec

theorem bind_eq_err {α β : Type} {x : Res α} {f : α → Res β} {e : Err} :
    (x >>= f) = .err e ↔ x = .err e ∨ ∃ a, x = .ok a ∧ f a = .err e := by
  cases x <;> simp

theorem lookup_iff {l : List (Str × Token)} {k : Str} {v : Token} :
    l.lookup k = some v ↔ ∃ a b, l = a ++ (k, v) :: b ∧ ∀ p ∈ a, p.1 ≠ k := by
  induction l with
  | nil => simp
  | cons e l ih =>
    obtain ⟨k', v'⟩ := e
    rw [List.lookup_cons]
    by_cases hk : k = k'
    · subst hk
      simp only [beq_self_eq_true, Option.some.injEq]
      constructor
      · rintro rfl; exact ⟨[], l, rfl, by simp⟩
      · rintro ⟨a, b, h, hn⟩
        cases a with
        | nil => simp at h; exact h.1
        | cons x a =>
          simp at h
          exact absurd (by rw [← h.1]) (hn x (by simp))
    · have : (k == k') = false := by simpa using hk
      simp only [this]
      rw [ih]
      constructor
      · rintro ⟨a, b, rfl, hn⟩
        refine ⟨(k', v') :: a, b, rfl, ?_⟩
        intro p hp
        rcases List.mem_cons.1 hp with rfl | hp
        · exact Ne.symm hk
        · exact hn p hp
      · rintro ⟨a, b, h, hn⟩
        cases a with
        | nil => simp at h; exact absurd h.1.1.symm hk
        | cons x a =>
          simp at h
          exact ⟨a, b, h.2, fun p hp => hn p (by simp [hp])⟩

theorem mapIndex_iff {l : List (Str × Token)} {k : Str} {v : Token} : mapIndex l k = .ok v ↔ lastNamed l k v := by
  have : mapIndex l k = .ok v ↔ l.reverse.lookup k = some v := by
    unfold mapIndex
    cases l.reverse.lookup k <;> simp
  rw [this, lookup_iff]
  constructor
  · rintro ⟨a, b, h, hn⟩
    refine ⟨b.reverse, a.reverse, ?_, fun p hp => hn p (by simpa using hp)⟩
    have := congrArg List.reverse h
    simpa using this
  · rintro ⟨a, b, rfl, hn⟩
    exact ⟨b.reverse, a.reverse, by simp, fun p hp => hn p (by simpa using hp)⟩

theorem logParams_iff {pairs : List (Str × Token)} : ∀ {ns : List Str} {ps : List LogParam},
    logParams pairs ns = .ok ps ↔ List.Forall₂ (fun n p => p.name = n ∧ lastNamed pairs n p.value) ns ps
  | [], ps => by
    simp only [logParams, Res.ok.injEq]
    constructor
    · rintro rfl; exact .nil
    · intro h; cases h; rfl
  | n :: ns, ps => by
    simp only [logParams, Res.bind_eq_ok, Res.ok.injEq]
    constructor
    · rintro ⟨v, hv, qs, hq, rfl⟩
      exact .cons ⟨rfl, mapIndex_iff.1 hv⟩ (logParams_iff.1 hq)
    · intro h
      cases h with
      | cons h1 hq =>
        exact ⟨_, mapIndex_iff.2 h1.2, _, logParams_iff.2 hq, by rw [← h1.1]⟩

/-- number of topics in front of the arguments -/
def skipped (e : Event) : Nat := if e.anonymous then 0 else 1

theorem checkSignature_cases (hash : Bytes → Word) (e : Event) (topics : List Word) :
    (signedBy hash e.name (e.inputs.map (·.kind)) e.anonymous (topics.map (·.1)) ∧
      e.checkSignature hash topics = .ok (skipped e) ∧ skipped e ≤ topics.length) ∨
    (¬ signedBy hash e.name (e.inputs.map (·.kind)) e.anonymous (topics.map (·.1)) ∧
      e.checkSignature hash topics = .err .invalidData) := by
  unfold signedBy Event.checkSignature skipped
  cases ha : e.anonymous with
  | true => exact Or.inl ⟨Or.inl rfl, by simp, by simp⟩
  | false =>
    rw [if_neg (by simp)]
    cases topics with
    | nil => right; simp
    | cons t ts =>
      by_cases h : t = e.signature hash
      · left
        refine ⟨Or.inr ?_, by simp [h], by simp⟩
        rw [List.map_cons, List.head?_cons, h, signature_eventTopic]; rfl
      · right
        refine ⟨?_, by simp [h]⟩
        rintro (h' | h')
        · cases h'
        · rw [List.map_cons, List.head?_cons, Option.some.injEq] at h'
          apply h
          apply Subtype.ext
          rw [h', signature_eventTopic]; rfl

theorem arguments_eq (e : Event) (topics : List Word) :
    argumentTopics e.anonymous (topics.map (·.1)) = (topics.drop (skipped e)).map (·.1) := by
  unfold argumentTopics skipped
  cases e.anonymous <;> simp

theorem narrow_topicType {t : ParamType} (h : narrow t = true) : narrow (topicType t) = true := by
  cases t <;> simp_all [topicType, valueType, narrow]

theorem narrowAll_iff {ts : List ParamType} : narrowAll ts = true ↔ ∀ t ∈ ts, narrow t = true := by
  induction ts with
  | nil => simp [narrowAll]
  | cons t ts ih => simp [narrowAll, ih]

theorem no_overrun {t : ParamType} (data : Bytes) (off : Nat) : ¬ overruns (topicType t) data off := by
  cases t <;> simp [topicType, valueType, overruns]

theorem no_overrunAny (ts : List ParamType) (data : Bytes) : ∀ off, ¬ overrunsAny (ts.map topicType) data off := by
  induction ts with
  | nil => intro off h; simp [overrunsAny] at h
  | cons t ts ih =>
    intro off h
    simp only [List.map_cons, overrunsAny] at h
    rcases h with h | ⟨_, _, h⟩
    · exact no_overrun _ _ h
    · exact ih _ h

theorem length_flat (ws : List Word) : (ws.flatMap (·.1)).length = 32 * ws.length := by
  induction ws with
  | nil => rfl
  | cons w ws ih => rw [List.flatMap_cons, List.length_append, ih, w.2, List.length_cons]; omega

/-- the two halves of the parameters -/
theorem filter_true : (fun p : EventParam => p.indexed) = fun p => p.indexed == true := by
  funext p; cases p.indexed <;> rfl
theorem filter_false : (fun p : EventParam => !p.indexed) = fun p => p.indexed == false := by
  funext p; cases p.indexed <;> rfl

/-- decoding the topics -/
theorem topics_iff (hash : Bytes → Word) (prof : Profile) (e : Event) (topics : List Word) (tt : List Token)
    (hn : ∀ p ∈ e.inputs, narrow p.kind = true) (hl : topics.length < 2 ^ 58)
    (hs : signedBy hash e.name (e.inputs.map (·.kind)) e.anonymous (topics.map (·.1))) :
    (decode prof ((e.inputs.filter (·.indexed == true)).map fun p => convertTopicParamType p.kind)
        ((topics.drop (skipped e)).flatMap (·.1)) = .ok tt ∧ tt.length = topics.length - skipped e) ↔
    topicsHold hash e.name (e.inputs.map (·.kind)) e.anonymous (topics.map (·.1))
      ((e.inputs.filter (·.indexed)).map (·.kind)) tt := by
  have hct : (fun p : EventParam => convertTopicParamType p.kind) = fun p => topicType p.kind := by
    funext p; exact convertTopicParamType_eq _
  have e1 : ((e.inputs.filter (·.indexed)).map (·.kind)).map topicType =
      (e.inputs.filter (·.indexed == true)).map fun p => convertTopicParamType p.kind := by
    rw [filter_true, List.map_map, hct]; rfl
  unfold topicsHold
  rw [arguments_eq, e1]
  have hnar : narrowAll ((e.inputs.filter (·.indexed == true)).map fun p => convertTopicParamType p.kind) = true := by
    rw [hct, narrowAll_iff]
    intro t ht
    obtain ⟨p, hp, rfl⟩ := List.mem_map.1 ht
    exact narrow_topicType (hn p (List.mem_filter.1 hp).1)
  have hlen : ((topics.drop (skipped e)).flatMap (·.1)).length < 2 ^ 63 := by
    rw [length_flat, List.length_drop]; omega
  rw [Props.C74_decodes_exactly prof _ _ tt hnar hlen]
  have hfl : ((topics.drop (skipped e)).map (·.1)).flatten = (topics.drop (skipped e)).flatMap (·.1) := by
    rw [List.flatMap_def]
  rw [hfl, List.length_map, List.length_map, List.length_drop, filter_true]
  have hlr : ∀ toks, readsAll ((e.inputs.filter (·.indexed == true)).map fun p => convertTopicParamType p.kind)
      ((topics.drop (skipped e)).flatMap (·.1)) 0 toks →
      toks.length = (e.inputs.filter (·.indexed == true)).length := by
    intro toks h
    have := decodeParams_length _ _ _ _ _ _ (((exact_params prof _ hnar _ hlen).ok 0 (by simp) toks _).2 ⟨h, rfl⟩)
    simpa using this
  constructor
  · rintro ⟨⟨-, h2⟩, h3⟩
    exact ⟨hs, by rw [← h3, hlr _ h2], h2⟩
  · rintro ⟨-, h2, h3⟩
    refine ⟨⟨?_, h3⟩, by rw [h2, hlr _ h3]⟩
    by_cases h0 : (topics.drop (skipped e)).flatMap (·.1) = []
    · right
      have : 32 * (topics.drop (skipped e)).length = 0 := by rw [← length_flat, h0]; rfl
      rw [List.length_drop] at this
      have : (e.inputs.filter (·.indexed == true)) = [] := List.eq_nil_of_length_eq_zero (by omega)
      rw [this]; intro t ht; simp at ht
    · exact Or.inl h0

end Ethabi.Logs

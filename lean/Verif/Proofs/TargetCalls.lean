import Verif.Model.EventOn
import Verif.Spec.Asked
import Verif.Proofs.Capacity
import Verif.Proofs.Targets
import Verif.Proofs.Logs
import Verif.Props.Targets
import Verif.Props.Capacity
/-! Calls, filters and logs on 32-bit targets. -/
namespace Ethabi.TargetCalls
open Ethabi Spec Logs Props

/-! ## 64 bits -/

theorem convertToken_64 (hash : Bytes → Word) (prof : Profile) (t : Token) (k : ParamType) :
    convertTokenOn 64 hash prof t k = convertToken hash prof t k := by
  unfold convertTokenOn convertToken
  rw [Capacity.encode_64]

theorem convertTokens_64 (hash : Bytes → Word) (prof : Profile) (k : ParamType) : ∀ ts : List Token,
    convertTokensOn 64 hash prof k ts = convertTokens hash prof k ts
  | [] => rfl
  | t :: ts => by rw [convertTokensOn, convertTokens, convertToken_64, convertTokens_64 hash prof k ts]

theorem convertTopic_64 (hash : Bytes → Word) (prof : Profile) (t : Topic Token) (k : Option ParamType) :
    convertTopicOn 64 hash prof t k = convertTopic hash prof t k := by
  unfold convertTopicOn convertTopic
  cases t <;> cases k <;> simp only [convertToken_64, convertTokens_64]

theorem filter_64 (hash : Bytes → Word) (prof : Profile) (e : Event) (raw : RawTopicFilter) :
    e.filterOn 64 hash prof raw = e.filter hash prof raw := by
  unfold Event.filterOn Event.filter
  simp only [convertTopic_64]

theorem parseLog_64 (hash : Bytes → Word) (prof : Profile) (e : Event) (log : RawLog) :
    e.parseLogOn 64 hash prof log = e.parseLog hash prof log := by
  unfold Event.parseLogOn Event.parseLog
  simp only [C87_same_code]

/-! ## filters on 32 bits -/

/-- if `q` holds, `x` panics where `y` succeeds; otherwise they are the same -/
structure Limited {α : Type} (x y : Res α) (q : Prop) : Prop where
  same : ¬ q → x = y
  large : q → ∀ a, y = .ok a → x = .panic
  cut : x = .panic ∨ x = y

theorem Limited.of_eq {α : Type} {x y : Res α} (h : x = y) : Limited x y False := ⟨fun _ => h, nofun, .inr h⟩

theorem Limited.congr {α : Type} {x y : Res α} {q q' : Prop} (h : Limited x y q) (hq : q' ↔ q) : Limited x y q' :=
  ⟨fun x => h.same fun y => x (hq.2 y), fun x => h.large (hq.1 x), h.cut⟩

theorem Limited.bind {α β : Type} {x y : Res α} {q q' : Prop} {k k' : α → Res β} (h : Limited x y q)
    (hk : ∀ a, Limited (k a) (k' a) q') : Limited (x >>= k) (y >>= k') (q ∨ q') where
  same := by
    intro hn
    rw [h.same fun hq => hn (Or.inl hq)]
    cases hb : y with
    | err e => rfl
    | panic => rfl
    | ok a => exact (hk a).same fun hq => hn (Or.inr hq)
  large := by
    intro hq b hb
    obtain ⟨a, ha, hb⟩ := Res.bind_eq_ok.1 hb
    rcases hq with hq | hq
    · rw [h.large hq a ha]; rfl
    · rcases h.cut with e | e
      · rw [e]; rfl
      · rw [e, ha]; exact (hk a).large hq b hb
  cut := by
    rcases h.cut with e | e
    · rw [e]; exact .inl rfl
    · rw [e]
      cases hb : y with
      | err e => exact .inr rfl
      | panic => exact .inl rfl
      | ok a => exact (hk a).cut

theorem limited_encode (prof : Profile) (t : Token) (hs : sizeAll [t] < 2 ^ 32) :
    Limited (encodeOn 32 prof [t]) (encode prof [t]) (2 ^ 26 ≤ size t) := by
  have hq : (2 ^ 26 ≤ headBytes [t] ∨ 2 ^ 26 ≤ tailBytes [t]) ↔ 2 ^ 26 ≤ size t := by
    simp only [headBytes, tailBytes]
    cases tailed t <;> simp
  have hx := C103_exact prof [t] hs
  refine ⟨fun h => ?_, fun h a _ => ?_, C103_same_or_panic 32 prof [t]⟩
  · rw [hx, if_neg (fun h' => h (hq.1 h'))]
  · rw [hx, if_pos (hq.2 h)]

theorem limited_token (hash : Bytes → Word) (prof : Profile) (t : Token) (k : ParamType) (hs : sizeAll [t] < 2 ^ 32) :
    Limited (convertTokenOn 32 hash prof t k) (convertToken hash prof t k) (2 ^ 26 ≤ size t) := by
  unfold convertTokenOn convertToken
  cases Token.typeCheck t k with
  | err e => exact ⟨fun _ => rfl, fun _ _ h => (nomatch h), .inr rfl⟩
  | panic => exact ⟨fun _ => rfl, fun _ _ h => (nomatch h), .inr rfl⟩
  | ok b =>
    cases b with
    | false => exact ⟨fun _ => rfl, fun _ _ h => (nomatch h), .inr rfl⟩
    | true =>
      simp only [Res.ok_bind, Bool.not_true, Bool.false_eq_true, if_false]
      exact ((limited_encode prof t hs).bind (q' := False) fun _ => Limited.of_eq rfl).congr (by simp)

theorem limited_tokens (hash : Bytes → Word) (prof : Profile) (k : ParamType) : ∀ (ts : List Token),
    (∀ t ∈ ts, sizeAll [t] < 2 ^ 32) →
    Limited (convertTokensOn 32 hash prof k ts) (convertTokens hash prof k ts) (∃ t ∈ ts, 2 ^ 26 ≤ size t)
  | [], _ => (Limited.of_eq rfl).congr (by simp)
  | t :: ts, h => by
      rw [convertTokensOn, convertTokens]
      refine ((limited_token hash prof t k (h t (by simp))).bind (q' := (∃ t ∈ ts, 2 ^ 26 ≤ size t)) fun w => ?_).congr (by simp)
      exact ((limited_tokens hash prof k ts fun t ht => h t (by simp [ht])).bind (q' := False) fun _ => Limited.of_eq rfl).congr
        (by simp)

theorem limited_topic (hash : Bytes → Word) (prof : Profile) (topic : Topic Token) (k : Option ParamType)
    (h : ∀ t, asks topic t → sizeAll [t] < 2 ^ 32) :
    Limited (convertTopicOn 32 hash prof topic k) (convertTopic hash prof topic k) (∃ t, asks topic t ∧ 2 ^ 26 ≤ size t) := by
  unfold convertTopicOn convertTopic
  cases topic with
  | any => exact (Limited.of_eq rfl).congr (by simp [asks])
  | oneOf l =>
    cases k with
    | none => exact ⟨fun _ => rfl, fun _ _ h => (nomatch h), .inr rfl⟩
    | some k =>
      refine ((limited_tokens hash prof k l fun t ht => h t (Or.inr ⟨l, rfl, ht⟩)).bind (q' := False)
        fun _ => Limited.of_eq rfl).congr ?_
      simp [asks]
  | this t =>
    cases k with
    | none => exact ⟨fun _ => rfl, fun _ _ h => (nomatch h), .inr rfl⟩
    | some k =>
      refine ((limited_token hash prof t k (h t (Or.inl rfl))).bind (q' := False) fun _ => Limited.of_eq rfl).congr ?_
      simp [asks]

theorem limited_filter (hash : Bytes → Word) (prof : Profile) (e : Event) (raw : RawTopicFilter)
    (h0 : ∀ t, asks raw.topic0 t → sizeAll [t] < 2 ^ 32) (h1 : ∀ t, asks raw.topic1 t → sizeAll [t] < 2 ^ 32)
    (h2 : ∀ t, asks raw.topic2 t → sizeAll [t] < 2 ^ 32) :
    Limited (e.filterOn 32 hash prof raw) (e.filter hash prof raw)
      ((∃ t, asks raw.topic0 t ∧ 2 ^ 26 ≤ size t) ∨ (∃ t, asks raw.topic1 t ∧ 2 ^ 26 ≤ size t) ∨
        ∃ t, asks raw.topic2 t ∧ 2 ^ 26 ≤ size t) := by
  unfold Event.filterOn Event.filter
  dsimp only
  split <;>
  · refine (limited_topic hash prof raw.topic0 _ h0).bind fun _ => ?_
    refine (limited_topic hash prof raw.topic1 _ h1).bind fun _ => ?_
    exact ((limited_topic hash prof raw.topic2 _ h2).bind (q' := False) fun _ => Limited.of_eq rfl).congr (by simp)

/-! ## logs on 32 bits -/

theorem no_wraps {t : ParamType} (data : Bytes) (off : Nat) : ¬ wraps 32 (topicType t) data off := by
  cases t <;> simp [topicType, valueType, wraps]

theorem no_wrapsAny (ts : List ParamType) (data : Bytes) : ∀ off, ¬ wrapsAny 32 (ts.map topicType) data off := by
  induction ts with
  | nil => intro off h; simp [wrapsAny] at h
  | cons t ts ih =>
    intro off h
    simp only [List.map_cons, wrapsAny] at h
    rcases h with h | ⟨_, _, h⟩
    · exact no_wraps _ _ h
    · exact ih _ h

theorem narrow32_topicType {t : ParamType} (h : narrow32 t = true) : narrow32 (topicType t) = true := by
  cases t <;> simp_all [topicType, valueType, narrow32]

theorem narrow32All_iff {ts : List ParamType} : narrow32All ts = true ↔ ∀ t ∈ ts, narrow32 t = true := by
  induction ts with
  | nil => simp [narrow32All]
  | cons t ts ih => simp [narrow32All, ih]

theorem narrow_of_narrow32 {t : ParamType} (h : narrow32 t = true) : narrow t = true := by
  have := Targets.narrowAll_of_narrow32 [t] (by simp [narrow32All, h])
  simpa [narrowAll] using this

theorem parseLogOn_eq (bits : Nat) (hash : Bytes → Word) (prof : Profile) (e : Event) (log : RawLog) :
    e.parseLogOn bits hash prof log = (do
      let toSkip ← e.checkSignature hash log.topics
      let tt ← decodeOn bits prof ((e.inputs.filter (·.indexed == true)).map fun p => convertTopicParamType p.kind)
        ((log.topics.drop toSkip).flatMap (·.1))
      if tt.length ≠ log.topics.length - toSkip then .err .invalidData
      else do
        let dt ← decodeOn bits prof ((e.inputs.filter (·.indexed == false)).map (·.kind)) log.data
        let params ← logParams (namedPairs e.inputs tt dt) (e.inputs.map (·.name))
        .ok { params := params }) := rfl

/-- the topics are decoded alike -/
theorem topics_same (prof : Profile) (e : Event) (topics : List Word) (hn : ∀ p ∈ e.inputs, narrow32 p.kind = true)
    (ht : topics.length < 2 ^ 26) :
    decodeOn 32 prof ((e.inputs.filter (·.indexed == true)).map fun p => convertTopicParamType p.kind) (topics.flatMap (·.1)) =
      decode prof ((e.inputs.filter (·.indexed == true)).map fun p => convertTopicParamType p.kind) (topics.flatMap (·.1)) := by
  have hct : ((e.inputs.filter (·.indexed == true)).map fun p => convertTopicParamType p.kind) =
      ((e.inputs.filter (·.indexed == true)).map (·.kind)).map topicType := by
    rw [List.map_map]
    apply List.map_congr_left
    intro p _; exact convertTopicParamType_eq _
  rw [hct]
  refine C87_otherwise_same prof _ _ ?_ ?_ (no_wrapsAny _ _ 0)
  · rw [narrow32All_iff]
    intro t ht
    obtain ⟨u, hu, rfl⟩ := List.mem_map.1 ht
    obtain ⟨p, hp, rfl⟩ := List.mem_map.1 hu
    exact narrow32_topicType (hn p (List.mem_filter.1 hp).1)
  · rw [length_flat]; omega

end Ethabi.TargetCalls

import Verif.Proofs.Outcomes
import Verif.Props.Calls
import Verif.Props.Filters
import Verif.Props.Sizes
/-!
# The outcomes of type checking in full: C17, C20, C38

The claims as stated fail for tuples with the wrong number of members.  Here is what the code does for all inputs:
`shortOfs` is `valuesOf` with members allowed to be missing at the end of tuples, `SurplusArgs` says that a tuple with
too many members is met before anything that is not of its type.
-/
namespace Ethabi.Props
open Spec

/-! ## C17 -/

/-- **C17, all inputs**: what is accepted, … -/
theorem C17_accepts_exactly (toks : List Token) (ts : List ParamType) :
    Token.typesCheck toks ts = .ok true ↔ toks.length = ts.length ∧ shortOfs toks ts = true := by
  rcases typesCheck_outcome toks ts with ⟨h, _⟩ | ⟨h, hv, _⟩
  · rw [h]; simp
  · rw [h]; simp only [reduceCtorEq, false_iff]; rintro ⟨a, b⟩; simp [a, b] at hv

/-- … when the check panics, … -/
theorem C17_panics_exactly (toks : List Token) (ts : List ParamType) :
    Token.typesCheck toks ts = .panic ↔ SurplusArgs toks ts := by
  rcases typesCheck_outcome toks ts with ⟨h, hs⟩ | ⟨h, _, hs⟩
  · rw [h]; simp [hs]
  · rw [h]; simp [hs]

/-- … and that everything else is refused. -/
theorem C17_refuses_exactly (toks : List Token) (ts : List ParamType) :
    Token.typesCheck toks ts = .ok false ↔
      ¬ SurplusArgs toks ts ∧ ¬ (toks.length = ts.length ∧ shortOfs toks ts = true) := by
  rcases typesCheck_outcome toks ts with ⟨h, hs⟩ | ⟨h, _, hs⟩
  · rw [h]; simp [hs]
  · rw [h]; simp [hs]

/-- Accepted are the values of the types, except that members may be missing: with member counts as declared
(`arityMatchZip`) the two notions coincide. -/
theorem C17_short_is_value (toks : List Token) (ts : List ParamType) (h : arityMatchZip toks ts = true) :
    (toks.length = ts.length ∧ shortOfs toks ts = true) ↔ valuesOf toks ts = true := by
  rw [← C17_accepts_exactly, typesCheck_eq toks ts h]; simp

/-- all three outcomes occur; the second: the tuple is met before the ill-typed last argument -/
example : shortOfs [.tuple [.uint 1], .bool true] [.tuple [.uint 8, .string], .bool] = true ∧
    SurplusArgs [.array [.tuple [.bool true], .tuple [.bool true, .bool true]], .bool true] [.array (.tuple [.bool]), .string] ∧
    ¬ SurplusArgs [.bool true, .array [.tuple [.bool true, .bool true]]] [.string, .array (.tuple [.bool])] := by
  refine ⟨by decide, ?_, ?_⟩
  · rw [← C17_panics_exactly]; decide
  · rw [← C17_panics_exactly]; decide

/-! ## C20 -/

/-- **C20, all inputs**, functions: `InvalidData` for exactly the tokens that are neither accepted by the type check nor
make it panic; a panic of the check is a panic of `encode_input`; accepted tokens give the selector and their encoding. -/
theorem C20_function_outcomes (hash : Bytes → Word) (prof : Profile) (f : Function) (toks : List Token) :
    let ts := f.inputs.map (·.kind)
    let fits := toks.length = ts.length ∧ shortOfs toks ts = true
    (∀ e, f.encodeInput hash prof toks = .err e ↔ e = .invalidData ∧ ¬ SurplusArgs toks ts ∧ ¬ fits) ∧
    (SurplusArgs toks ts → f.encodeInput hash prof toks = .panic) ∧
    (fits → f.encodeInput hash prof toks = (encode prof toks >>= fun b => .ok (shortSignature hash f.name ts ++ b))) := by
  intro ts fits
  have he := fine_encode prof toks
  rcases typesCheck_outcome toks ts with ⟨h, hs⟩ | ⟨h, hv, hs⟩
  · by_cases hf : fits
    · have hb : (decide (toks.length = ts.length) && shortOfs toks ts) = true := by simp [hf.1, hf.2]
      rw [hb] at h
      have e : f.encodeInput hash prof toks = (encode prof toks >>= fun b => .ok (shortSignature hash f.name ts ++ b)) := by
        simp only [Function.encodeInput, Function.inputParamTypes]
        rw [h]; rfl
      refine ⟨fun x => ⟨fun hx => ?_, fun hx => absurd hf hx.2.2⟩, fun h' => absurd h' hs, fun _ => e⟩
      rw [e] at hx
      cases hc : encode prof toks with
      | ok b => rw [hc] at hx; cases hx
      | err x => exact absurd hc (he.1 x)
      | panic => rw [hc] at hx; cases hx
    · have hb : (decide (toks.length = ts.length) && shortOfs toks ts) = false := by
        cases hx : (decide (toks.length = ts.length) && shortOfs toks ts) with
        | false => rfl
        | true => exact absurd (by simpa using hx) hf
      rw [hb] at h
      have e : f.encodeInput hash prof toks = .err .invalidData := by
        simp only [Function.encodeInput, Function.inputParamTypes]
        rw [h]; rfl
      refine ⟨fun x => ?_, fun h' => absurd h' hs, fun h' => absurd h' hf⟩
      rw [e]
      exact ⟨fun hx => ⟨(Res.err.inj hx).symm, hs, hf⟩, fun hx => by rw [hx.1]⟩
  · have e : f.encodeInput hash prof toks = .panic := by
      simp only [Function.encodeInput, Function.inputParamTypes]
      rw [h]; rfl
    refine ⟨fun x => ?_, fun _ => e, fun h' => ?_⟩
    · rw [e]; exact ⟨nofun, fun hx => absurd hs hx.2.1⟩
    · have h' : toks.length = ts.length ∧ shortOfs toks ts = true := h'
      simp [h'.1, h'.2] at hv

/-- **C20, all inputs**, constructors. -/
theorem C20_constructor_outcomes (prof : Profile) (c : Constructor) (code : Bytes) (toks : List Token) :
    let ts := c.inputs.map (·.kind)
    let fits := toks.length = ts.length ∧ shortOfs toks ts = true
    (∀ e, c.encodeInput prof code toks = .err e ↔ e = .invalidData ∧ ¬ SurplusArgs toks ts ∧ ¬ fits) ∧
    (SurplusArgs toks ts → c.encodeInput prof code toks = .panic) ∧
    (fits → c.encodeInput prof code toks = (encode prof toks >>= fun b => .ok (code ++ b))) := by
  intro ts fits
  have he := fine_encode prof toks
  rcases typesCheck_outcome toks ts with ⟨h, hs⟩ | ⟨h, hv, hs⟩
  · by_cases hf : fits
    · have hb : (decide (toks.length = ts.length) && shortOfs toks ts) = true := by simp [hf.1, hf.2]
      rw [hb] at h
      have e : c.encodeInput prof code toks = (encode prof toks >>= fun b => .ok (code ++ b)) := by
        simp only [Constructor.encodeInput, Constructor.paramTypes]
        rw [h]; rfl
      refine ⟨fun x => ⟨fun hx => ?_, fun hx => absurd hf hx.2.2⟩, fun h' => absurd h' hs, fun _ => e⟩
      rw [e] at hx
      cases hc : encode prof toks with
      | ok b => rw [hc] at hx; cases hx
      | err x => exact absurd hc (he.1 x)
      | panic => rw [hc] at hx; cases hx
    · have hb : (decide (toks.length = ts.length) && shortOfs toks ts) = false := by
        cases hx : (decide (toks.length = ts.length) && shortOfs toks ts) with
        | false => rfl
        | true => exact absurd (by simpa using hx) hf
      rw [hb] at h
      have e : c.encodeInput prof code toks = .err .invalidData := by
        simp only [Constructor.encodeInput, Constructor.paramTypes]
        rw [h]; rfl
      refine ⟨fun x => ?_, fun h' => absurd h' hs, fun h' => absurd h' hf⟩
      rw [e]
      exact ⟨fun hx => ⟨(Res.err.inj hx).symm, hs, hf⟩, fun hx => by rw [hx.1]⟩
  · have e : c.encodeInput prof code toks = .panic := by
      simp only [Constructor.encodeInput, Constructor.paramTypes]
      rw [h]; rfl
    refine ⟨fun x => ?_, fun _ => e, fun h' => ?_⟩
    · rw [e]; exact ⟨nofun, fun hx => absurd hs hx.2.1⟩
    · have h' : toks.length = ts.length ∧ shortOfs toks ts = true := h'
      simp [h'.1, h'.2] at hv

example : SurplusArgs [.tuple [.bool true, .bool true]] [.tuple [.bool]] ∧
    ¬ SurplusArgs [.array [.uint 1, .bool true]] [.array (.uint 256)] ∧
    shortOfs [.array [.uint 1, .bool true]] [.array (.uint 256)] = false := by
  refine ⟨?_, ?_, by decide⟩
  · rw [← C17_panics_exactly]; decide
  · rw [← C17_panics_exactly]; decide

/-! ## C38 -/

/-- nothing given, or only tokens that pass the type check for the parameter -/
def PassingTopic (topic : Topic Token) (kind : Option ParamType) : Prop :=
  topic = .any ∨ ∃ k, kind = some k ∧ ∀ t ∈ tokensOf topic, shortOf t k = true

/-- among the tokens, before any that is refused, there is one holding a tuple with too many members -/
def SurplusTopic (topic : Topic Token) (kind : Option ParamType) : Prop :=
  ∃ k a t b, kind = some k ∧ tokensOf topic = a ++ t :: b ∧ (∀ x ∈ a, shortOf x k = true) ∧ Surplus t k

/-- a step that succeeds on `p`, panics on `q` and fails otherwise -/
def Step {α : Type} (r : Res α) (p q : Prop) : Prop :=
  (p ∧ ¬ q ∧ ∃ w, r = .ok w) ∨ (¬ p ∧ ¬ q ∧ r = .err .invalidData) ∨ (¬ p ∧ q ∧ r = .panic)

theorem step_token (hash : Bytes → Word) (prof : Profile) (t : Token) (k : ParamType) (hp : encode prof [t] ≠ .panic) :
    Step (convertToken hash prof t k) (shortOf t k = true) (Surplus t k) := by
  obtain ⟨b, hb⟩ : ∃ b, encode prof [t] = .ok b := by
    cases h : encode prof [t] with
    | ok b => exact ⟨b, rfl⟩
    | err e => exact absurd h ((fine_encode prof [t]).1 e)
    | panic => exact absurd h hp
  rcases typeCheck_outcome t k with ⟨h, hs⟩ | ⟨h, hv, hs⟩
  · cases hv : shortOf t k with
    | true =>
      rw [hv] at h
      refine Or.inl ⟨rfl, hs, ?_⟩
      simp only [convertToken, h, hb, Res.ok_bind]
      by_cases hl : b.length = 32
      · exact ⟨⟨b, hl⟩, by simp [hl]⟩
      · exact ⟨hash b, by simp [hl]⟩
    | false =>
      rw [hv] at h
      refine Or.inr (Or.inl ⟨by simp, hs, ?_⟩)
      simp only [convertToken, h, Res.ok_bind]; rfl
  · refine Or.inr (Or.inr ⟨by simp [hv], hs, ?_⟩)
    simp only [convertToken, h]; rfl

theorem step_bind {α β γ : Type} {r : Res α} {s : Res β} {p q p' q' : Prop} {f : α → β → γ}
    (h : Step r p q) (h' : Step s p' q') :
    Step (do let a ← r; let b ← s; .ok (f a b) : Res γ) (p ∧ p') (q ∨ (p ∧ q')) := by
  rcases h with ⟨hp, hq, w, rfl⟩ | ⟨hp, hq, rfl⟩ | ⟨hp, hq, rfl⟩
  · rcases h' with ⟨hp', hq', w', rfl⟩ | ⟨hp', hq', rfl⟩ | ⟨hp', hq', rfl⟩
    · exact Or.inl ⟨⟨hp, hp'⟩, by simp [hq, hq'], f w w', rfl⟩
    · exact Or.inr (Or.inl ⟨by simp [hp'], by simp [hq, hq'], rfl⟩)
    · exact Or.inr (Or.inr ⟨by simp [hp'], Or.inr ⟨hp, hq'⟩, rfl⟩)
  · exact Or.inr (Or.inl ⟨by simp [hp], by simp [hp, hq], rfl⟩)
  · exact Or.inr (Or.inr ⟨by simp [hp], Or.inl hq, rfl⟩)

theorem step_congr {α : Type} {r : Res α} {p q p' q' : Prop} (h : Step r p q) (hp : p ↔ p') (hq : q ↔ q') :
    Step r p' q' := by rwa [propext hp, propext hq] at h

theorem step_tokens (hash : Bytes → Word) (prof : Profile) (k : ParamType) : ∀ (toks : List Token)
    (_ : ∀ t ∈ toks, encode prof [t] ≠ .panic),
    Step (convertTokens hash prof k toks) (∀ t ∈ toks, shortOf t k = true)
      (∃ a t b, toks = a ++ t :: b ∧ (∀ x ∈ a, shortOf x k = true) ∧ Surplus t k)
  | [], _ => Or.inl ⟨by simp, by rintro ⟨a, t, b, h, _⟩; simp at h, [], rfl⟩
  | t :: ts, hp => by
    have h1 := step_token hash prof t k (hp t (by simp))
    have h2 := step_tokens hash prof k ts (fun x hx => hp x (by simp [hx]))
    refine step_congr (step_bind (f := fun w ws => w :: ws) h1 h2) (by simp) ?_
    constructor
    · rintro (h | ⟨h, a, x, b, rfl, ha, hs⟩)
      · exact ⟨[], t, ts, rfl, by simp, h⟩
      · exact ⟨t :: a, x, b, rfl, by simpa using ⟨h, ha⟩, hs⟩
    · rintro ⟨a, x, b, h, ha, hs⟩
      cases a with
      | nil => simp only [List.nil_append, List.cons.injEq] at h; exact Or.inl (h.1 ▸ hs)
      | cons y a =>
        simp only [List.cons_append, List.cons.injEq] at h
        exact Or.inr ⟨h.1 ▸ ha y (by simp), a, x, b, h.2, fun z hz => ha z (by simp [hz]), hs⟩

theorem step_topic (hash : Bytes → Word) (prof : Profile) (topic : Topic Token) (kind : Option ParamType)
    (hp : ∀ t ∈ tokensOf topic, encode prof [t] ≠ .panic) :
    Step (convertTopic hash prof topic kind) (PassingTopic topic kind) (SurplusTopic topic kind) := by
  cases topic with
  | any => exact Or.inl ⟨Or.inl rfl, by rintro ⟨k, a, t, b, _, h, _⟩; simp [tokensOf] at h, .any, rfl⟩
  | this t =>
    cases kind with
    | none => exact Or.inr (Or.inl ⟨by simp [PassingTopic], by simp [SurplusTopic], rfl⟩)
    | some k =>
      have h := step_token hash prof t k (hp t (by simp [tokensOf]))
      have hq : SurplusTopic (.this t) (some k) ↔ Surplus t k := by
        constructor
        · rintro ⟨k', a, x, b, hk, h, _, hs⟩
          cases hk
          cases a with
          | nil =>
            simp only [tokensOf, List.nil_append, List.cons.injEq] at h
            exact h.1 ▸ hs
          | cons y a => simp [tokensOf] at h
        · exact fun h => ⟨k, [], t, [], rfl, rfl, by simp, h⟩
      have hpass : PassingTopic (.this t) (some k) ↔ shortOf t k = true := by simp [PassingTopic, tokensOf]
      rcases h with ⟨h1, h2, w, hw⟩ | ⟨h1, h2, hw⟩ | ⟨h1, h2, hw⟩
      · exact Or.inl ⟨hpass.2 h1, fun h => h2 (hq.1 h), .this w, by simp only [convertTopic, hw]; rfl⟩
      · exact Or.inr (Or.inl ⟨fun h => h1 (hpass.1 h), fun h => h2 (hq.1 h), by simp only [convertTopic, hw]; rfl⟩)
      · exact Or.inr (Or.inr ⟨fun h => h1 (hpass.1 h), hq.2 h2, by simp only [convertTopic, hw]; rfl⟩)
  | oneOf l =>
    cases kind with
    | none => exact Or.inr (Or.inl ⟨by simp [PassingTopic], by simp [SurplusTopic], rfl⟩)
    | some k =>
      have h := step_tokens hash prof k l (fun t ht => hp t (by simpa [tokensOf] using ht))
      have hq : SurplusTopic (.oneOf l) (some k) ↔
          ∃ a t b, l = a ++ t :: b ∧ (∀ x ∈ a, shortOf x k = true) ∧ Surplus t k := by
        constructor
        · rintro ⟨k', a, x, b, hk, h, h'⟩
          cases hk
          exact ⟨a, x, b, h, h'⟩
        · rintro ⟨a, x, b, h⟩
          exact ⟨k, a, x, b, rfl, h⟩
      have hpass : PassingTopic (.oneOf l) (some k) ↔ ∀ t ∈ l, shortOf t k = true := by simp [PassingTopic, tokensOf]
      rcases h with ⟨h1, h2, w, hw⟩ | ⟨h1, h2, hw⟩ | ⟨h1, h2, hw⟩
      · exact Or.inl ⟨hpass.2 h1, fun h => h2 (hq.1 h), .oneOf w, by simp only [convertTopic, hw]; rfl⟩
      · exact Or.inr (Or.inl ⟨fun h => h1 (hpass.1 h), fun h => h2 (hq.1 h), by simp only [convertTopic, hw]; rfl⟩)
      · exact Or.inr (Or.inr ⟨fun h => h1 (hpass.1 h), hq.2 h2, by simp only [convertTopic, hw]; rfl⟩)

theorem step_three {α β : Type} {r0 r1 r2 : Res α} {p0 p1 p2 q0 q1 q2 : Prop} {f : α → α → α → β}
    (h0 : Step r0 p0 q0) (h1 : Step r1 p1 q1) (h2 : Step r2 p2 q2) :
    Step (do let a ← r0; let b ← r1; let c ← r2; .ok (f a b c) : Res β) (p0 ∧ p1 ∧ p2)
      (q0 ∨ (p0 ∧ (q1 ∨ (p1 ∧ q2)))) := by
  have h := step_bind (f := fun a (x : α × α) => f a x.1 x.2) h0 (step_bind (f := fun b c => (b, c)) h1 h2)
  have e : (do let a ← r0; let b ← r1; let c ← r2; .ok (f a b c) : Res β) =
      (do let a ← r0; let b ← (do let a ← r1; let b ← r2; .ok (a, b) : Res (α × α)); .ok (f a b.1 b.2) : Res β) := by
    cases r0 <;> cases r1 <;> cases r2 <;> rfl
  rwa [e]

/-- **C38, all inputs** whose tokens can be encoded (in release builds: all): `filter` succeeds exactly if all topics
pass, panics exactly if it meets a tuple with too many members before anything that is refused, and fails with
`InvalidData` in all other cases. -/
theorem C38_outcomes (hash : Bytes → Word) (prof : Profile) (e : Event) (raw : RawTopicFilter)
    (hp : ∀ topic ∈ [raw.topic0, raw.topic1, raw.topic2], ∀ t ∈ tokensOf topic, encode prof [t] ≠ .panic) :
    let pass := PassingTopic raw.topic0 (indexedKinds e)[0]? ∧ PassingTopic raw.topic1 (indexedKinds e)[1]? ∧
      PassingTopic raw.topic2 (indexedKinds e)[2]?
    let surplus := SurplusTopic raw.topic0 (indexedKinds e)[0]? ∨ (PassingTopic raw.topic0 (indexedKinds e)[0]? ∧
      (SurplusTopic raw.topic1 (indexedKinds e)[1]? ∨ (PassingTopic raw.topic1 (indexedKinds e)[1]? ∧
        SurplusTopic raw.topic2 (indexedKinds e)[2]?)))
    ((∃ f, e.filter hash prof raw = .ok f) ↔ pass) ∧ (e.filter hash prof raw = .panic ↔ surplus) ∧
      (∀ x, e.filter hash prof raw = .err x ↔ x = .invalidData ∧ ¬ pass ∧ ¬ surplus) := by
  intro pass surplus
  have hf : (fun p : EventParam => p.indexed) = fun p => p.indexed == true := by funext p; cases p.indexed <;> rfl
  have hk : indexedKinds e = (e.indexedParams true).map (·.kind) := by
    unfold indexedKinds Event.indexedParams; rw [hf]
  have key : Step (e.filter hash prof raw) pass surplus := by
    have h0 := step_topic hash prof raw.topic0 (indexedKinds e)[0]? (hp _ (by simp))
    have h1 := step_topic hash prof raw.topic1 (indexedKinds e)[1]? (hp _ (by simp))
    have h2 := step_topic hash prof raw.topic2 (indexedKinds e)[2]? (hp _ (by simp))
    unfold Event.filter
    rw [← hk]
    cases ha : e.anonymous with
    | true =>
      simp only [if_true]
      exact step_three (f := fun a b c => (⟨a, b, c, .any⟩ : TopicFilter)) h0 h1 h2
    | false =>
      simp only [Bool.false_eq_true, if_false]
      exact step_three (f := fun a b c => (⟨.this (e.signature hash), a, b, c⟩ : TopicFilter)) h0 h1 h2
  rcases key with ⟨h1, h2, w, hw⟩ | ⟨h1, h2, hw⟩ | ⟨h1, h2, hw⟩
  · refine ⟨by rw [hw]; exact ⟨fun _ => h1, fun _ => ⟨w, rfl⟩⟩, by rw [hw]; exact ⟨nofun, fun h => absurd h h2⟩,
      fun x => by rw [hw]; exact ⟨nofun, fun h => absurd h1 h.2.1⟩⟩
  · refine ⟨by rw [hw]; exact ⟨nofun, fun h => absurd h h1⟩, by rw [hw]; exact ⟨nofun, fun h => absurd h h2⟩,
      fun x => by rw [hw]; exact ⟨fun h => ⟨(Res.err.inj h).symm, h1, h2⟩, fun h => by rw [h.1]⟩⟩
  · refine ⟨by rw [hw]; exact ⟨nofun, fun h => absurd h h1⟩, by rw [hw]; exact ⟨fun _ => h2, fun _ => rfl⟩,
      fun x => by rw [hw]; exact ⟨nofun, fun h => absurd h2 h.2.2⟩⟩

/-- **C38, all inputs**, release builds: no condition. -/
theorem C38_outcomes_release (hash : Bytes → Word) (e : Event) (raw : RawTopicFilter) :
    ((∃ f, e.filter hash .release raw = .ok f) ↔ PassingTopic raw.topic0 (indexedKinds e)[0]? ∧
      PassingTopic raw.topic1 (indexedKinds e)[1]? ∧ PassingTopic raw.topic2 (indexedKinds e)[2]?) ∧
    (∀ x, e.filter hash .release raw = .err x → x = .invalidData) := by
  have h := C38_outcomes hash .release e raw (fun _ _ t _ => (fine_encode .release [t]).2 rfl)
  exact ⟨h.1, fun x hx => ((h.2.2 x).1 hx).1⟩

/-- a short tuple passes, a long one after it is met by the check, but not behind a refused token -/
example : PassingTopic (.this (.tuple [])) (some (.tuple [.bool])) ∧
    SurplusTopic (.oneOf [.tuple [], .tuple [.bool true, .bool true]]) (some (.tuple [.bool])) ∧
    ¬ SurplusTopic (.oneOf [.bool true, .tuple [.bool true, .bool true]]) (some (.tuple [.bool])) := by
  have hs : Surplus (.tuple [.bool true, .bool true]) (.tuple [.bool]) :=
    .tooMany (a := [.bool true]) (b := []) (x := .bool true) (ps := [.bool]) rfl rfl
  refine ⟨Or.inr ⟨_, rfl, ?_⟩, ⟨_, [.tuple []], _, [], rfl, rfl, ?_, hs⟩, ?_⟩
  · intro t ht; simp only [tokensOf, List.mem_singleton] at ht; subst ht; rfl
  · intro t ht; simp only [List.mem_singleton] at ht; subst ht; rfl
  · rintro ⟨k, a, t, b, hk, h, ha, hs⟩
    cases hk
    cases a with
    | nil =>
      simp only [tokensOf, List.nil_append, List.cons.injEq] at h
      rw [← h.1] at hs; cases hs
    | cons y a =>
      simp only [tokensOf, List.cons_append, List.cons.injEq] at h
      have := ha y (by simp)
      rw [← h.1] at this; cases this

end Ethabi.Props

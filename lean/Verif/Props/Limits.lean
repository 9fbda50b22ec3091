import Verif.Proofs.EncodeWrap
import Verif.Props.Sizes
import Verif.Props.Derive
/-!
# What happens at and beyond 4 GiB: C82, and C55 and C63 for debug builds
-/
namespace Ethabi.Props
open Spec

/-! ## C82 release builds, data of any size -/

/-- **C82.** In a release build `encode` succeeds on every well-typed argument list, whatever its size, and the result is the
specified layout with every length and every offset reduced modulo 2^32. -/
theorem C82_release_exactly (ts : List ParamType) (toks : List Token) (ht : haveTypes toks ts = true)
    (hc : codableAll ts = true) : encode .release toks = .ok (encodeArgsWith lowWord toks ts) := Wrap.encode_wrap toks ts ht hc

/-- **C82**: so it is the specified encoding exactly if all lengths and offsets in it are below 2^32; it has the specified
size in any case. -/
theorem C82_right_iff (ts : List ParamType) (toks : List Token) (ht : haveTypes toks ts = true)
    (hc : codableAll ts = true) (hn : ∀ n ∈ numbersOf toks ts, n < 2 ^ 256) :
    (encode .release toks = .ok (encodeArgs toks ts) ↔ ∀ n ∈ numbersOf toks ts, n < 2 ^ 32) ∧
    ∃ bs, encode .release toks = .ok bs ∧ bs.length = (encodeArgs toks ts).length := by
  have h := C82_release_exactly ts toks ht hc
  refine ⟨?_, _, h, Wrap.alike_args toks ts⟩
  rw [h, Res.ok.injEq, Wrap.args_iff]
  exact ⟨fun h n m => (Wrap.lowWord_iff (hn n m)).1 (h n m), fun h n m => (Wrap.lowWord_iff (hn n m)).2 (h n m)⟩

/-- **C82**, both builds: whatever `encode` returns has this form; a debug build may panic instead. -/
theorem C82_any_build (prof : Profile) (ts : List ParamType) (toks : List Token) (ht : haveTypes toks ts = true)
    (hc : codableAll ts = true) :
    encode prof toks = .ok (encodeArgsWith lowWord toks ts) ∨ (prof = .debug ∧ encode prof toks = .panic) := by
  have h := C82_release_exactly ts toks ht hc
  cases prof with
  | release => exact .inl h
  | debug =>
    by_cases hp : encode .debug toks = .panic
    · exact .inr ⟨rfl, hp⟩
    · exact .inl (by rw [← C66_encode toks hp, h])

/-- the layout of `Spec.AbiWrap` with plain words is the specified one -/
theorem C82_spec_agrees (ts : List ParamType) (toks : List Token) : encodeArgsWith word toks ts = encodeArgs toks ts :=
  Wrap.encodeArgsWith_word toks ts

/-- the numbers in the encoding of one byte string, and of a list of strings -/
example (b : Bytes) : numbersOf [.bytes b] [.bytes] = [32, b.length] := rfl
example : numbersOf [.array [.string ['x'], .string ['y']], .uint 7] [.array .string, .uint 256] = [64, 2, 64, 128, 1, 1] := by
  decide
example : haveTypes [.array [.string ['x'], .string ['y']], .uint 7] [.array .string, .uint 256] = true ∧
    codableAll [.array .string, .uint 256] = true := by decide
/-- a byte string of 2^32 + 5 bytes: offset 32, length word 5 -/
example (b : Bytes) (hb : b.length = 2 ^ 32 + 5) :
    encodeArgsWith lowWord [.bytes b] [.bytes] = word 32 ++ (word 5 ++ padRight b) := by
  have h : lowWord b.length = word 5 := by rw [lowWord, hb]; rfl
  simp only [encodeArgsWith, encZipWith, layoutWith, headsWith, headSize, dynamic, encWith, tails, h, List.append_nil]
  rfl

/-- **C82** for calls: selector and the same layout. -/
theorem C82_function_release (hash : Bytes → Word) (f : Function) (toks : List Token)
    (ht : haveTypes toks (f.inputs.map (·.kind)) = true) (hc : codableAll (f.inputs.map (·.kind)) = true) :
    f.encodeInput hash .release toks =
      .ok ((hash ((signature (String.ofList f.name) (f.inputs.map (·.kind))).toList.flatMap String.utf8EncodeChar)).1.take 4 ++
        encodeArgsWith lowWord toks (f.inputs.map (·.kind))) := by
  have h := C82_release_exactly _ toks ht hc
  have hty := typesCheck_of_valuesOf (haveTypes_valuesOf _ _ ht)
  have e : f.encodeInput hash .release toks =
      .ok (shortSignature hash f.name (f.inputs.map (·.kind)) ++ encodeArgsWith lowWord toks (f.inputs.map (·.kind))) := by
    simp only [Function.encodeInput, Function.inputParamTypes, hty, Res.ok_bind, h]; rfl
  obtain ⟨e', h3, h4⟩ := C19_selector hash .release f _ _ e
  rw [h] at h3; cases h3
  rw [e, h4]

/-! ## C55 in debug builds -/

/-- **C55**, debug builds, exactly: the generated `encode_input` panics if and only if the encoding of the arguments has 4 GiB or
more (no single byte string of 128 GiB); otherwise it returns what it returns in release builds. -/
theorem C55_debug_exactly (hash : Bytes → Word) (f : Function) (args : RustArgs (f.inputs.map (·.kind)))
    (hp : payloadsBelowAll (2 ^ 37 - 63) (toTokens (f.inputs.map (·.kind)) args) = true) :
    (genEncodeInput hash .debug f args = .panic ↔ 2 ^ 32 ≤ sizeAll (toTokens (f.inputs.map (·.kind)) args)) ∧
    (genEncodeInput hash .debug f args ≠ .panic → genEncodeInput hash .debug f args = genEncodeInput hash .release f args) := by
  have ht := typesCheck_of_valuesOf (haveTypes_valuesOf _ _ (haveTypes_toTokens _ args))
  have key : ∀ prof, genEncodeInput hash prof f args =
      (encode prof (toTokens (f.inputs.map (·.kind)) args) >>= fun bs =>
        .ok (shortSignature hash f.name (f.inputs.map (·.kind)) ++ bs)).expect := by
    intro prof
    rw [genEncodeInput, genFunction_encodeInput]
    simp only [Function.encodeInput, Function.inputParamTypes, ht, Res.ok_bind]; rfl
  have hnever := (C67_never_error .debug (toTokens (f.inputs.map (·.kind)) args)).1
  rw [← C67_debug_overflow _ hp, key, key]
  rcases he : encode .debug (toTokens (f.inputs.map (·.kind)) args) with bs | x | _
  · refine ⟨?_, fun _ => ?_⟩
    · rw [he]
      constructor
      · intro h; cases h
      · intro h; cases h
    · rw [C66_encode _ (by rw [he]; simp), he]
  · exact absurd he (hnever x)
  · rw [he]
    exact ⟨⟨fun _ => rfl, fun _ => rfl⟩, fun h => absurd rfl h⟩

/-! ## C63 in debug builds -/

/-- converting a well-typed token in a debug build -/
theorem convertToken_debug (hash : Bytes → Word) (tok : Token) (k : ParamType) (hv : valueOf tok k = true)
    (hp : payloadsBelowAll (2 ^ 37 - 63) [tok] = true) :
    (2 ^ 32 ≤ sizeAll [tok] → convertToken hash .debug tok k = .panic) ∧
    (sizeAll [tok] < 2 ^ 32 → ∃ w, convertToken hash .debug tok k = .ok w) := by
  have ht : Token.typeCheck tok k = .ok true := by rw [typeCheck_eq _ _ (valueOf_arity _ _ hv), hv]
  constructor
  · intro h
    rw [convertToken, ht, Res.ok_bind, (C67_debug_overflow _ hp).2 h]; rfl
  · intro h
    obtain ⟨bs, hb, -⟩ := C67_size .debug [tok] h
    rw [convertToken, ht, Res.ok_bind, hb]
    simp only [Bool.not_true, Bool.false_eq_true, if_false, Res.ok_bind]
    split <;> exact ⟨_, rfl⟩

theorem convertTokens_debug (hash : Bytes → Word) (k : ParamType) : ∀ (l : List Token), (∀ t ∈ l, valueOf t k = true) →
    (∀ t ∈ l, payloadsBelowAll (2 ^ 37 - 63) [t] = true) →
    ((∃ t ∈ l, 2 ^ 32 ≤ sizeAll [t]) → convertTokens hash .debug k l = .panic) ∧
    ((∀ t ∈ l, sizeAll [t] < 2 ^ 32) → ∃ ws, convertTokens hash .debug k l = .ok ws)
  | [], _, _ => ⟨(fun ⟨t, h, _⟩ => by cases h), fun _ => ⟨[], rfl⟩⟩
  | t :: l, hv, hp => by
    obtain ⟨h1, h2⟩ := convertToken_debug hash t k (hv t (by simp)) (hp t (by simp))
    obtain ⟨h3, h4⟩ := convertTokens_debug hash k l (fun t h => hv t (by simp [h])) (fun t h => hp t (by simp [h]))
    constructor
    · rintro ⟨t', hm, hs⟩
      by_cases h : 2 ^ 32 ≤ sizeAll [t]
      · rw [convertTokens, h1 h]; rfl
      · obtain ⟨w, hw⟩ := h2 (by omega)
        rw [convertTokens, hw, Res.ok_bind]
        rcases List.mem_cons.1 hm with rfl | hm
        · exact absurd hs h
        · rw [h3 ⟨t', hm, hs⟩]; rfl
    · intro h
      obtain ⟨w, hw⟩ := h2 (h t (by simp))
      obtain ⟨ws, hws⟩ := h4 (fun t' h' => h t' (by simp [h']))
      exact ⟨w :: ws, by rw [convertTokens, hw, Res.ok_bind, hws]; rfl⟩

theorem convertTopic_debug (hash : Bytes → Word) (topic : Topic Token) (k : Option ParamType) (hw : ¬ WrongTopic topic k)
    (hp : ∀ t ∈ tokensOf topic, payloadsBelowAll (2 ^ 37 - 63) [t] = true) :
    ((∃ t ∈ tokensOf topic, 2 ^ 32 ≤ sizeAll [t]) → convertTopic hash .debug topic k = .panic) ∧
    ((∀ t ∈ tokensOf topic, sizeAll [t] < 2 ^ 32) → ∃ w, convertTopic hash .debug topic k = .ok w) := by
  cases topic with
  | any => exact ⟨(fun ⟨t, h, _⟩ => by cases h), fun _ => ⟨_, rfl⟩⟩
  | this tok =>
    cases k with
    | none => exact absurd ⟨by simp, Or.inl rfl⟩ hw
    | some k =>
      have hv : valueOf tok k = true := by
        by_contra h
        exact hw ⟨by simp, Or.inr ⟨k, rfl, tok, by simp [tokensOf], by simpa using h⟩⟩
      obtain ⟨h1, h2⟩ := convertToken_debug hash tok k hv (hp tok (by simp [tokensOf]))
      constructor
      · rintro ⟨t, hm, hs⟩
        simp only [tokensOf, List.mem_singleton] at hm; subst hm
        rw [convertTopic]; simp only [h1 hs]; rfl
      · intro h
        obtain ⟨w, e⟩ := h2 (h tok (by simp [tokensOf]))
        exact ⟨.this w, by rw [convertTopic]; simp only [e]; rfl⟩
  | oneOf l =>
    cases k with
    | none => exact absurd ⟨by simp, Or.inl rfl⟩ hw
    | some k =>
      have hv : ∀ t ∈ l, valueOf t k = true := by
        intro t ht
        by_contra h
        exact hw ⟨by simp, Or.inr ⟨k, rfl, t, ht, by simpa using h⟩⟩
      obtain ⟨h1, h2⟩ := convertTokens_debug hash k l hv hp
      constructor
      · intro hs
        rw [convertTopic]; simp only [h1 hs]; rfl
      · intro h
        obtain ⟨w, e⟩ := h2 h
        exact ⟨.oneOf w, by rw [convertTopic]; simp only [e]; rfl⟩

/-- the tokens a filter constrains -/
def constrained (raw : RawTopicFilter) : List Token := tokensOf raw.topic0 ++ tokensOf raw.topic1 ++ tokensOf raw.topic2

/-- **C63, C38**: `Event::filter` in a debug build, for topics that are not wrong. -/
theorem filter_debug (hash : Bytes → Word) (e : Event) (raw : RawTopicFilter)
    (h0 : ¬ WrongTopic raw.topic0 (indexedKinds e)[0]?) (h1 : ¬ WrongTopic raw.topic1 (indexedKinds e)[1]?)
    (h2 : ¬ WrongTopic raw.topic2 (indexedKinds e)[2]?)
    (hp : ∀ t ∈ constrained raw, payloadsBelowAll (2 ^ 37 - 63) [t] = true) :
    ((∃ t ∈ constrained raw, 2 ^ 32 ≤ sizeAll [t]) → e.filter hash .debug raw = .panic) ∧
    ((∀ t ∈ constrained raw, sizeAll [t] < 2 ^ 32) → ∃ f, e.filter hash .debug raw = .ok f) := by
  have hk : (e.indexedParams true).map (·.kind) = indexedKinds e := by
    unfold indexedKinds Event.indexedParams
    congr 2; funext p; cases p.indexed <;> rfl
  have c0 := convertTopic_debug hash raw.topic0 _ h0 (fun t h => hp t (by simp [constrained, h]))
  have c1 := convertTopic_debug hash raw.topic1 _ h1 (fun t h => hp t (by simp [constrained, h]))
  have c2 := convertTopic_debug hash raw.topic2 _ h2 (fun t h => hp t (by simp [constrained, h]))
  have cases3 : ∀ (topic : Topic Token), (∃ t ∈ tokensOf topic, 2 ^ 32 ≤ sizeAll [t]) ∨ (∀ t ∈ tokensOf topic, sizeAll [t] < 2 ^ 32) := by
    intro topic
    by_cases h : ∃ t ∈ tokensOf topic, 2 ^ 32 ≤ sizeAll [t]
    · exact .inl h
    · right; intro t ht; by_contra hc; exact h ⟨t, ht, by omega⟩
  constructor
  · rintro ⟨t, hm, hs⟩
    have hseq : ∀ (g : Topic Word → Topic Word → Topic Word → TopicFilter),
        (convertTopic hash .debug raw.topic0 (indexedKinds e)[0]? >>= fun a =>
          convertTopic hash .debug raw.topic1 (indexedKinds e)[1]? >>= fun b =>
            convertTopic hash .debug raw.topic2 (indexedKinds e)[2]? >>= fun c => Res.ok (g a b c)) = .panic := by
      intro g
      rcases cases3 raw.topic0 with hb | hs0
      · rw [c0.1 hb]; rfl
      obtain ⟨a, ea⟩ := c0.2 hs0
      rw [ea, Res.ok_bind]
      rcases cases3 raw.topic1 with hb | hs1
      · rw [c1.1 hb]; rfl
      obtain ⟨b, eb⟩ := c1.2 hs1
      rw [eb, Res.ok_bind]
      rcases cases3 raw.topic2 with hb | hs2
      · rw [c2.1 hb]; rfl
      simp only [constrained, List.mem_append] at hm
      rcases hm with (hm | hm) | hm
      · exact absurd (hs0 t hm) (by omega)
      · exact absurd (hs1 t hm) (by omega)
      · exact absurd (hs2 t hm) (by omega)
    rw [Event.filter, hk]
    cases e.anonymous
    · exact hseq fun a b c => { topic0 := .this (e.signature hash), topic1 := a, topic2 := b, topic3 := c }
    · exact hseq fun a b c => { topic0 := a, topic1 := b, topic2 := c, topic3 := .any }
  · intro h
    obtain ⟨a, ea⟩ := c0.2 (fun t ht => h t (by simp [constrained, ht]))
    obtain ⟨b, eb⟩ := c1.2 (fun t ht => h t (by simp [constrained, ht]))
    obtain ⟨c, ec⟩ := c2.2 (fun t ht => h t (by simp [constrained, ht]))
    rw [Event.filter, hk]
    cases e.anonymous <;> simp only [ea, eb, ec, Res.ok_bind, if_true, Bool.false_eq_true, if_false] <;> exact ⟨_, rfl⟩

/-- **C63**, debug builds, exactly: the generated `filter` panics if and only if one of the constrained values has an encoding of
4 GiB or more (no single byte string of 128 GiB); otherwise it returns what it returns in release builds. -/
theorem C63_filter_debug_exactly (camel : Str → Str) (hash : Bytes → Word) (e : Event)
    (args : FilterArgs ((e.indexedParams true).map (·.kind)))
    (hp : ∀ t ∈ constrained (rawOfTopics (filterTopics ((e.indexedParams true).map (·.kind)) args)),
      payloadsBelowAll (2 ^ 37 - 63) [t] = true) :
    (genFilter camel hash .debug e args = .panic ↔
      ∃ t ∈ constrained (rawOfTopics (filterTopics ((e.indexedParams true).map (·.kind)) args)), 2 ^ 32 ≤ sizeAll [t]) ∧
    (genFilter camel hash .debug e args ≠ .panic → genFilter camel hash .debug e args = genFilter camel hash .release e args) := by
  have hk : indexedKinds (genEvent camel e) = (e.indexedParams true).map (·.kind) := by
    unfold indexedKinds Event.indexedParams genEvent
    congr 2; funext p; cases p.indexed <;> rfl
  have hw : ∀ i : Nat, ¬ WrongTopic ((filterTopics ((e.indexedParams true).map (·.kind)) args)[i]?.getD .default)
      (indexedKinds (genEvent camel e))[i]? := by
    intro i; rw [hk]; exact filterTopics_notWrong _ args i
  obtain ⟨h1, h2⟩ := filter_debug hash (genEvent camel e) (rawOfTopics (filterTopics ((e.indexedParams true).map (·.kind)) args))
    (by exact hw 0) (by exact hw 1) (by exact hw 2) hp
  by_cases hb : ∃ t ∈ constrained (rawOfTopics (filterTopics ((e.indexedParams true).map (·.kind)) args)), 2 ^ 32 ≤ sizeAll [t]
  · have hpanic : genFilter camel hash .debug e args = .panic := by rw [genFilter, h1 hb]; rfl
    exact ⟨⟨fun _ => hb, fun _ => hpanic⟩, fun h => absurd hpanic h⟩
  · obtain ⟨f, hf⟩ := h2 (fun t ht => by by_contra hc; exact hb ⟨t, ht, by omega⟩)
    have hok : genFilter camel hash .debug e args = .ok f := by rw [genFilter, hf]; rfl
    refine ⟨⟨fun h => ?_, fun h => absurd h hb⟩, fun _ => ?_⟩
    · rw [hok] at h; cases h
    · rw [hok, genFilter, C66_filter hash _ _ (by rw [hf]; simp), hf]; rfl

example : constrained { topic0 := .oneOf [.bytes [1], .bytes []], topic1 := .this (.bool true) } = [.bytes [1], .bytes [], .bool true] ∧
    sizeAll [Token.bytes [1]] = 96 ∧ payloadsBelowAll (2 ^ 37 - 63) [Token.bytes [1]] = true := by decide

end Ethabi.Props

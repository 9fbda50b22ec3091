import Verif.Props.Derive
/-! # Property C54: every outcome of the generated `parse_log` -/
namespace Ethabi.Props
open Spec

theorem collectAll_ok {α β : Type} (f : α → Res β) (g : β → α) : ∀ (l : List α) (bs : List β),
    (∀ a ∈ l, ∀ b, f a = .ok b → a = g b) → collectAll f l = .ok bs → l = bs.map g
  | [], bs, _, h => by cases h; rfl
  | a :: l, bs, hf, h => by
    simp only [collectAll, Res.bind_eq_ok, Res.ok.injEq] at h
    obtain ⟨b, h1, bs', h2, rfl⟩ := h
    rw [List.map_cons, ← hf a List.mem_cons_self b h1,
      ← collectAll_ok f g l bs' (fun x hx => hf x (List.mem_cons_of_mem _ hx)) h2]

/-- a conversion that succeeds is the inverse of `to_token` -/
theorem fromToken_ok : ∀ (t : ParamType) (tok : Token) (v : Rust t), fromToken t tok = .ok v → tok = toToken t v
  | .address, tok, v, h => by
    simp only [fromToken] at h
    cases tok with
    | address a => cases h; rfl
    | _ => cases h
  | .bytes, tok, v, h => by
    simp only [fromToken] at h
    cases tok with
    | bytes a => cases h; rfl
    | _ => cases h
  | .int _, tok, v, h => by
    simp only [fromToken] at h
    cases tok with
    | int a => cases h; rfl
    | _ => cases h
  | .uint _, tok, v, h => by
    simp only [fromToken] at h
    cases tok with
    | uint a => cases h; rfl
    | _ => cases h
  | .bool, tok, v, h => by
    simp only [fromToken] at h
    cases tok with
    | bool a => cases h; rfl
    | _ => cases h
  | .string, tok, v, h => by
    simp only [fromToken] at h
    cases tok with
    | string a => cases h; rfl
    | _ => cases h
  | .fixedBytes n, tok, v, h => by
    simp only [fromToken] at h
    cases tok with
    | fixedBytes a =>
      change copyFromSlice n a = .ok v at h
      unfold copyFromSlice at h
      split at h
      · cases h; rfl
      · cases h
    | _ => cases h
  | .array t, tok, v, h => by
    simp only [fromToken] at h
    cases tok with
    | array l =>
      change collectAll (fromToken t) l = .ok v at h
      exact congrArg Token.array (collectAll_ok (fromToken t) (toToken t) l v (fun a _ b hb => fromToken_ok t a b hb) h)
    | _ => cases h
  | .fixedArray _ _, _, _, h => by cases h
  | .tuple _, _, _, h => by cases h

theorem fromTokens_iff (ts : List ParamType) (hg : ∀ t ∈ ts, generated t = true) (toks : List Token) (as : RustArgs ts)
    (hl : toks.length = ts.length) : fromTokens ts toks = .ok as ↔ toks = toTokens ts as := by
  constructor
  · induction ts generalizing toks with
    | nil =>
      intro _
      exact List.length_eq_zero_iff.1 hl
    | cons t ts ih =>
      cases toks with
      | nil => cases hl
      | cons tok toks =>
        intro h
        simp only [fromTokens, Res.bind_eq_ok, Res.ok.injEq] at h
        obtain ⟨a, h1, as', h2, e⟩ := h
        cases e
        rw [toTokens, ← fromToken_ok t tok a h1,
          ← ih (fun x hx => hg x (List.mem_cons_of_mem _ hx)) toks as' (Nat.succ.inj hl) h2]
  · rintro rfl
    exact fromTokens_toTokens ts hg as

/-- **C54, exactly.** For every log and every event of supported types, whatever its names: the generated `parse_log` returns
an error exactly if the dynamic one does, and then the same; it returns a struct exactly if the dynamic one reports the
values of its fields in order; and it panics exactly if the dynamic one does or reports values that are not of the declared
types. -/
theorem C54_parse_log_exactly (camel : Str → Str) (hash : Bytes → Word) (prof : Profile) (e : Event) (log : RawLog)
    (hg : ∀ p ∈ e.inputs, generated p.kind = true) :
    (∀ x, genParseLog camel hash prof e log = .err x ↔
      Event.parseLog hash prof { e with name := camel e.name } log = .err x) ∧
    (∀ as, genParseLog camel hash prof e log = .ok as ↔
      ∃ l, Event.parseLog hash prof { e with name := camel e.name } log = .ok l ∧
        l.params.map (·.value) = toTokens (e.inputs.map (·.kind)) as) ∧
    (genParseLog camel hash prof e log = .panic ↔
      Event.parseLog hash prof { e with name := camel e.name } log = .panic ∨
      ∃ l, Event.parseLog hash prof { e with name := camel e.name } log = .ok l ∧
        haveTypes (l.params.map (·.value)) (e.inputs.map (·.kind)) = false) := by
  have hg' : ∀ t ∈ e.inputs.map (·.kind), generated t = true := by
    intro t ht
    obtain ⟨p, hp, rfl⟩ := List.mem_map.1 ht
    exact hg p hp
  have hgen : genParseLog camel hash prof e log = (Event.parseLog hash prof { e with name := camel e.name } log >>=
      fun l => fromTokens (e.inputs.map (·.kind)) (l.params.map (·.value))) := rfl
  rw [hgen]
  rcases hl : Event.parseLog hash prof { e with name := camel e.name } log with l | x | _
  · have hlen : (l.params.map (·.value)).length = (e.inputs.map (·.kind)).length := by
      have := congrArg List.length (C35_declaration_order hash prof { e with name := camel e.name } log l hl)
      simpa using this
    rw [Res.ok_bind]
    have hiff := fun as => fromTokens_iff _ hg' _ as hlen
    refine ⟨fun x => ⟨fun h => absurd h (fromTokens_noErr _ _ x), nofun⟩, fun as => ?_, ?_⟩
    · rw [hiff as]
      exact ⟨fun h => ⟨l, rfl, h⟩, fun ⟨l', e', h⟩ => by cases e'; exact h⟩
    · constructor
      · intro h
        refine Or.inr ⟨l, rfl, ?_⟩
        cases ht : haveTypes (l.params.map (·.value)) (e.inputs.map (·.kind)) with
        | false => rfl
        | true =>
          obtain ⟨as, h1, _⟩ := fromTokens_of_haveTypes _ hg' _ ht
          rw [h1] at h; cases h
      · rintro (h | ⟨l', e', h⟩)
        · cases h
        · cases e'
          rcases hf : fromTokens (e.inputs.map (·.kind)) (l.params.map (·.value)) with as | x | _
          · rw [(hiff as).1 hf, haveTypes_toTokens] at h; cases h
          · exact absurd hf (fromTokens_noErr _ _ x)
          · exact hf
  · refine ⟨fun y => ⟨fun h => by cases h; rfl, fun h => by cases h; rfl⟩, fun as => ⟨nofun, nofun⟩, ⟨nofun, nofun⟩⟩
  · refine ⟨fun y => ⟨nofun, nofun⟩, fun as => ⟨nofun, nofun⟩, ⟨fun _ => Or.inl rfl, fun _ => rfl⟩⟩

/-- `event E(bool x, bool x)`: both fields get the second value, without a panic; `event E(bool x, uint8 x)` panics -/
example (camel : Str → Str) (prof : Profile) :
    (∃ as, genParseLog camel constHash prof ⟨lit "E", [⟨lit "x", .bool, false⟩, ⟨lit "x", .bool, false⟩], true⟩
      { topics := [], data := word 1 ++ word 0 } = .ok as ∧ toTokens [.bool, .bool] as = [.bool false, .bool false]) ∧
    genParseLog camel constHash prof dupEvent { topics := [], data := word 1 ++ word 9 } = .panic := by
  refine ⟨?_, C54_counterexample_unnamed camel prof⟩
  refine ⟨(false, false, ()), (C54_parse_log_exactly camel constHash prof _ _ (by decide)).2.1 _ |>.2
    ⟨{ params := [⟨lit "x", .bool false⟩, ⟨lit "x", .bool false⟩] }, ?_, rfl⟩, rfl⟩
  show Event.parseLog constHash prof ⟨camel (lit "E"), _, true⟩ _ = _
  have h : ∀ n, Event.parseLog constHash prof ⟨n, [⟨lit "x", .bool, false⟩, ⟨lit "x", .bool, false⟩], true⟩
      { topics := [], data := word 1 ++ word 0 } = Event.parseLog constHash prof ⟨[], [⟨lit "x", .bool, false⟩, ⟨lit "x", .bool, false⟩], true⟩
      { topics := [], data := word 1 ++ word 0 } := fun _ => rfl
  rw [h]
  cases prof <;> decide +kernel

end Ethabi.Props

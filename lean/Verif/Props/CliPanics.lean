import Verif.Props.CliExact
import Verif.Props.Crash
/-! # C91: exactly when the commands of the tool panic -/
namespace Ethabi.Props
open Spec TokenText Schema Crash

/-! ## The statement -/

/-- the file holds JSON whose loading panics (C90) -/
def LoadCrashes (file : Str → Option (Option Json)) (path : Str) : Prop :=
  ∃ j, file path = some (some j) ∧ CrashesAt DenotesOperation CrashesOperation j

/-- a text among the values breaks (C81) and all before it denote values -/
def BreaksAmong (m : Tokenizer) (l : List (ParamType × Str)) : Prop :=
  ∃ before p s after toks, l = before ++ (p, s) :: after ∧ List.Forall₂ (fun x t => denotes m x.1 x.2 t) before toks ∧
    breaks m p s

/-- the arguments at the even places, the arguments at the odd places -/
def typeTexts : List Str → List Str
  | x :: _ :: rest => x :: typeTexts rest
  | _ => []

def valueTexts : List Str → List Str
  | _ :: y :: rest => y :: valueTexts rest
  | _ => []

/-! ## Lemmas -/

theorem openAbi_noPanic (file : Str → Option (Option Json)) (path : Str) : openAbi file path ≠ .panic := by
  unfold openAbi
  split <;> simp

theorem loadFunction_panic (j : Json) (s : Str) : loadFunction j s = .panic ↔ deContract j = .panic := by
  constructor
  · intro h
    by_contra hc
    exact (C51_no_unreachable (fun _ => ⟨List.replicate 32 0, by simp⟩) j s hc).1 h
  · intro h; rw [loadFunction, h]; rfl

theorem loadEvent_panic (hash : Bytes → Word) (j : Json) (s : Str) : loadEvent hash j s = .panic ↔ deContract j = .panic := by
  constructor
  · intro h
    by_contra hc
    exact (C51_no_unreachable hash j s hc).2 h
  · intro h; rw [loadEvent, h]; rfl

theorem loadCrashes_iff (file : Str → Option (Option Json)) (path : Str) :
    LoadCrashes file path ↔ ∃ j, openAbi file path = .ok j ∧ deContract j = .panic := by
  simp only [LoadCrashes, openAbi_iff, contract_panic]

theorem parseTokens_panic (lenient : Bool) : ∀ l : List (ParamType × Str),
    parseTokens lenient l = .panic ↔ BreaksAmong (if lenient then .lenient else .strict) l
  | [] => by
    rw [parseTokens]
    simp only [reduceCtorEq, false_iff]
    rintro ⟨b, p, s, a, toks, h, -⟩
    simp at h
  | (p, s) :: l => by
    rw [parseTokens]
    simp only [bind_eq_panic, parseTokens_panic lenient l, reduceCtorEq, and_false, exists_false, or_false, tokenizerOf,
      C81_panics_exactly, C81_accepts_exactly]
    constructor
    · rintro (h | ⟨t, h1, b, q, v, a, toks, rfl, h2, h3⟩)
      · exact ⟨[], p, s, l, [], rfl, .nil, h⟩
      · exact ⟨(p, s) :: b, q, v, a, t :: toks, rfl, .cons h1 h2, h3⟩
    · rintro ⟨b, q, v, a, toks, h1, h2, h3⟩
      cases h2 with
      | nil =>
        simp only [List.nil_append, List.cons.injEq, Prod.mk.injEq] at h1
        obtain ⟨⟨rfl, rfl⟩, rfl⟩ := h1
        exact .inl h3
      | cons h4 h5 =>
        simp only [List.cons_append, List.cons.injEq] at h1
        obtain ⟨rfl, rfl⟩ := h1
        exact .inr ⟨_, h4, _, q, v, a, _, rfl, h5, h3⟩

theorem parseHashes_noPanic (parseHash : Str → Res Word) (hp : ∀ s, parseHash s ≠ .panic) : ∀ ss, parseHashes parseHash ss ≠ .panic
  | [] => by simp [parseHashes]
  | s :: ss => by
    rw [parseHashes]
    simp [bind_eq_panic, hp, parseHashes_noPanic parseHash hp ss]

theorem readPairs_split : ∀ args : List Str, args.length % 2 = 0 →
    readPairs args = (readAll (typeTexts args) >>= fun ts => .ok (ts.zip (valueTexts args)))
  | [], _ => rfl
  | [_], h => by simp at h
  | x :: y :: rest, h => by
    rw [readPairs, typeTexts, valueTexts, readAll, readPairs_split rest (by simp at h; omega)]
    cases read x with
    | ok t => cases readAll (typeTexts rest) <;> rfl
    | _ => rfl

/-! ## The theorems -/

/-- **C91**, `decode function`: it panics exactly if loading the file does, or if the data are hexadecimal and overrun a dynamic
`T[k]` among the outputs of the function. -/
theorem C91_decode_function (hash : Bytes → Word) (parseHash : Str → Res Word) (prof : Profile)
    (file : Str → Option (Option Json)) (path name data : Str)
    (hn : ∀ ops f, Declares file path ops → PicksFunction ops name f → narrowAll (f.outputs.map (·.kind)) = true)
    (hd : data.length < 2 ^ 63) :
    execute hash parseHash prof file (.decodeFunction path name data) = .panic ↔ LoadCrashes file path ∨
      ∃ ops f bs, Declares file path ops ∧ PicksFunction ops name f ∧ hexText data bs ∧
        overrunsAny (f.outputs.map (·.kind)) bs 0 := by
  have key : ∀ (f : Function) (bs : Bytes), narrowAll (f.outputs.map (·.kind)) = true → hexDecode data = .ok bs →
      ((f.decodeOutput prof bs >>= fun tokens => if f.outputs.length ≠ tokens.length then Res.panic
        else Res.ok (join (lit "\n") (typedLines (f.outputs.map (·.kind)) tokens))) = .panic ↔
      overrunsAny (f.outputs.map (·.kind)) bs 0) := by
    intro f bs h1 h2
    have hl : bs.length < 2 ^ 63 := by have := (hexDecode_iff.1 h2).1; omega
    rw [← C06_panics_exactly prof _ bs h1 hl, Function.decodeOutput, Function.outputParamTypes, bind_eq_panic]
    constructor
    · rintro (h | ⟨toks, h3, h4⟩)
      · exact h
      · have := (C74_decodes_exactly prof _ bs toks h1 hl).1 h3
        rw [if_neg (by have := readsAll_length _ _ _ _ this.2; simp at this; simp [this])] at h4
        cases h4
    · exact .inl
  rw [execute, loadCrashes_iff]
  simp only [cliDecodeOutput, decodeOutputOf, bind_eq_panic, openAbi_noPanic, false_or, loadFunction_panic, hexDecode_noPanic]
  constructor
  · rintro ⟨j, h1, h2 | ⟨f, h2, bs, h3, h4⟩⟩
    · exact .inl ⟨j, h1, h2⟩
    · obtain ⟨ops, f', h5, h6, rfl⟩ := (openFunction file path name (fun g => g = f)).1 ⟨j, h1, f, h2, rfl⟩
      refine .inr ⟨ops, f', bs, h5, h6, hexDecode_iff.1 h3, (key f' bs (hn _ _ h5 h6) h3).1 ?_⟩
      rw [bind_eq_panic]; exact h4
  · rintro (⟨j, h1, h2⟩ | ⟨ops, f, bs, h5, h6, h3, h4⟩)
    · exact ⟨j, h1, .inl h2⟩
    · obtain ⟨j, h1, f', h2, rfl⟩ := (openFunction file path name (fun g => g = f)).2 ⟨ops, f, h5, h6, rfl⟩
      refine ⟨j, h1, .inr ⟨f', h2, bs, hexDecode_iff.2 h3, ?_⟩⟩
      have := (key f' bs (hn _ _ h5 h6) (hexDecode_iff.2 h3)).2 h4
      rw [bind_eq_panic] at this; exact this

/-- **C91**, `decode log`: it panics exactly if loading the file does, or if topics and data can be read, the topics are in order
and the data overrun a dynamic `T[k]` among the parameters that are not indexed (C79). -/
theorem C91_decode_log (hash : Bytes → Word) (parseHash : Str → Res Word) (prof : Profile)
    (file : Str → Option (Option Json)) (path name data : Str) (topics : List Str)
    (hn : ∀ ops e, Declares file path ops → PicksEvent hash ops name e → ∀ p ∈ e.inputs, narrow p.kind = true)
    (hp : ∀ s, parseHash s ≠ .panic) (ht : topics.length < 2 ^ 58) (hd : data.length < 2 ^ 63) :
    execute hash parseHash prof file (.decodeLog path name topics data) = .panic ↔ LoadCrashes file path ∨
      ∃ ops e ws bs tt, Declares file path ops ∧ PicksEvent hash ops name e ∧
        List.Forall₂ (fun s w => parseHash s = .ok w) topics ws ∧ hexText data bs ∧
        topicsHold hash e.name (e.inputs.map (·.kind)) e.anonymous (ws.map (·.1)) ((e.inputs.filter (·.indexed)).map (·.kind)) tt ∧
        overrunsAny ((e.inputs.filter (!·.indexed)).map (·.kind)) bs 0 := by
  rw [execute, loadCrashes_iff]
  simp only [cliDecodeLog, decodeLogOf, bind_eq_panic, openAbi_noPanic, false_or, loadEvent_panic, hexDecode_noPanic,
    parseHashes_noPanic parseHash hp, reduceCtorEq, and_false, exists_false, or_false, parseHashes_iff, hexDecode_iff]
  constructor
  · rintro ⟨j, h1, h2 | ⟨e, h2, ws, h3, bs, h4, h5⟩⟩
    · exact .inl ⟨j, h1, h2⟩
    · obtain ⟨ops, e', h6, h7, rfl⟩ := (openEvent hash file path name (fun g => g = e)).1 ⟨j, h1, e, h2, rfl⟩
      obtain ⟨⟨tt, h8⟩, h9⟩ := (C79_panics_exactly hash prof e' ⟨ws, bs⟩ (hn _ _ h6 h7) (by have := h3.length_eq; simp; omega)
        (by have := h4.1; simp; omega)).1 h5
      exact .inr ⟨ops, e', ws, bs, tt, h6, h7, h3, h4, h8, h9⟩
  · rintro (⟨j, h1, h2⟩ | ⟨ops, e, ws, bs, tt, h6, h7, h3, h4, h8, h9⟩)
    · exact ⟨j, h1, .inl h2⟩
    · obtain ⟨j, h1, e', h2, rfl⟩ := (openEvent hash file path name (fun g => g = e)).2 ⟨ops, e, h6, h7, rfl⟩
      exact ⟨j, h1, .inr ⟨e', h2, ws, h3, bs, h4, (C79_panics_exactly hash prof e' ⟨ws, bs⟩ (hn _ _ h6 h7)
        (by have := h3.length_eq; simp; omega) (by have := h4.1; simp; omega)).2 ⟨⟨tt, h8⟩, h9⟩⟩⟩

/-- **C91**, `encode params`: it panics exactly if the number of arguments is odd, or reading a type text panics before another
is refused, or all types can be read and a value text breaks after texts that denote values, or everything can be read and
`encode` panics. -/
theorem C91_encode_params (hash : Bytes → Word) (parseHash : Str → Res Word) (prof : Profile)
    (file : Str → Option (Option Json)) (args : List Str) (lenient : Bool) :
    execute hash parseHash prof file (.encodeParams args lenient) = .panic ↔ args.length % 2 = 1 ∨
      (∃ before s after ts, typeTexts args = before ++ s :: after ∧ ReadAs before ts ∧ read s = .panic) ∨
      (∃ ts, ReadAs (typeTexts args) ts ∧ BreaksAmong (if lenient then .lenient else .strict) (ts.zip (valueTexts args))) ∨
      ∃ rows : List Row, args = (rows.flatMap fun r => [r.type, r.value]) ∧ (∀ r ∈ rows, r.Stands lenient) ∧
        encode prof (rows.map (·.token)) = .panic := by
  rw [execute, cliEncodeParams]
  by_cases ha : args.length % 2 = 0
  · rw [if_neg (by omega), ← readAll_panic]
    have hodd : ¬ args.length % 2 = 1 := by omega
    simp only [hodd, false_or, ← readAll_iff, ← parseTokens_panic, bind_eq_panic, reduceCtorEq, and_false, exists_false, or_false]
    have hp : readPairs args = .panic ↔ readAll (typeTexts args) = .panic := by
      rw [readPairs_split args ha]
      simp [bind_eq_panic]
    have ho : ∀ ps, readPairs args = .ok ps ↔ ∃ ts, readAll (typeTexts args) = .ok ts ∧ ps = ts.zip (valueTexts args) := by
      intro ps
      rw [readPairs_split args ha]
      simp only [Res.bind_eq_ok, Res.ok.injEq]
      constructor
      · rintro ⟨ts, h1, rfl⟩; exact ⟨ts, h1, rfl⟩
      · rintro ⟨ts, h1, rfl⟩; exact ⟨ts, h1, rfl⟩
    rw [hp]
    constructor
    · rintro (h | ⟨ps, h1, h2 | ⟨toks, h2, h3⟩⟩)
      · exact .inl h
      · obtain ⟨ts, h4, rfl⟩ := (ho ps).1 h1
        exact .inr (.inl ⟨ts, h4, h2⟩)
      · obtain ⟨rows, e1, e2, rfl⟩ := (readPairs_iff lenient args toks ha).1 ⟨ps, h1, h2⟩
        exact .inr (.inr ⟨rows, e1, e2, h3⟩)
    · rintro (h | ⟨ts, h1, h2⟩ | ⟨rows, e1, e2, h3⟩)
      · exact .inl h
      · exact .inr ⟨_, (ho _).2 ⟨ts, h1, rfl⟩, .inl h2⟩
      · obtain ⟨ps, h1, h2⟩ := (readPairs_iff lenient args _ ha).2 ⟨rows, e1, e2, rfl⟩
        exact .inr ⟨ps, h1, .inr ⟨_, h2, h3⟩⟩
  · rw [if_pos ha]
    simp only [true_iff]
    exact .inl (by omega)

/-- **C91**, `encode function`: it panics exactly if loading the file does, or a value text breaks after texts that denote values,
or there are enough values, all denote, and `encode` panics. -/
theorem C91_encode_function (hash : Bytes → Word) (parseHash : Str → Res Word) (prof : Profile)
    (file : Str → Option (Option Json)) (path name : Str) (values : List Str) (lenient : Bool) :
    execute hash parseHash prof file (.encodeFunction path name values lenient) = .panic ↔ LoadCrashes file path ∨
      ∃ ops f, Declares file path ops ∧ PicksFunction ops name f ∧
        (BreaksAmong (if lenient then .lenient else .strict) ((f.inputs.map (·.kind)).zip values) ∨
        (f.inputs.length ≤ values.length ∧ ∃ toks,
          List.Forall₂ (fun x t => denotes (if lenient then .lenient else .strict) x.1 x.2 t)
            ((f.inputs.map (·.kind)).zip values) toks ∧ encode prof toks = .panic)) := by
  have key : ∀ (f : Function) (toks : List Token), List.Forall₂ (fun x t => denotes (if lenient then .lenient else .strict) x.1 x.2 t)
      ((f.inputs.map (·.kind)).zip values) toks →
      (f.encodeInput hash prof toks = .panic ↔ f.inputs.length ≤ values.length ∧ encode prof toks = .panic) := by
    intro f toks h3
    by_cases hl : f.inputs.length ≤ values.length
    · have hz : (f.inputs.map (·.kind)).zip values = (f.inputs.map (·.kind)).zip (values.take f.inputs.length) := by
        rw [← List.take_append_drop f.inputs.length values]
        conv_lhs => rw [← List.append_nil (f.inputs.map (·.kind)), List.zip_append (by simp; omega)]
        simp
      have hty := C47_args (if lenient then .lenient else .strict) (f.inputs.map (·.kind)) (values.take f.inputs.length) toks
        (by simp; omega) (by
          rw [hz] at h3
          exact h3.imp fun x t h => (C81_accepts_exactly _ _ _ _).2 h)
      rw [(C20_function_outcomes hash prof f toks).2.2 ((C17_accepts_exactly _ _).1 hty), bind_eq_panic]
      simp [hl]
    · have hlen := h3.length_eq
      rw [List.length_zip, List.length_map] at hlen
      have hne : ¬ toks.length = (f.inputs.map (·.kind)).length := by rw [List.length_map]; omega
      simp only [hl, false_and, iff_false]
      rw [Function.encodeInput, Function.inputParamTypes, Token.typesCheck, if_neg (by simpa using fun h => hne (by simpa using h.symm))]
      simp
  rw [execute, loadCrashes_iff]
  simp only [cliEncodeInput, encodeInputOf, bind_eq_panic, openAbi_noPanic, false_or, loadFunction_panic, parseTokens_panic, parseTokens_iff,
    reduceCtorEq, and_false, exists_false, or_false]
  constructor
  · rintro ⟨j, h1, h2 | ⟨f, h2, h3⟩⟩
    · exact .inl ⟨j, h1, h2⟩
    · obtain ⟨ops, f', h5, h6, rfl⟩ := (openFunction file path name (fun g => g = f)).1 ⟨j, h1, f, h2, rfl⟩
      refine .inr ⟨ops, f', h5, h6, ?_⟩
      rcases h3 with h3 | ⟨toks, h3, h4⟩
      · exact .inl h3
      · obtain ⟨h7, h8⟩ := (key f' toks h3).1 h4
        exact .inr ⟨h7, toks, h3, h8⟩
  · rintro (⟨j, h1, h2⟩ | ⟨ops, f, h5, h6, h3⟩)
    · exact ⟨j, h1, .inl h2⟩
    · obtain ⟨j, h1, f', h2, rfl⟩ := (openFunction file path name (fun g => g = f)).2 ⟨ops, f, h5, h6, rfl⟩
      refine ⟨j, h1, .inr ⟨f', h2, ?_⟩⟩
      rcases h3 with h3 | ⟨h7, toks, h3, h8⟩
      · exact .inl h3
      · exact .inr ⟨toks, h3, (key f' toks h3).2 ⟨h7, h8⟩⟩

/-- **C91.** In a release build the encoding commands panic only for what they are given as text: the number of arguments, the
file, type texts and value texts. -/
theorem C91_encode_release (hash : Bytes → Word) (parseHash : Str → Res Word) (file : Str → Option (Option Json)) (lenient : Bool) :
    (∀ args, execute hash parseHash .release file (.encodeParams args lenient) = .panic ↔ args.length % 2 = 1 ∨
      (∃ before s after ts, typeTexts args = before ++ s :: after ∧ ReadAs before ts ∧ read s = .panic) ∨
      (∃ ts, ReadAs (typeTexts args) ts ∧ BreaksAmong (if lenient then .lenient else .strict) (ts.zip (valueTexts args)))) ∧
    (∀ path name values, execute hash parseHash .release file (.encodeFunction path name values lenient) = .panic ↔
      LoadCrashes file path ∨ ∃ ops f, Declares file path ops ∧ PicksFunction ops name f ∧
        BreaksAmong (if lenient then .lenient else .strict) ((f.inputs.map (·.kind)).zip values)) := by
  have he : ∀ toks, encode .release toks ≠ .panic := fun toks h => by
    obtain ⟨bs, hb⟩ := (C67_never_error .release toks).2
    rw [h] at hb; cases hb
  refine ⟨fun args => ?_, fun path name values => ?_⟩
  · rw [C91_encode_params]
    simp only [he, and_false, exists_false, or_false]
  · rw [C91_encode_function]
    simp only [he, and_false, exists_false, or_false]

/-- a file with the function `f(5] a)`, one with that function behind something malformed, and one with `g(string[])` -/
def crashFile (path : Str) : Option (Option Json) :=
  if path = lit "a.json" then some (some (.arr [crashing]))
  else if path = lit "b.json" then some (some (.arr [.null, crashing]))
  else if path = lit "c.json" then some (some (.arr [.obj [(lit "type", .str (lit "function")), (lit "name", .str (lit "g")),
    (lit "inputs", .arr [.obj [(lit "name", .str []), (lit "type", .str (lit "string[]"))]]), (lit "outputs", .arr [])]]))
  else none

/-- loading panics in the first, whatever is asked for, and not in the second -/
example : LoadCrashes crashFile (lit "a.json") ∧ ¬ LoadCrashes crashFile (lit "b.json") := by
  rw [loadCrashes_iff, loadCrashes_iff]
  constructor
  · exact ⟨_, rfl, by decide +kernel⟩
  · rintro ⟨j, h1, h2⟩
    rw [openAbi_iff] at h1
    have e : j = .arr [.null, crashing] := by
      have : crashFile (lit "b.json") = some (some (.arr [.null, crashing])) := rfl
      rw [this] at h1
      exact (Option.some.inj (Option.some.inj h1)).symm
    subst e
    exact absurd h2 (by decide +kernel)

/-- each way of panicking: an odd number of arguments, a type, a value, a function of the third file -/
example : execute prefixHash (fun _ => .ok (prefixHash [])) .release crashFile (.encodeParams [lit "bool"] true) = .panic ∧
    execute prefixHash (fun _ => .ok (prefixHash [])) .release crashFile (.encodeParams [lit "bool", lit "1", lit "5]", lit "1"] true) = .panic ∧
    execute prefixHash (fun _ => .ok (prefixHash [])) .release crashFile (.encodeParams [lit "string[]", lit "[é,é]"] true) = .panic ∧
    execute prefixHash (fun _ => .ok (prefixHash [])) .release crashFile (.encodeParams [lit "bool", lit "2", lit "string[]", lit "[é,é]"] true) =
      .err .invalidData ∧
    execute prefixHash (fun _ => .ok (prefixHash [])) .release crashFile (.encodeFunction (lit "c.json") (lit "g") [lit "[é,é]"] true) = .panic ∧
    execute prefixHash (fun _ => .ok (prefixHash [])) .release crashFile (.decodeFunction (lit "a.json") (lit "?") (lit "?")) = .panic ∧
    execute prefixHash (fun _ => .ok (prefixHash [])) .release crashFile (.decodeLog (lit "b.json") (lit "?") [] (lit "?")) = .err .serdeJson := by
  decide +kernel

end Ethabi.Props

import Verif.Model.CliOn
import Verif.Props.CliExact
import Verif.Props.TargetText
import Verif.Props.TargetJson
import Verif.Props.TargetCalls
import Verif.Props.Capacity
/-! # Property C122: the command line tool on targets with a `usize` of 32 bits -/
namespace Ethabi.Props
open Spec TokenText

/-! ## The statement -/

/-- the text holds a number of 2^32 or more -/
def TooLarge (s : Str) : Prop := ∃ d n, d <:+: s ∧ numberText d n ∧ 2 ^ 32 ≤ n

/-- some type text in the file holds such a number -/
def FileTooLarge (file : Str → Option (Option Json)) (path : Str) : Prop :=
  ∃ j s, file path = some (some j) ∧ HasTypeText s j ∧ TooLarge s

/-- the heads or the tails of the encoding take 64 MiB or more -/
def Large (toks : List Token) : Prop := 2 ^ 26 ≤ headBytes toks ∨ 2 ^ 26 ≤ tailBytes toks

/-- what a 32-bit target can hold, and `bytesN` with `N < 2^30` in what is decoded -/
def FitsTarget (hash : Bytes → Word) (file : Str → Option (Option Json)) : Command → Prop
  | .decodeParams types data => data.length < 2 ^ 32 ∧ ∀ ts, ReadAs types ts → narrow32All ts = true
  | .decodeFunction path name data => data.length < 2 ^ 32 ∧
      ∀ ops f, Declares file path ops → PicksFunction ops name f → narrow32All (f.outputs.map (·.kind)) = true
  | .decodeLog path name topics data => data.length < 2 ^ 32 ∧ topics.length < 2 ^ 26 ∧
      ∀ ops e, Declares file path ops → PicksEvent hash ops name e → ∀ p ∈ e.inputs, narrow32 p.kind = true
  | _ => True

/-- the type is too large for the target: the text of a type, or one in the file, holds a number of 2^32 or more -/
def Refused (file : Str → Option (Option Json)) : Command → Err → Prop
  | .encodeParams args _, e => e = .parseInt ∧ ∃ s ∈ args, TooLarge s
  | .decodeParams types _, e => e = .parseInt ∧ ∃ s ∈ types, TooLarge s
  | .encodeFunction path _ _ _, e => e = .serdeJson ∧ FileTooLarge file path
  | .decodeFunction path _ _, e => e = .serdeJson ∧ FileTooLarge file path
  | .decodeLog path _ _ _, e => e = .serdeJson ∧ FileTooLarge file path

/-- the values to be encoded take 64 MiB or more; the data to be decoded hold a position or an extent of 2^32 or more -/
def Bursts (hash : Bytes → Word) (parseHash : Str → Res Word) (file : Str → Option (Option Json)) : Command → Prop
  | .encodeParams args lenient => ∃ rows : List Row, args = (rows.flatMap fun r => [r.type, r.value]) ∧
      (∀ r ∈ rows, r.Stands lenient) ∧ Large (rows.map (·.token))
  | .encodeFunction path name values lenient => ∃ ops f toks, Declares file path ops ∧ PicksFunction ops name f ∧
      List.Forall₂ (fun x t => denotes (if lenient then .lenient else .strict) x.1 x.2 t)
        ((f.inputs.map (·.kind)).zip values) toks ∧ Large toks
  | .decodeParams types data => ∃ ts bs, ReadAs types ts ∧ hexText data bs ∧ wrapsAny 32 ts bs 0
  | .decodeFunction path name data => ∃ ops f bs, Declares file path ops ∧ PicksFunction ops name f ∧ hexText data bs ∧
      wrapsAny 32 (f.outputs.map (·.kind)) bs 0
  | .decodeLog path name topics data => ∃ ops e ws bs, Declares file path ops ∧ PicksEvent hash ops name e ∧
      List.Forall₂ (fun s w => parseHash s = .ok w) topics ws ∧ hexText data bs ∧
      (∃ tt, topicsHold hash e.name (e.inputs.map (·.kind)) e.anonymous (ws.map (·.1))
        ((e.inputs.filter (·.indexed)).map (·.kind)) tt) ∧
      wrapsAny 32 ((e.inputs.filter (!·.indexed)).map (·.kind)) bs 0

/-- the command decodes -/
def _root_.Ethabi.Command.decodes : Command → Bool
  | .encodeParams .. | .encodeFunction .. => false
  | _ => true

/-! ## The width of 64 bits -/

theorem readPairsOn_64 : ∀ args : List Str, readPairsOn 64 args = readPairs args
  | [] => rfl
  | [_] => rfl
  | x :: y :: rest => by rw [readPairsOn, readPairs, C94_same_code, readPairsOn_64 rest]

theorem readAllOn_64 : ∀ ss : List Str, readAllOn 64 ss = readAll ss
  | [] => rfl
  | s :: ss => by rw [readAllOn, readAll, C94_same_code, readAllOn_64 ss]

/-- The model with the width as a parameter is the model of the other claims for 64 bits. -/
theorem C122_same_code (hash : Bytes → Word) (parseHash : Str → Res Word) (prof : Profile) (file : Str → Option (Option Json))
    (c : Command) : executeOn 64 hash parseHash prof file c = execute hash parseHash prof file c := by
  obtain ⟨h1, -, h2, -, -, h3⟩ := C104_same_code hash prof
  cases c <;> simp only [executeOn, execute, cliEncodeInputOn, cliEncodeInput, encodeInputOf, cliEncodeParamsOn, cliEncodeParams,
    cliDecodeOutputOn, cliDecodeOutput, decodeOutputOf, cliDecodeParamsOn, cliDecodeParams, cliDecodeLogOn, cliDecodeLog,
    decodeLogOf, loadFunctionOn, loadFunction, loadEventOn, loadEvent, C120_same_code, C103_same_code, C87_same_code,
    readPairsOn_64, readAllOn_64, h1, h2, h3]

/-! ## The width of 32 bits -/

theorem readPairsOn_32 : ∀ args : List Str,
    readPairsOn 32 args = readPairs args ∨ (readPairsOn 32 args = .err .parseInt ∧ ∃ s ∈ args, TooLarge s)
  | [] => .inl rfl
  | [_] => .inl rfl
  | x :: y :: rest => by
    rw [readPairsOn, readPairs]
    rcases C94_same_or_refused x with e | ⟨e, d, n, h⟩
    · rw [e]
      cases read x with
      | err _ => exact .inl rfl
      | panic => exact .inl rfl
      | ok t =>
        rcases readPairsOn_32 rest with e' | ⟨e', s, hs, h⟩
        · rw [e']; exact .inl rfl
        · rw [e']; exact .inr ⟨rfl, s, by simp [hs], h⟩
    · rw [e]; exact .inr ⟨rfl, x, by simp, d, n, h⟩

theorem readAllOn_32 : ∀ ss : List Str,
    readAllOn 32 ss = readAll ss ∨ (readAllOn 32 ss = .err .parseInt ∧ ∃ s ∈ ss, TooLarge s)
  | [] => .inl rfl
  | x :: rest => by
    rw [readAllOn, readAll]
    rcases C94_same_or_refused x with e | ⟨e, d, n, h⟩
    · rw [e]
      cases read x with
      | err _ => exact .inl rfl
      | panic => exact .inl rfl
      | ok t =>
        rcases readAllOn_32 rest with e' | ⟨e', s, hs, h⟩
        · rw [e']; exact .inl rfl
        · rw [e']; exact .inr ⟨rfl, s, by simp [hs], h⟩
    · rw [e]; exact .inr ⟨rfl, x, by simp, d, n, h⟩

theorem openOn_32 {α : Type} (file : Str → Option (Option Json)) (path : Str) (k : Contract → Res α) :
    (openAbi file path >>= fun j => deContractOn 32 j >>= k) = (openAbi file path >>= fun j => deContract j >>= k) ∨
    ((openAbi file path >>= fun j => deContractOn 32 j >>= k) = .err .serdeJson ∧ FileTooLarge file path) := by
  cases ho : openAbi file path with
  | err e => left; rw [Res.err_bind, Res.err_bind]
  | panic => left; rw [Res.panic_bind, Res.panic_bind]
  | ok j =>
    simp only [Res.ok_bind]
    rcases C120_same_or_refused j with e | ⟨e, s, h1, h2⟩
    · rw [e]; left; trivial
    · rw [e]
      exact .inr ⟨Res.err_bind .., j, s, (openAbi_iff file path j).1 ho, h1, h2⟩

theorem openFunctionOn_32 {α : Type} (file : Str → Option (Option Json)) (path name : Str) (k : Function → Res α) :
    (openAbi file path >>= fun j => loadFunctionOn 32 j name >>= k) = (openAbi file path >>= fun j => loadFunction j name >>= k) ∨
    ((openAbi file path >>= fun j => loadFunctionOn 32 j name >>= k) = .err .serdeJson ∧ FileTooLarge file path) := by
  simp only [loadFunctionOn, loadFunction, Res.bind_assoc]
  exact openOn_32 file path _

theorem openEventOn_32 {α : Type} (hash : Bytes → Word) (file : Str → Option (Option Json)) (path name : Str) (k : Event → Res α) :
    (openAbi file path >>= fun j => loadEventOn 32 hash j name >>= k) = (openAbi file path >>= fun j => loadEvent hash j name >>= k) ∨
    ((openAbi file path >>= fun j => loadEventOn 32 hash j name >>= k) = .err .serdeJson ∧ FileTooLarge file path) := by
  simp only [loadEventOn, loadEvent, Res.bind_assoc]
  exact openOn_32 file path _

theorem encodeOn_32 (prof : Profile) (toks : List Token) :
    encodeOn 32 prof toks = encode prof toks ∨ (encodeOn 32 prof toks = .panic ∧ Large toks) := by
  by_cases hs : sizeAll toks < 2 ^ 32
  · rw [C103_exact prof toks hs]
    split
    · rename_i h; exact .inr ⟨rfl, h⟩
    · exact .inl rfl
  · have hb := Capacity.bytes_sum toks
    rcases C103_same_or_panic 32 prof toks with e | e
    · exact .inr ⟨e, by unfold Large; omega⟩
    · exact .inl e

theorem encodeInputOn_32 (hash : Bytes → Word) (prof : Profile) (f : Function) (toks : List Token) :
    f.encodeInputOn 32 hash prof toks = f.encodeInput hash prof toks ∨ (f.encodeInputOn 32 hash prof toks = .panic ∧ Large toks) := by
  unfold Function.encodeInputOn Function.encodeInput
  rcases encodeOn_32 prof toks with e | ⟨e, h⟩
  · rw [e]; exact .inl rfl
  · rw [e]
    dsimp only
    cases Token.typesCheck toks f.inputParamTypes with
    | err e => exact .inl rfl
    | panic => exact .inl rfl
    | ok b =>
      cases b with
      | false => exact .inl rfl
      | true => exact .inr ⟨rfl, h⟩

theorem decodeOn_32 (prof : Profile) (ts : List ParamType) (data : Bytes) (hn : narrow32All ts = true) (hd : data.length < 2 ^ 31) :
    decodeOn 32 prof ts data = decode prof ts data ∨
    (decodeOn 32 prof ts data = .panic ∧ decode prof ts data = .err .invalidData ∧ wrapsAny 32 ts data 0) := by
  by_cases h : wrapsAny 32 ts data 0
  · exact .inr ⟨(C87_wraps prof ts data hn hd h).1, (C87_wraps prof ts data hn hd h).2, h⟩
  · exact .inl (C87_otherwise_same prof ts data hn hd h)

/-- **C122.** On a 32-bit target a command does what it does on a 64-bit target, prints the same or reports the same error or panics
alike; or it refuses a type that holds a number of 2^32 or more; or it panics, if it would have to encode 64 MiB, or decodes data
with a position or an extent of 2^32 or more, which a 64-bit target refuses. -/
theorem C122_same_or (hash : Bytes → Word) (parseHash : Str → Res Word) (prof : Profile) (file : Str → Option (Option Json))
    (c : Command) (hc : FitsTarget hash file c) :
    executeOn 32 hash parseHash prof file c = execute hash parseHash prof file c ∨
    (∃ e, executeOn 32 hash parseHash prof file c = .err e ∧ Refused file c e) ∨
    (executeOn 32 hash parseHash prof file c = .panic ∧ Bursts hash parseHash file c ∧
      (c.decodes = true → execute hash parseHash prof file c = .err .invalidData)) := by
  cases c with
  | encodeParams args lenient =>
    simp only [executeOn, execute, cliEncodeParamsOn, cliEncodeParams]
    by_cases ha : args.length % 2 = 0
    · rw [if_neg (by omega), if_neg (by omega)]
      rcases readPairsOn_32 args with e | ⟨e, h⟩
      · rw [e]
        cases hr : readPairs args with
        | err _ => left; simp only [Res.err_bind]
        | panic => left; simp only [Res.panic_bind]
        | ok ps =>
          simp only [Res.ok_bind]
          cases hp : parseTokens lenient ps with
          | err _ => left; simp only [Res.err_bind]
          | panic => left; simp only [Res.panic_bind]
          | ok toks =>
            simp only [Res.ok_bind]
            rcases encodeOn_32 prof toks with e | ⟨e, h⟩
            · rw [e]; exact .inl rfl
            · rw [e]
              obtain ⟨rows, e1, e2, e3⟩ := (readPairs_iff lenient args toks ha).1 ⟨ps, hr, hp⟩
              exact .inr (.inr ⟨rfl, ⟨rows, e1, e2, e3 ▸ h⟩, fun h => by cases h⟩)
      · rw [e]; exact .inr (.inl ⟨_, rfl, rfl, h⟩)
    · rw [if_pos ha, if_pos ha]; exact .inl rfl
  | encodeFunction path name values lenient =>
    simp only [executeOn, execute, cliEncodeInputOn, cliEncodeInput, encodeInputOf]
    rcases openFunctionOn_32 file path name (fun f =>
      parseTokens lenient ((f.inputs.map (·.kind)).zip values) >>= fun toks => f.encodeInputOn 32 hash prof toks >>= fun r =>
        .ok (hexEncode r)) with e | ⟨e, h⟩
    · rw [e]
      cases ho : openAbi file path with
      | err _ => left; simp only [Res.err_bind]
      | panic => left; simp only [Res.panic_bind]
      | ok j =>
        simp only [Res.ok_bind]
        cases hl : loadFunction j name with
        | err _ => left; simp only [Res.err_bind]
        | panic => left; simp only [Res.panic_bind]
        | ok f =>
          simp only [Res.ok_bind]
          cases hp : parseTokens lenient ((f.inputs.map (·.kind)).zip values) with
          | err _ => left; simp only [Res.err_bind]
          | panic => left; simp only [Res.panic_bind]
          | ok toks =>
            simp only [Res.ok_bind]
            rcases encodeInputOn_32 hash prof f toks with e | ⟨e, h⟩
            · rw [e]; exact .inl rfl
            · rw [e]
              obtain ⟨ops, f', h1, h2, rfl⟩ := (openFunction file path name (f = ·)).1 ⟨j, ho, f, hl, rfl⟩
              exact .inr (.inr ⟨rfl, ⟨ops, f, toks, h1, h2, (parseTokens_iff lenient _ _).1 hp, h⟩, fun h => by cases h⟩)
    · rw [e]; exact .inr (.inl ⟨_, rfl, rfl, h⟩)
  | decodeParams types data =>
    obtain ⟨hd, hn⟩ := hc
    simp only [executeOn, execute, cliDecodeParamsOn, cliDecodeParams]
    rcases readAllOn_32 types with e | ⟨e, h⟩
    · rw [e]
      cases hr : readAll types with
      | err _ => left; simp only [Res.err_bind]
      | panic => left; simp only [Res.panic_bind]
      | ok ts =>
        simp only [Res.ok_bind]
        cases hx : hexDecode data with
        | err _ => left; simp only [Res.err_bind]
        | panic => left; simp only [Res.panic_bind]
        | ok bs =>
          simp only [Res.ok_bind]
          have hr' := (readAll_iff _ _).1 hr
          have hx' := hexDecode_iff.1 hx
          rcases decodeOn_32 prof ts bs (hn ts hr') (by have := hx'.1; omega) with e | ⟨e, e', h⟩
          · rw [e]; exact .inl rfl
          · rw [e, e']; exact .inr (.inr ⟨rfl, ⟨ts, bs, hr', hx', h⟩, fun _ => rfl⟩)
    · rw [e]; exact .inr (.inl ⟨_, rfl, rfl, h⟩)
  | decodeFunction path name data =>
    obtain ⟨hd, hn⟩ := hc
    simp only [executeOn, execute, cliDecodeOutputOn, cliDecodeOutput, decodeOutputOf]
    rcases openFunctionOn_32 file path name (fun f => hexDecode data >>= fun bs =>
      f.decodeOutputOn 32 prof bs >>= fun toks => if f.outputs.length ≠ toks.length then .panic
        else .ok (join (lit "\n") (typedLines (f.outputs.map (·.kind)) toks))) with e | ⟨e, h⟩
    · rw [e]
      cases ho : openAbi file path with
      | err _ => left; simp only [Res.err_bind]
      | panic => left; simp only [Res.panic_bind]
      | ok j =>
        simp only [Res.ok_bind]
        cases hl : loadFunction j name with
        | err _ => left; simp only [Res.err_bind]
        | panic => left; simp only [Res.panic_bind]
        | ok f =>
          simp only [Res.ok_bind]
          cases hx : hexDecode data with
          | err _ => left; simp only [Res.err_bind]
          | panic => left; simp only [Res.panic_bind]
          | ok bs =>
            simp only [Res.ok_bind]
            have hx' := hexDecode_iff.1 hx
            obtain ⟨ops, f', h1, h2, rfl⟩ := (openFunction file path name (f = ·)).1 ⟨j, ho, f, hl, rfl⟩
            rw [Function.decodeOutputOn, Function.decodeOutput, Function.outputParamTypes]
            rcases decodeOn_32 prof _ bs (hn ops f h1 h2) (by have := hx'.1; omega) with e | ⟨e, e', h⟩
            · rw [e]; exact .inl rfl
            · rw [e, e']; exact .inr (.inr ⟨rfl, ⟨ops, f, bs, h1, h2, hx', h⟩, fun _ => rfl⟩)
    · rw [e]; exact .inr (.inl ⟨_, rfl, rfl, h⟩)
  | decodeLog path name topics data =>
    obtain ⟨hd, ht, hn⟩ := hc
    simp only [executeOn, execute, cliDecodeLogOn, cliDecodeLog, decodeLogOf]
    rcases openEventOn_32 hash file path name (fun ev => parseHashes parseHash topics >>= fun ws =>
      hexDecode data >>= fun bs => ev.parseLogOn 32 hash prof { topics := ws, data := bs } >>= fun l =>
        .ok (join (lit "\n") (l.params.map fun p => p.name ++ lit " " ++ p.value.display))) with e | ⟨e, h⟩
    · rw [e]
      cases ho : openAbi file path with
      | err _ => left; simp only [Res.err_bind]
      | panic => left; simp only [Res.panic_bind]
      | ok j =>
        simp only [Res.ok_bind]
        cases hl : loadEvent hash j name with
        | err _ => left; simp only [Res.err_bind]
        | panic => left; simp only [Res.panic_bind]
        | ok ev =>
          simp only [Res.ok_bind]
          cases hw : parseHashes parseHash topics with
          | err _ => left; simp only [Res.err_bind]
          | panic => left; simp only [Res.panic_bind]
          | ok ws =>
            simp only [Res.ok_bind]
            cases hx : hexDecode data with
            | err _ => left; simp only [Res.err_bind]
            | panic => left; simp only [Res.panic_bind]
            | ok bs =>
              simp only [Res.ok_bind]
              have hx' := hexDecode_iff.1 hx
              have hw' := (parseHashes_iff parseHash topics ws).1 hw
              have hwl := hw'.length_eq
              obtain ⟨ops, f', h1, h2, rfl⟩ := (openEvent hash file path name (ev = ·)).1 ⟨j, ho, ev, hl, rfl⟩
              by_cases hb : (∃ tt, topicsHold hash ev.name (ev.inputs.map (·.kind)) ev.anonymous (ws.map (·.1))
                ((ev.inputs.filter (·.indexed)).map (·.kind)) tt) ∧
                wrapsAny 32 ((ev.inputs.filter (!·.indexed)).map (·.kind)) bs 0
              · obtain ⟨e, e'⟩ := C104_log_wraps hash prof ev ⟨ws, bs⟩ (hn ops ev h1 h2) (by simp; omega)
                  (by have := hx'.1; simp; omega) hb.1 hb.2
                rw [e, e']
                exact .inr (.inr ⟨rfl, ⟨ops, ev, ws, bs, h1, h2, hw', hx', hb⟩, fun _ => rfl⟩)
              · rw [C104_log_otherwise_same hash prof ev ⟨ws, bs⟩ (hn ops ev h1 h2) (by simp; omega)
                  (by have := hx'.1; simp; omega) hb]
                exact .inl rfl
    · rw [e]; exact .inr (.inl ⟨_, rfl, rfl, h⟩)

/-- **C122.** What a command prints on a 32-bit target it prints on a 64-bit target. -/
theorem C122_printed (hash : Bytes → Word) (parseHash : Str → Res Word) (prof : Profile) (file : Str → Option (Option Json))
    (c : Command) (hc : FitsTarget hash file c) (out : Str) (h : executeOn 32 hash parseHash prof file c = .ok out) :
    execute hash parseHash prof file c = .ok out := by
  rcases C122_same_or hash parseHash prof file c hc with e | ⟨x, e, -⟩ | ⟨e, -⟩
  · rw [← e, h]
  · rw [e] at h; cases h
  · rw [e] at h; cases h

/-- **C122.** What a command that decodes prints on a 64-bit target it prints on a 32-bit target, unless a type is too large. -/
theorem C122_decoded (hash : Bytes → Word) (parseHash : Str → Res Word) (prof : Profile) (file : Str → Option (Option Json))
    (c : Command) (hc : FitsTarget hash file c) (hd : c.decodes = true) (out : Str)
    (h : execute hash parseHash prof file c = .ok out) :
    executeOn 32 hash parseHash prof file c = .ok out ∨
    ∃ e, executeOn 32 hash parseHash prof file c = .err e ∧ Refused file c e := by
  rcases C122_same_or hash parseHash prof file c hc with e | e | ⟨-, -, e⟩
  · exact .inl (e.trans h)
  · exact .inr e
  · rw [e hd] at h; cases h

/-- **C122.** What a command that encodes prints on a 64-bit target it prints on a 32-bit target, unless a type is too large or the
values take 64 MiB or more. -/
theorem C122_encoded (hash : Bytes → Word) (parseHash : Str → Res Word) (prof : Profile) (file : Str → Option (Option Json))
    (c : Command) (hd : c.decodes = false) (hb : ¬ Bursts hash parseHash file c) (hr : ∀ e, ¬ Refused file c e) :
    executeOn 32 hash parseHash prof file c = execute hash parseHash prof file c := by
  have hc : FitsTarget hash file c := by cases c <;> trivial
  rcases C122_same_or hash parseHash prof file c hc with e | ⟨x, -, e⟩ | ⟨-, e, -⟩
  · exact e
  · exact (hr x e).elim
  · exact (hb e).elim

/-- **C122.** The panics of `encode params` are there: values below 4 GiB that take 64 MiB or more are not encoded. -/
theorem C122_encode_large (hash : Bytes → Word) (parseHash : Str → Res Word) (prof : Profile) (file : Str → Option (Option Json))
    (rows : List Row) (lenient : Bool) (hr : ∀ r ∈ rows, r.Stands lenient) (hs : sizeAll (rows.map (·.token)) < 2 ^ 32)
    (hl : Large (rows.map (·.token))) :
    let c := Command.encodeParams (rows.flatMap fun r => [r.type, r.value]) lenient
    (∃ out, execute hash parseHash prof file c = .ok out) ∧
    (executeOn 32 hash parseHash prof file c = .panic ∨
      ∃ e, executeOn 32 hash parseHash prof file c = .err e ∧ Refused file c e) := by
  intro c
  have ha : (rows.flatMap fun r => [r.type, r.value]).length % 2 = 0 := by rw [evenLength]; omega
  obtain ⟨ps, h1, h2⟩ := (readPairs_iff lenient _ _ ha).2 ⟨rows, rfl, hr, rfl⟩
  obtain ⟨bs, h3, -⟩ := C103_areas prof _ hs
  simp only [c, executeOn, execute, cliEncodeParamsOn, cliEncodeParams]
  rw [if_neg (by omega), if_neg (by omega)]
  refine ⟨⟨hexEncode bs, by rw [h1, Res.ok_bind, h2, Res.ok_bind, h3, Res.ok_bind]⟩, ?_⟩
  rcases readPairsOn_32 (rows.flatMap fun r => [r.type, r.value]) with e | ⟨e, h⟩
  · left
    rw [e, h1, Res.ok_bind, h2, Res.ok_bind, C103_exact prof _ hs]
    unfold Large at hl
    rw [if_pos hl, Res.panic_bind]
  · right
    rw [e]
    exact ⟨_, Res.err_bind .., rfl, h⟩

/-- **C122.** So are those of `encode function`. -/
theorem C122_encode_function_large (hash : Bytes → Word) (parseHash : Str → Res Word) (prof : Profile)
    (file : Str → Option (Option Json)) (path name : Str) (values : List Str) (lenient : Bool) (ops : List Operation) (f : Function)
    (toks : List Token) (ho : Declares file path ops) (hf : PicksFunction ops name f) (hv : f.inputs.length ≤ values.length)
    (ht : List.Forall₂ (fun x t => denotes (if lenient then .lenient else .strict) x.1 x.2 t)
      ((f.inputs.map (·.kind)).zip values) toks) (hs : sizeAll toks < 2 ^ 32) (hl : Large toks) :
    let c := Command.encodeFunction path name values lenient
    (∃ out, execute hash parseHash prof file c = .ok out) ∧
    (executeOn 32 hash parseHash prof file c = .panic ∨
      ∃ e, executeOn 32 hash parseHash prof file c = .err e ∧ Refused file c e) := by
  intro c
  obtain ⟨bs, hb, -⟩ := C103_areas prof toks hs
  have h64 : ∃ out, execute hash parseHash prof file c = .ok out :=
    ⟨_, (C85_encode_function hash parseHash prof file path name values lenient _).2
      ⟨ops, f, toks, bs, ho, hf, hv, ht, hb, (printsHex_iff _ _).2 rfl⟩⟩
  refine ⟨h64, ?_⟩
  obtain ⟨out, h64⟩ := h64
  obtain ⟨j, hj, f', hf', rfl⟩ := (openFunction file path name (f = ·)).2 ⟨ops, f, ho, hf, rfl⟩
  have hp := (parseTokens_iff lenient _ _).2 ht
  simp only [c, execute, cliEncodeInput, encodeInputOf, hj, hf', hp, Res.ok_bind, Res.bind_eq_ok] at h64
  obtain ⟨r, hr, -⟩ := h64
  simp only [c, executeOn, cliEncodeInputOn]
  rcases openFunctionOn_32 file path name (fun f =>
      parseTokens lenient ((f.inputs.map (·.kind)).zip values) >>= fun toks => f.encodeInputOn 32 hash prof toks >>= fun r =>
        .ok (hexEncode r)) with e | ⟨e, h⟩
  · left
    rw [e, hj, Res.ok_bind, hf', Res.ok_bind, hp, Res.ok_bind, C103_function hash prof f toks hs, hr]
    unfold Large at hl
    dsimp only
    rw [if_pos hl, Res.panic_bind]
  · right
    rw [e]
    exact ⟨_, rfl, rfl, h⟩

/-- **C122.** The panics of the decoding commands are there: data with a position or an extent of 2^32 or more are not decoded. -/
theorem C122_decode_wraps (hash : Bytes → Word) (parseHash : Str → Res Word) (prof : Profile) (file : Str → Option (Option Json))
    (c : Command) (hd : c.decodes = true) (hc : FitsTarget hash file c) (hb : Bursts hash parseHash file c) :
    execute hash parseHash prof file c = .err .invalidData ∧
    (executeOn 32 hash parseHash prof file c = .panic ∨
      ∃ e, executeOn 32 hash parseHash prof file c = .err e ∧ Refused file c e) := by
  cases c with
  | encodeParams => cases hd
  | encodeFunction => cases hd
  | decodeParams types data =>
    obtain ⟨ts, bs, h1, h2, h3⟩ := hb
    obtain ⟨hd, hn⟩ := hc
    obtain ⟨e1, e2⟩ := C87_wraps prof ts bs (hn ts h1) (by have := h2.1; omega) h3
    have h1' := (readAll_iff _ _).2 h1
    have h2' := hexDecode_iff.2 h2
    simp only [executeOn, execute, cliDecodeParamsOn, cliDecodeParams]
    refine ⟨by rw [h1', Res.ok_bind, h2', Res.ok_bind, e2, Res.err_bind], ?_⟩
    rcases readAllOn_32 types with e | ⟨e, h⟩
    · left
      rw [e, h1', Res.ok_bind, h2', Res.ok_bind, e1, Res.panic_bind]
    · right
      rw [e]
      exact ⟨_, Res.err_bind .., rfl, h⟩
  | decodeFunction path name data =>
    obtain ⟨ops, f, bs, ho, hf, h2, h3⟩ := hb
    obtain ⟨hd, hn⟩ := hc
    obtain ⟨e1, e2⟩ := C87_wraps prof _ bs (hn ops f ho hf) (by have := h2.1; omega) h3
    have h2' := hexDecode_iff.2 h2
    obtain ⟨j, hj, f', hf', rfl⟩ := (openFunction file path name (f = ·)).2 ⟨ops, f, ho, hf, rfl⟩
    simp only [executeOn, execute, cliDecodeOutputOn, cliDecodeOutput, decodeOutputOf]
    refine ⟨by rw [hj, Res.ok_bind, hf', Res.ok_bind, h2', Res.ok_bind, Function.decodeOutput, Function.outputParamTypes, e2,
      Res.err_bind], ?_⟩
    rcases openFunctionOn_32 file path name (fun f => hexDecode data >>= fun bs =>
      f.decodeOutputOn 32 prof bs >>= fun toks => if f.outputs.length ≠ toks.length then .panic
        else .ok (join (lit "\n") (typedLines (f.outputs.map (·.kind)) toks))) with e | ⟨e, h⟩
    · left
      rw [e, hj, Res.ok_bind, hf', Res.ok_bind, h2', Res.ok_bind, Function.decodeOutputOn, Function.outputParamTypes, e1, Res.panic_bind]
    · right
      rw [e]
      exact ⟨_, rfl, rfl, h⟩
  | decodeLog path name topics data =>
    obtain ⟨ops, ev, ws, bs, ho, hf, hw, h2, h3, h4⟩ := hb
    obtain ⟨hd, ht, hn⟩ := hc
    have hwl := hw.length_eq
    obtain ⟨e1, e2⟩ := C104_log_wraps hash prof ev ⟨ws, bs⟩ (hn ops ev ho hf) (by simp; omega) (by have := h2.1; simp; omega) h3 h4
    have h2' := hexDecode_iff.2 h2
    have hw' := (parseHashes_iff parseHash topics ws).2 hw
    obtain ⟨j, hj, f', hf', rfl⟩ := (openEvent hash file path name (ev = ·)).2 ⟨ops, ev, ho, hf, rfl⟩
    simp only [executeOn, execute, cliDecodeLogOn, cliDecodeLog, decodeLogOf]
    refine ⟨by rw [hj, Res.ok_bind, hf', Res.ok_bind, hw', Res.ok_bind, h2', Res.ok_bind, e2, Res.err_bind], ?_⟩
    rcases openEventOn_32 hash file path name (fun ev => parseHashes parseHash topics >>= fun ws =>
      hexDecode data >>= fun bs => ev.parseLogOn 32 hash prof { topics := ws, data := bs } >>= fun l =>
        .ok (join (lit "\n") (l.params.map fun p => p.name ++ lit " " ++ p.value.display))) with e | ⟨e, h⟩
    · left
      rw [e, hj, Res.ok_bind, hf', Res.ok_bind, hw', Res.ok_bind, h2', Res.ok_bind, e1, Res.panic_bind]
    · right
      rw [e]
      exact ⟨_, rfl, rfl, h⟩

theorem readAllOn_refused : ∀ (types : List Str) (ts : List ParamType), ReadAs types ts → (∃ t ∈ ts, ¬ sizesBelow 32 t) →
    readAllOn 32 types = .err .parseInt
  | _, _, .nil, h => by simp at h
  | s :: ss, t :: ts, .cons h1 h2, h => by
    rw [readAllOn]
    by_cases ht : sizesBelow 32 t
    · have h' : ∃ t ∈ ts, ¬ sizesBelow 32 t := by
        obtain ⟨x, hx, hb⟩ := h
        rcases List.mem_cons.1 hx with rfl | hx
        · exact (hb ht).elim
        · exact ⟨x, hx, hb⟩
      rw [readAllOn_refused ss ts h2 h']
      rcases C94_same_or_refused s with e | ⟨e, -⟩
      · rw [e, h1, Res.ok_bind, Res.err_bind]
      · rw [e, Res.err_bind]
    · rw [C94_too_large s t h1 ht, Res.err_bind]

theorem readPairsOn_refused : ∀ (rows : List Row), (∀ r ∈ rows, read r.type = .ok r.kind) → (∃ r ∈ rows, ¬ sizesBelow 32 r.kind) →
    readPairsOn 32 (rows.flatMap fun r => [r.type, r.value]) = .err .parseInt
  | [], _, h => by simp at h
  | r :: rows, hr, h => by
    rw [List.flatMap_cons]
    simp only [List.cons_append, List.nil_append, readPairsOn]
    by_cases ht : sizesBelow 32 r.kind
    · have h' : ∃ r ∈ rows, ¬ sizesBelow 32 r.kind := by
        obtain ⟨x, hx, hb⟩ := h
        rcases List.mem_cons.1 hx with rfl | hx
        · exact (hb ht).elim
        · exact ⟨x, hx, hb⟩
      rw [readPairsOn_refused rows (fun x hx => hr x (by simp [hx])) h']
      rcases C94_same_or_refused r.type with e | ⟨e, -⟩
      · rw [e, hr r (by simp), Res.ok_bind, Res.err_bind]
      · rw [e, Res.err_bind]
    · rw [C94_too_large r.type r.kind (hr r (by simp)) ht, Res.err_bind]

/-- **C122.** Types with a size of 2^32 or more are refused: in the arguments, and in an ABI wherever the contract declares them. -/
theorem C122_refused (hash : Bytes → Word) (parseHash : Str → Res Word) (prof : Profile) (file : Str → Option (Option Json)) :
    (∀ types ts data, ReadAs types ts → (∃ t ∈ ts, ¬ sizesBelow 32 t) →
      executeOn 32 hash parseHash prof file (.decodeParams types data) = .err .parseInt) ∧
    (∀ (rows : List Row) lenient, (∀ r ∈ rows, read r.type = .ok r.kind) → (∃ r ∈ rows, ¬ sizesBelow 32 r.kind) →
      executeOn 32 hash parseHash prof file (.encodeParams (rows.flatMap fun r => [r.type, r.value]) lenient) = .err .parseInt) ∧
    (∀ path j c t name, file path = some (some j) → deContract j = .ok c → JsonGrammar.Declares c t → ¬ sizesBelow 32 t →
      (∀ values lenient, executeOn 32 hash parseHash prof file (.encodeFunction path name values lenient) = .err .serdeJson) ∧
      (∀ data, executeOn 32 hash parseHash prof file (.decodeFunction path name data) = .err .serdeJson) ∧
      ∀ topics data, executeOn 32 hash parseHash prof file (.decodeLog path name topics data) = .err .serdeJson) := by
  refine ⟨fun types ts data h1 h2 => ?_, fun rows lenient h1 h2 => ?_, fun path j c t name h1 h2 h3 h4 => ?_⟩
  · simp only [executeOn, cliDecodeParamsOn, readAllOn_refused types ts h1 h2, Res.err_bind]
  · have ha : (rows.flatMap fun r => [r.type, r.value]).length % 2 = 0 := by rw [evenLength]; omega
    simp only [executeOn, cliEncodeParamsOn]
    rw [if_neg (by omega), readPairsOn_refused rows h1 h2, Res.err_bind]
  · have h5 := C120_too_large j c h2 t h3 h4
    have h6 : openAbi file path = .ok j := (openAbi_iff file path j).2 h1
    refine ⟨fun _ _ => ?_, fun _ => ?_, fun _ _ => ?_⟩ <;>
      simp only [executeOn, cliEncodeInputOn, cliDecodeOutputOn, cliDecodeLogOn, loadFunctionOn, loadEventOn, h6, h5, Res.ok_bind, Res.err_bind]

/-! ## The targets differ -/

/-- no files -/
def noFile (_ : Str) : Option (Option Json) := none
/-- no text is a topic -/
def noHash (_ : Str) : Res Word := .err .other

/-- 64 bytes that announce 2^32 - 1 bytes: an error on 64 bits, a panic on 32 bits. -/
theorem C122_counterexample_decode :
    let c := Command.decodeParams [lit "bytes"] (hexEncode (word 32 ++ word (2 ^ 32 - 1)))
    execute constHash noHash .release noFile c = .err .invalidData ∧
    executeOn 32 constHash noHash .release noFile c = .panic := by decide +kernel

/-- A width of 2^32: encoded on 64 bits, refused on 32 bits. -/
theorem C122_counterexample_type :
    let c := Command.encodeParams [lit "uint4294967296", lit "7"] true
    execute constHash noHash .release noFile c = .ok (hexEncode (word 7)) ∧
    executeOn 32 constHash noHash .release noFile c = .err .parseInt := by decide +kernel

/-- A text of 64 MiB - 32 bytes: encoded on 64 bits, a panic on 32 bits. -/
theorem C122_counterexample_large (prof : Profile) (v : Str) (hv : (v.flatMap String.utf8EncodeChar).length = 2 ^ 26 - 32) :
    let c := Command.encodeParams [lit "string", v] false
    (∃ out, execute constHash noHash prof noFile c = .ok out) ∧
    executeOn 32 constHash noHash prof noFile c = .panic := by
  intro c
  have hsz : size (.string v) = 2 ^ 26 := by rw [size, hv, roundUp]; norm_num
  have h1 : sizeAll [.string v] = 2 ^ 26 + 32 := by simp only [sizeAll, tailed, hsz, if_true]; norm_num
  have hs : sizeAll [.string v] < 2 ^ 32 := by rw [h1]; norm_num
  have hl : Large [.string v] := Or.inr (by simp only [tailBytes, tailed, hsz, if_true]; norm_num)
  have hr : readOn 32 (lit "string") = .ok .string := by decide +kernel
  have hr' : read (lit "string") = .ok .string := by decide +kernel
  refine ⟨(C122_encode_large constHash noHash prof noFile [⟨lit "string", v, .string, .string v⟩] false ?_ hs hl).1, ?_⟩
  · intro r h
    rw [List.mem_singleton.1 h]
    exact ⟨hr', by rw [denotes]⟩
  · have hp : parseTokens false [(.string, v)] = .ok [.string v] :=
      (parseTokens_iff false _ _).2 (.cons (by rw [denotes]) .nil)
    simp only [c, executeOn, cliEncodeParamsOn, readPairsOn, hr, Res.ok_bind, hp, C103_exact prof _ hs]
    unfold Large at hl
    rw [if_pos hl]
    simp

/-- commands without differences, two of them on a file -/
example :
    executeOn 32 constHash noHash .release noFile (.encodeParams [lit "uint8", lit "7", lit "bool", lit "1"] true) =
      .ok (hexEncode (word 7 ++ word 1)) ∧
    executeOn 32 constHash noHash .release noFile (.decodeParams [lit "bool", lit "bytes2"] (hexEncode (word 1 ++ word 0))) =
      .ok (lit "bool true\nbytes2 0000") ∧
    executeOn 32 prefixHash noHash .debug abiFile (.encodeFunction (lit "abi.json") (lit "g") [lit "1"] false) =
      .ok (lit "6728626f0000000000000000000000000000000000000000000000000000000000000001") ∧
    executeOn 32 prefixHash noHash .debug abiFile
      (.decodeFunction (lit "abi.json") (lit "f(bytes):(uint8)") (lit "000000000000000000000000000000000000000000000000000000000000002A")) =
      .ok (lit "uint8 2a") := by
  decide +kernel

/-- the conditions on what is decoded hold of simple commands -/
example : FitsTarget constHash noFile (.decodeParams [lit "bytes"] (hexEncode (word 32 ++ word (2 ^ 32 - 1)))) := by
  refine ⟨by decide +kernel, fun ts h => ?_⟩
  cases h with
  | cons h1 h2 =>
    cases h2
    have : read (lit "bytes") = .ok .bytes := by decide +kernel
    rw [this] at h1
    cases h1
    rfl

end Ethabi.Props

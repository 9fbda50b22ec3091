import Verif.Props.AnyText
import Verif.Props.TypeText
import Verif.Props.AnyRefused
import Verif.Props.TokenText
import Verif.Props.Errors
import Verif.Props.Reading
import Verif.Props.AbiJson
import Verif.Props.Crash
import Verif.Props.Names
import Verif.Props.JsonText
import Verif.Props.JsonBytes
import Verif.Props.DeriveEntry
import Verif.Props.CliExact
import Verif.Props.CliPanics
import Verif.Props.Messages
import Verif.Props.Getters
import Verif.Props.Files
import Verif.Props.DeriveExact
/-!
# Statements that leave one result

For claims of the form "the result is r exactly if …": whatever function stands in the place of the model's, if the statement holds
of it then it agrees with the model's.  So an edited model, whose function differs on some input, does not satisfy the statement,
provided the edit is not in a definition which the right hand side uses.  `tools/compare.py` compares edited models with the model in
this way; `tools/determined.txt` (from `tools/right_hand_sides.lean.txt`) lists for each claim the definitions on the right hand side.
-/
namespace Ethabi.Checkers
open Ethabi.Spec Ethabi.Props Ethabi.JsonGrammar

/-- C92: accepted texts and panics -/
theorem c92_determines (read' : Str → Res ParamType) (s : Str) (ha : s.all (fun c => decide (c.toNat < 128)) = true)
    (h : ∀ t, read' s = .ok t ↔ Spec.AnyText.Text s t) (hp : read' s = .panic ↔ Spec.AnyText.Crash s) :
    (∀ t, read' s = .ok t ↔ read s = .ok t) ∧ (read' s = .panic ↔ read s = .panic) :=
  ⟨fun t => (h t).trans (C92_accepts_exactly s ha t).symm, hp.trans (C92_panics_exactly s ha).symm⟩

/-- C76: accepted texts and panics, with at most one parenthesis of each kind -/
theorem c76_determines (read' : Str → Res ParamType) (s : Str) (ha : s.all (fun c => decide (c.toNat < 128)) = true)
    (h1 : s.count '(' ≤ 1) (h2 : s.count ')' ≤ 1)
    (h : ∀ t, read' s = .ok t ↔ FlatText s t) (hp : read' s = .panic ↔ FlatUnopened s) :
    (∀ t, read' s = .ok t ↔ read s = .ok t) ∧ (read' s = .panic ↔ read s = .panic) :=
  ⟨fun t => (h t).trans (C76_accepts_exactly s ha h1 h2 t).symm, hp.trans (C76_panics_exactly s ha h1 h2).symm⟩

/-- C93: the errors of the reader -/
theorem c93_determines (read' : Str → Res ParamType) (s : Str) (ha : s.all (fun c => decide (c.toNat < 128)) = true)
    (h : ∀ e, read' s = .err e ↔ Spec.AnyText.RefusedAny s e) (e : Err) : read' s = .err e ↔ read s = .err e :=
  (h e).trans (C93_any_type_texts s ha e).symm

/-- C93: the errors of the tokenizers -/
theorem c93_determines_tokenizers (f : Tokenizer → ParamType → Str → Res Token) (m : Tokenizer) (p : ParamType) (s : Str)
    (h : ∀ e, f m p s = .err e ↔ fails m p s e) (e : Err) : f m p s = .err e ↔ tokenize m p s = .err e :=
  (h e).trans (C93_tokenizers m p s e).symm

/-- C81: the values and the panics of the tokenizers -/
theorem c81_determines (f : Tokenizer → ParamType → Str → Res Token) (m : Tokenizer) (p : ParamType) (s : Str)
    (h : ∀ t, f m p s = .ok t ↔ denotes m p s t) (hp : f m p s = .panic ↔ breaks m p s) :
    (∀ t, f m p s = .ok t ↔ tokenize m p s = .ok t) ∧ (f m p s = .panic ↔ tokenize m p s = .panic) :=
  ⟨fun t => (h t).trans (C81_accepts_exactly m p s t).symm, hp.trans (C81_panics_exactly m p s).symm⟩

/-- C74: values and errors of `decode` -/
theorem c74_determines (f : Profile → List ParamType → Bytes → Res (List Token)) (prof : Profile) (ts : List ParamType) (data : Bytes)
    (hn : narrowAll ts = true) (hd : data.length < 2 ^ 63)
    (h : ∀ toks, f prof ts data = .ok toks ↔ (data ≠ [] ∨ zeroTypes ts) ∧ readsAll ts data 0 toks)
    (he : ∀ e, f prof ts data = .err e ↔
      (data = [] ∧ ¬ zeroTypes ts ∧ e = .invalidName emptyDataMsg) ∨
      ((data ≠ [] ∨ zeroTypes ts) ∧ e = .invalidData ∧ (∀ toks, ¬ readsAll ts data 0 toks) ∧ ¬ overrunsAny ts data 0)) :
    f prof ts data = decode prof ts data := by
  have h1 := fun t => (h t).trans (C74_decodes_exactly prof ts data t hn hd).symm
  have h2 := fun e => (he e).trans (C74_errors_exactly prof ts data e hn hd).symm
  cases hf : f prof ts data with
  | ok t => exact ((h1 t).1 hf).symm
  | err e => exact ((h2 e).1 hf).symm
  | panic =>
    cases hg : decode prof ts data with
    | ok t => rw [(h1 t).2 hg] at hf; cases hf
    | err e => rw [(h2 e).2 hg] at hf; cases hf
    | panic => rfl

/-- C77 and C90: parameters -/
theorem c77_determines_param (f : Mode → Json → Res Param) (m : Mode) (j : Json) (h : ∀ p, f m j = .ok p ↔ DenotesParam m j p)
    (p : Param) : f m j = .ok p ↔ deParam m j = .ok p := (h p).trans (C77_param m j p).symm

theorem c90_determines_param (f : Mode → Json → Res Param) (m : Mode) (j : Json) (h : f m j = .panic ↔ CrashesParam m j) :
    f m j = .panic ↔ deParam m j = .panic := h.trans (C90_param m j).symm

/-- C77 and C90: parameters of events -/
theorem c77_determines_event_param (f : Mode → Json → Res EventParam) (m : Mode) (j : Json)
    (h : ∀ p, f m j = .ok p ↔ DenotesEventParam m j p) (p : EventParam) : f m j = .ok p ↔ deEventParam m j = .ok p :=
  (h p).trans (C77_event_param m j p).symm

theorem c90_determines_event_param (f : Mode → Json → Res EventParam) (m : Mode) (j : Json)
    (h : f m j = .panic ↔ CrashesEventParam m j) : f m j = .panic ↔ deEventParam m j = .panic :=
  h.trans (C90_event_param m j).symm

/-- C77 and C90: members of tuples -/
theorem c77_determines_tuple_param (f : Mode → Json → Res TupleParam) (m : Mode) (j : Json)
    (h : ∀ p, f m j = .ok p ↔ DenotesMember m j p) (p : TupleParam) : f m j = .ok p ↔ deTupleParam m j = .ok p :=
  (h p).trans (C77_tuple_param m j p).symm

theorem c90_determines_tuple_param (f : Mode → Json → Res TupleParam) (m : Mode) (j : Json)
    (h : f m j = .panic ↔ CrashesParam m j) : f m j = .panic ↔ deTupleParam m j = .panic := h.trans (C90_tuple_param m j).symm

/-- C77 and C90: operations -/
theorem c77_determines_operation (f : Json → Res Operation) (j : Json) (h : ∀ op, f j = .ok op ↔ DenotesOperation j op)
    (op : Operation) : f j = .ok op ↔ deOperation j = .ok op := (h op).trans (C77_operation j op).symm

theorem c90_determines_operation (f : Json → Res Operation) (j : Json) (h : f j = .panic ↔ CrashesOperation j) :
    f j = .panic ↔ deOperation j = .panic := h.trans (C90_operation j).symm

/-- C77 and C90: which contracts load and which panic -/
theorem c77_determines_contract (f : Json → Res Contract) (j : Json) (h : (∃ c, f j = .ok c) ↔ ∃ ops, DenotesEach DenotesOperation j ops) :
    (∃ c, f j = .ok c) ↔ ∃ c, deContract j = .ok c := h.trans (C77_contract j).1.symm

theorem c90_determines_contract (f : Json → Res Contract) (j : Json)
    (h : f j = .panic ↔ CrashesAt DenotesOperation CrashesOperation j) : f j = .panic ↔ deContract j = .panic :=
  h.trans (C90_contract j).symm

/-- C96: names over the characters of identifiers -/
theorem c96_determines (snake camel : Str → Str) (s : Str) (hi : Names.identifier s = true) (h : snake s = Names.snakeText s ∧ camel s = Names.camelText s) :
    snake s = Heck.snake s ∧ camel s = Heck.camel s :=
  ⟨h.1.trans (C96_conversions s hi).1.symm, h.2.trans (C96_conversions s hi).2.symm⟩

/-- C99: JSON texts -/
theorem c99_determines (f : (Str → Bool) → Str → Option Json) (fits : Str → Bool) (s : Str)
    (h : ∀ j, f fits s = some j ↔ JsonGrammar.Text fits j s) : f fits s = JsonText.parse fits s := by
  have h' := fun j => (h j).trans (C99_parse fits s j).symm
  cases hf : f fits s with
  | some j => exact ((h' j).1 hf).symm
  | none =>
    cases hg : JsonText.parse fits s with
    | some j => rw [(h' j).2 hg] at hf; cases hf
    | none => rfl

/-- C99: loading a text -/
theorem c99_determines_load (f : (Str → Bool) → Str → Res Contract) (fits : Str → Bool) (s : Str)
    (h : ∀ c, f fits s = .ok c ↔ ∃ j, JsonGrammar.Text fits j s ∧ deContract j = .ok c)
    (hp : f fits s = .panic ↔ ∃ w js t j a v r, JsonGrammar.Blank w ∧ JsonGrammar.Begun fits js t ∧ JsonGrammar.Blank a ∧
      JsonGrammar.Value fits 126 j v ∧ s = w ++ '[' :: (t ++ (a ++ (v ++ r))) ∧ (∀ x ∈ js, ∃ op, DenotesOperation x op) ∧ CrashesOperation j) :
    (∀ c, f fits s = .ok c ↔ JsonText.load fits s = .ok c) ∧ (f fits s = .panic ↔ JsonText.load fits s = .panic) :=
  ⟨fun c => (h c).trans (C99_load_ok fits s c).symm, hp.trans (C99_load_panic fits s).symm⟩

/-- C105: loading bytes -/
theorem c105_determines (f : (Str → Bool) → Bytes → Res Contract) (fits : Str → Bool) (bs : Bytes)
    (h : ∀ c, f fits bs = .ok c ↔ ∃ j, JsonGrammar.Holds fits j bs ∧ deContract j = .ok c)
    (hp : f fits bs = .panic ↔ CrashesBytes fits bs) :
    (∀ c, f fits bs = .ok c ↔ JsonBytes.load fits bs = .ok c) ∧ (f fits bs = .panic ↔ JsonBytes.load fits bs = .panic) :=
  ⟨fun c => (h c).trans (C105_ok fits bs c).symm, hp.trans (C105_panic fits bs).symm⟩

/-- C84: the derive macro -/
theorem c84_determines (f : Naming → World → List Attribute → Res Code) (nm : Naming) (w : World) (attrs : List Attribute)
    (h : ∀ code, f nm w attrs = .ok code ↔ ∃ rel dir path j c, AsksFor attrs rel ∧ w.manifestDir = some dir ∧
      PlacedAt dir rel path ∧ w.file path = some (some j) ∧ deContract j = .ok c ∧ contractOk nm c = true ∧
      generateContract nm c = .ok code) (code : Code) : f nm w attrs = .ok code ↔ ethabiDerive nm w attrs = .ok code :=
  (h code).trans (C84_expands nm w attrs code).symm

/-- C84: `use_contract!` -/
theorem c84_determines_use (f : Naming → World → Str → Str → Res Code) (nm : Naming) (w : World) (name rel : Str)
    (h : ∀ code, f nm w name rel = .ok code ↔ ∃ dir path j c inner, w.manifestDir = some dir ∧ PlacedAt dir rel path ∧
      w.file path = some (some j) ∧ deContract j = .ok c ∧ contractOk nm c = true ∧ generateContract nm c = .ok inner ∧
      code = [.word "pub".toList, .word "mod".toList, .word name, .word "{".toList] ++ inner ++ [.word "}".toList]) (code : Code) :
    f nm w name rel = .ok code ↔ useContract nm w name rel = .ok code :=
  (h code).trans (C84_use_contract nm w name rel code).symm

/-- C118: the errors of the tokenizers with their contents -/
theorem c118_determines_tokenizers (f : Tokenizer → ParamType → Str → Told Reason Token) (m : Tokenizer) (p : ParamType) (s : Str)
    (h : ∀ r, f m p s = .err r ↔ failsFor m p s r) (r : Reason) : f m p s = .err r ↔ tokenizeTold m p s = .err r :=
  (h r).trans (C118_tokenizers m p s r).symm

/-- C119: the getters -/
theorem c119_determines {α : Type} (into into' : Token → Option α) (variant : α → Token) (t : Token)
    (h : ∀ a, into t = some a ↔ t = variant a) (h' : ∀ a, into' t = some a ↔ t = variant a) : into' t = into t := by
  cases e : into' t with
  | some a => exact ((h a).2 ((h' a).1 e)).symm
  | none =>
    cases e' : into t with
    | some a => rw [(h' a).2 ((h a).1 e')] at e; cases e
    | none => rfl

/-! The commands of the tool: the five statements of C85 and of C118 for an `execute`. -/

section
variable (hash : Bytes → Word) (parseHash : Str → Res Word) (prof : Profile) (file : Str → Option (Option Json))

/-- C85, `decode params` -/
theorem c85_determines_decode_params (f : Command → Res Str) (types : List Str) (data : Str)
    (hn : ∀ ts, ReadAs types ts → narrowAll ts = true) (hd : data.length < 2 ^ 63)
    (h : ∀ out, f (.decodeParams types data) = .ok out ↔ ∃ ts bs toks, ReadAs types ts ∧ hexText data bs ∧
      (bs ≠ [] ∨ zeroTypes ts) ∧ readsAll ts bs 0 toks ∧ PrintsLines out ts toks) (out : Str) :
    f (.decodeParams types data) = .ok out ↔ execute hash parseHash prof file (.decodeParams types data) = .ok out :=
  (h out).trans (C85_decode_params hash parseHash prof file types data out hn hd).symm

/-- C85, `decode function` -/
theorem c85_determines_decode_function (f : Command → Res Str) (path name data : Str)
    (hn : ∀ ops f, Declares file path ops → PicksFunction ops name f → narrowAll (f.outputs.map (·.kind)) = true)
    (hd : data.length < 2 ^ 63)
    (h : ∀ out, f (.decodeFunction path name data) = .ok out ↔ ∃ ops f bs toks, Declares file path ops ∧
      PicksFunction ops name f ∧ hexText data bs ∧ (bs ≠ [] ∨ zeroTypes (f.outputs.map (·.kind))) ∧
      readsAll (f.outputs.map (·.kind)) bs 0 toks ∧ PrintsLines out (f.outputs.map (·.kind)) toks) (out : Str) :
    f (.decodeFunction path name data) = .ok out ↔ execute hash parseHash prof file (.decodeFunction path name data) = .ok out :=
  (h out).trans (C85_decode_function hash parseHash prof file path name data out hn hd).symm

/-- C85, `decode log` -/
theorem c85_determines_decode_log (f : Command → Res Str) (path name data : Str) (topics : List Str)
    (hn : ∀ ops e, Declares file path ops → PicksEvent hash ops name e → ∀ p ∈ e.inputs, narrow p.kind = true)
    (ht : topics.length < 2 ^ 58) (hd : data.length < 2 ^ 63)
    (h : ∀ out, f (.decodeLog path name topics data) = .ok out ↔
      ∃ ops e ws bs tt dt values, Declares file path ops ∧ PicksEvent hash ops name e ∧
        List.Forall₂ (fun s w => parseHash s = .ok w) topics ws ∧ hexText data bs ∧
        topicsHold hash e.name (e.inputs.map (·.kind)) e.anonymous (ws.map (·.1)) ((e.inputs.filter (·.indexed)).map (·.kind)) tt ∧
        dataHold bs ((e.inputs.filter (!·.indexed)).map (·.kind)) dt ∧
        List.Forall₂ (fun n v => lastNamed (namedValues e tt dt) n v) (e.inputs.map (·.name)) values ∧
        out = List.intercalate ['\n'] (((e.inputs.map (·.name)).zip values).map fun x => x.1 ++ ' ' :: x.2.display)) (out : Str) :
    f (.decodeLog path name topics data) = .ok out ↔
      execute hash parseHash prof file (.decodeLog path name topics data) = .ok out :=
  (h out).trans (C85_decode_log hash parseHash prof file path name data out topics hn ht hd).symm

/-- C85, `encode params` -/
theorem c85_determines_encode_params (f : Command → Res Str) (args : List Str) (lenient : Bool)
    (h : ∀ out, f (.encodeParams args lenient) = .ok out ↔ ∃ (rows : List Row) (bs : Bytes),
      args = (rows.flatMap fun r => [r.type, r.value]) ∧ (∀ r ∈ rows, r.Stands lenient) ∧
      encode prof (rows.map (·.token)) = .ok bs ∧ PrintsHex out bs) (out : Str) :
    f (.encodeParams args lenient) = .ok out ↔ execute hash parseHash prof file (.encodeParams args lenient) = .ok out :=
  (h out).trans (C85_encode_params hash parseHash prof file args lenient out).symm

/-- C85, `encode function` -/
theorem c85_determines_encode_function (f : Command → Res Str) (path name : Str) (values : List Str) (lenient : Bool)
    (h : ∀ out, f (.encodeFunction path name values lenient) = .ok out ↔ ∃ ops f toks bs,
      Declares file path ops ∧ PicksFunction ops name f ∧ f.inputs.length ≤ values.length ∧
      List.Forall₂ (fun x t => denotes (if lenient then .lenient else .strict) x.1 x.2 t)
        ((f.inputs.map (·.kind)).zip values) toks ∧
      encode prof toks = .ok bs ∧
      PrintsHex out ((textHash hash (signature (String.ofList f.name) (f.inputs.map (·.kind))).toList).1.take 4 ++ bs)) (out : Str) :
    f (.encodeFunction path name values lenient) = .ok out ↔
      execute hash parseHash prof file (.encodeFunction path name values lenient) = .ok out :=
  (h out).trans (C85_encode_function hash parseHash prof file path name values lenient out).symm

/-- C118, `encode params` -/
theorem c118_determines_encode_params (f : Command → Told Reason Str) (args : List Str) (lenient : Bool)
    (h : ∀ r, f (.encodeParams args lenient) = .err r ↔ args.length % 2 = 0 ∧
      (TypeFails (typeArgs args) r ∨ ∃ ts, ReadAs (typeArgs args) ts ∧
        firstRefused (if lenient then .lenient else .strict) (ts.zip (valueArgs args)) r)) (r : Reason) :
    f (.encodeParams args lenient) = .err r ↔ executeTold hash parseHash prof file (.encodeParams args lenient) = .err r :=
  (h r).trans (C118_encode_params hash parseHash prof file args lenient r).symm

/-- C118, `encode function` -/
theorem c118_determines_encode_function (f : Command → Told Reason Str) (path name : Str) (values : List Str) (lenient : Bool)
    (h : ∀ r, f (.encodeFunction path name values lenient) = .err r ↔
      LoadFails file path r ∨ ∃ ops, Declares file path ops ∧ (RefusesFunction ops name r ∨ ∃ f, PicksFunction ops name f ∧
        (firstRefused (if lenient then .lenient else .strict) ((f.inputs.map (·.kind)).zip values) r ∨
          r = .invalidData ∧ values.length < f.inputs.length ∧ ∃ toks,
            List.Forall₂ (fun x t => denotes (if lenient then .lenient else .strict) x.1 x.2 t)
              ((f.inputs.map (·.kind)).zip values) toks))) (r : Reason) :
    f (.encodeFunction path name values lenient) = .err r ↔
      executeTold hash parseHash prof file (.encodeFunction path name values lenient) = .err r :=
  (h r).trans (C118_encode_function hash parseHash prof file path name values lenient r).symm

/-- C118, `decode params` -/
theorem c118_determines_decode_params (f : Command → Told Reason Str) (types : List Str) (data : Str)
    (h : ∀ r, f (.decodeParams types data) = .err r ↔ TypeFails types r ∨ ∃ ts, ReadAs types ts ∧ DataFails prof ts data r)
    (r : Reason) : f (.decodeParams types data) = .err r ↔
      executeTold hash parseHash prof file (.decodeParams types data) = .err r :=
  (h r).trans (C118_decode_params hash parseHash prof file types data r).symm

/-- C118, `decode function` -/
theorem c118_determines_decode_function (f : Command → Told Reason Str) (path name data : Str)
    (h : ∀ r, f (.decodeFunction path name data) = .err r ↔
      LoadFails file path r ∨ ∃ ops, Declares file path ops ∧ (RefusesFunction ops name r ∨ ∃ f, PicksFunction ops name f ∧
        DataFails prof (f.outputs.map (·.kind)) data r)) (r : Reason) :
    f (.decodeFunction path name data) = .err r ↔
      executeTold hash parseHash prof file (.decodeFunction path name data) = .err r :=
  (h r).trans (C118_decode_function hash parseHash prof file path name data r).symm

/-- C118, `decode log` -/
theorem c118_determines_decode_log (f : Command → Told Reason Str) (path name data : Str) (topics : List Str)
    (h : ∀ r, f (.decodeLog path name topics data) = .err r ↔
      LoadFails file path r ∨ ∃ ops, Declares file path ops ∧ (RefusesEvent hash ops name r ∨ ∃ e, PicksEvent hash ops name e ∧
        ((∃ before s after ws x, topics = before ++ s :: after ∧ List.Forall₂ (fun s w => parseHash s = .ok w) before ws ∧
            parseHash s = .err x ∧ r = .ofErr x) ∨
          ∃ ws, List.Forall₂ (fun s w => parseHash s = .ok w) topics ws ∧
            ((∃ h, hexFails data h ∧ r = .plainHex h) ∨ ∃ bs x, hexText data bs ∧
              e.parseLog hash prof { topics := ws, data := bs } = .err x ∧ r = .ofErr x)))) (r : Reason) :
    f (.decodeLog path name topics data) = .err r ↔
      executeTold hash parseHash prof file (.decodeLog path name topics data) = .err r :=
  (h r).trans (C118_decode_log hash parseHash prof file path name data topics r).symm
end

/-! Files of text and of bytes -/

section
variable (hash : Bytes → Word) (parseHash : Str → Res Word) (prof : Profile) (fits : Str → Bool) (trees : Str → Option (Option Json))

/-- C102, commands; there is one `trees` for each `file` (`C102_values`) -/
theorem c102_determines (f : Command → Res Str) (file : Str → Option Str) (hs : Renders fits file trees) (cmd : Command)
    (h : ((∃ path s, Opens cmd path ∧ file path = some s ∧ CrashesEarly fits s) →
        f cmd = .panic ∧ execute hash parseHash prof trees cmd = .err .serdeJson) ∧
      ((¬ ∃ path s, Opens cmd path ∧ file path = some s ∧ CrashesEarly fits s) →
        f cmd = execute hash parseHash prof trees cmd)) : f cmd = executeText hash parseHash prof fits file cmd := by
  have h' := C102_execute hash parseHash prof fits file trees hs cmd
  by_cases hc : ∃ path s, Opens cmd path ∧ file path = some s ∧ CrashesEarly fits s
  · rw [(h.1 hc).1, (h'.1 hc).1]
  · rw [h.2 hc, h'.2 hc]

/-- C105, commands; there is one `trees` for each `file` (`C105_values`) -/
theorem c105_determines_execute (f : Command → Res Str) (file : Str → Option Bytes) (hs : RendersBytes fits file trees) (cmd : Command)
    (h : ((∃ path bs, Opens cmd path ∧ file path = some bs ∧ CrashesEarlyBytes fits bs) →
        f cmd = .panic ∧ execute hash parseHash prof trees cmd = .err .serdeJson) ∧
      ((¬ ∃ path bs, Opens cmd path ∧ file path = some bs ∧ CrashesEarlyBytes fits bs) →
        f cmd = execute hash parseHash prof trees cmd)) : f cmd = executeBytes hash parseHash prof fits file cmd := by
  have h' := C105_execute hash parseHash prof fits file trees hs cmd
  by_cases hc : ∃ path bs, Opens cmd path ∧ file path = some bs ∧ CrashesEarlyBytes fits bs
  · rw [(h.1 hc).1, (h'.1 hc).1]
  · rw [h.2 hc, h'.2 hc]

/-- C102, the macro -/
theorem c102_determines_derive (nm : Naming) (f : List Attribute → Res Code) (dir : Option Str) (file : Str → Option Str)
    (hs : Renders fits file trees) (attrs : List Attribute) (h : f attrs = ethabiDerive nm { manifestDir := dir, file := trees } attrs) :
    f attrs = ethabiDeriveText nm fits dir file attrs := h.trans (C102_derive nm fits dir file trees hs attrs).symm

/-- C105, the macro -/
theorem c105_determines_derive (nm : Naming) (f : List Attribute → Res Code) (dir : Option Str) (file : Str → Option Bytes)
    (hs : RendersBytes fits file trees) (attrs : List Attribute) (h : f attrs = ethabiDerive nm { manifestDir := dir, file := trees } attrs) :
    f attrs = ethabiDeriveBytes nm fits dir file attrs := h.trans (C105_derive nm fits dir file trees hs attrs).symm
end

/-- C54: the generated `parse_log` -/
theorem c54_determines (camel : Str → Str) (hash : Bytes → Word) (prof : Profile) (e : Event) (log : RawLog)
    (f : Event → RawLog → Res (RustArgs (e.inputs.map (·.kind)))) (hg : ∀ p ∈ e.inputs, generated p.kind = true)
    (he : ∀ x, f e log = .err x ↔ Event.parseLog hash prof { e with name := camel e.name } log = .err x)
    (ho : ∀ as, f e log = .ok as ↔ ∃ l, Event.parseLog hash prof { e with name := camel e.name } log = .ok l ∧
      l.params.map (·.value) = toTokens (e.inputs.map (·.kind)) as) :
    (∀ x, f e log = .err x ↔ genParseLog camel hash prof e log = .err x) ∧
    (∀ as, f e log = .ok as ↔ genParseLog camel hash prof e log = .ok as) :=
  ⟨fun x => (he x).trans ((C54_parse_log_exactly camel hash prof e log hg).1 x).symm,
   fun as => (ho as).trans ((C54_parse_log_exactly camel hash prof e log hg).2.1 as).symm⟩

end Ethabi.Checkers

import Verif.Model.Event
import Verif.Model.Tokenizer
/-!
# The command line tool

cli/src/main.rs.  Not modelled: argument parsing (structopt), reading the ABI file (its JSON tree `abi` is the
argument), printing.  `anyhow!` errors are `Err.other`; the errors of the library pass through unchanged.
`parseHash` stands for `H256::from_str` (main.rs:234), a parameter.
-/
namespace Ethabi

/-- `name_or_signature.find('(')` and the slice before it, main.rs:98-103, 131-136 (`find` returns the byte position of
the parenthesis, always a character boundary) -/
def signatureName (s : Str) : Option Str := if '(' ∈ s then some (s.takeWhile (· != '(')) else none

/-- main.rs:98-126: the function of a loaded contract -/
def selectFunction (contract : Contract) (nameOrSignature : Str) : Res Function :=
  match signatureName nameOrSignature with
  | some name => do
      let fs ← contract.functionsByName name
      match fs.find? fun f => f.signature == nameOrSignature with
      | some f => .ok f
      | none => .err .other
  | none => do
      let fs ← contract.functionsByName nameOrSignature
      match fs with
      | [] => .panic
      | [f] => .ok f
      | _ => .err .other

/-- main.rs:95-126 `load_function` -/
def loadFunction (abi : Json) (nameOrSignature : Str) : Res Function := do
  let contract ← deContract abi
  selectFunction contract nameOrSignature

/-- `sig.replace(" ", "")`, main.rs:249 -/
def removeSpaces (s : Str) : Str := s.filter (· != ' ')

/-- main.rs:248-250 `hash_signature` -/
def hashSignature (hash : Bytes → Word) (sig : Str) : Word := hash (strBytes (removeSpaces sig))

/-- main.rs:131-159: the event of a loaded contract -/
def selectEvent (hash : Bytes → Word) (contract : Contract) (nameOrSignature : Str) : Res Event :=
  match signatureName nameOrSignature with
  | some name => do
      let signature := hashSignature hash nameOrSignature
      let es ← contract.eventsByName name
      match es.find? fun e => e.signature hash == signature with
      | some e => .ok e
      | none => .err .other
  | none => do
      let es ← contract.eventsByName nameOrSignature
      match es with
      | [] => .panic
      | [e] => .ok e
      | _ => .err .other

/-- main.rs:128-159 `load_event` -/
def loadEvent (hash : Bytes → Word) (abi : Json) (nameOrSignature : Str) : Res Event := do
  let contract ← deContract abi
  selectEvent hash contract nameOrSignature

/-- main.rs:164-167: which tokenizer -/
def tokenizerOf (lenient : Bool) : Tokenizer := if lenient then .lenient else .strict

/-- main.rs:161-170 `parse_tokens` (`collect` into a `Result` stops at the first error) -/
def parseTokens (lenient : Bool) : List (ParamType × Str) → Res (List Token)
  | [] => .ok []
  | (p, v) :: ps => do
      let t ← tokenize (tokenizerOf lenient) p v
      let ts ← parseTokens lenient ps
      .ok (t :: ts)

/-- main.rs:174-181: `encode_input` after `load_function` -/
def encodeInputOf (hash : Bytes → Word) (prof : Profile) (function : Function) (values : List Str) (lenient : Bool) : Res Str := do
  let tokens ← parseTokens lenient ((function.inputs.map (·.kind)).zip values)
  let result ← function.encodeInput hash prof tokens
  .ok (hexEncode result)

/-- main.rs:172-182 `encode_input` -/
def cliEncodeInput (hash : Bytes → Word) (prof : Profile) (abi : Json) (nameOrSignature : Str) (values : List Str)
    (lenient : Bool) : Res Str := do
  let function ← loadFunction abi nameOrSignature
  encodeInputOf hash prof function values lenient

/-- main.rs:187-191: `tuples::<(_, _)>()` and `Reader::read` of the first component -/
def readPairs : List Str → Res (List (ParamType × Str))
  | x :: y :: rest => do
      let z ← read x
      let ps ← readPairs rest
      .ok ((z, y) :: ps)
  | _ => .ok []

/-- main.rs:184-197 `encode_params` -/
def cliEncodeParams (prof : Profile) (params : List Str) (lenient : Bool) : Res Str :=
  if params.length % 2 ≠ 0 then .panic
  else do
    let params ← readPairs params
    let tokens ← parseTokens lenient params
    let result ← encode prof tokens
    .ok (hexEncode result)

/-- main.rs:207-212, 226-227: one line per value -/
def typedLines : List ParamType → List Token → List Str
  | ty :: tys, t :: ts => (write ty ++ lit " " ++ t.display) :: typedLines tys ts
  | _, _ => []

/-- main.rs:201-214: `decode_call_output` after `load_function` -/
def decodeOutputOf (prof : Profile) (function : Function) (data : Str) : Res Str := do
  let data ← hexDecode data
  let tokens ← function.decodeOutput prof data
  if function.outputs.length ≠ tokens.length then .panic
  else .ok (join (lit "\n") (typedLines (function.outputs.map (·.kind)) tokens))

/-- main.rs:199-215 `decode_call_output` -/
def cliDecodeOutput (prof : Profile) (abi : Json) (nameOrSignature : Str) (data : Str) : Res Str := do
  let function ← loadFunction abi nameOrSignature
  decodeOutputOf prof function data

/-- main.rs:218: all type texts -/
def readAll : List Str → Res (List ParamType)
  | [] => .ok []
  | s :: ss => do
      let t ← read s
      let ts ← readAll ss
      .ok (t :: ts)

/-- main.rs:217-230 `decode_params` -/
def cliDecodeParams (prof : Profile) (types : List Str) (data : Str) : Res Str := do
  let types ← readAll types
  let data ← hexDecode data
  let tokens ← decode prof types data
  if types.length ≠ tokens.length then .panic
  else .ok (join (lit "\n") (typedLines types tokens))

/-- main.rs:234: all topics -/
def parseHashes (parseHash : Str → Res Word) : List Str → Res (List Word)
  | [] => .ok []
  | s :: ss => do
      let h ← parseHash s
      let hs ← parseHashes parseHash ss
      .ok (h :: hs)

/-- main.rs:234-245: `decode_log` after `load_event` -/
def decodeLogOf (hash : Bytes → Word) (parseHash : Str → Res Word) (prof : Profile) (event : Event) (topics : List Str)
    (data : Str) : Res Str := do
  let topics ← parseHashes parseHash topics
  let data ← hexDecode data
  let decoded ← event.parseLog hash prof { topics := topics, data := data }
  .ok (join (lit "\n") (decoded.params.map fun p => p.name ++ lit " " ++ p.value.display))

/-- main.rs:232-246 `decode_log` -/
def cliDecodeLog (hash : Bytes → Word) (parseHash : Str → Res Word) (prof : Profile) (abi : Json)
    (nameOrSignature : Str) (topics : List Str) (data : Str) : Res Str := do
  let event ← loadEvent hash abi nameOrSignature
  decodeLogOf hash parseHash prof event topics data

end Ethabi

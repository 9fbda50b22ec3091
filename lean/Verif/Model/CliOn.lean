import Verif.Model.CliExecute
import Verif.Model.EventOn
import Verif.Model.JsonOn
/-!
# The command line tool on targets whose `usize` has `bits` bits

The same source lines as in Model/Cli.lean and Model/CliExecute.lean, with the reader of types, the loader of ABIs, the encoder and
the decoder for `bits` bits.  The tokenizers compute no positions from numbers in the texts and are the same on every target.
`C122_same_code` proves that this is the model of the other claims for `bits = 64`.
-/
namespace Ethabi

/-- cli/src/main.rs:95-126 `load_function` -/
def loadFunctionOn (bits : Nat) (abi : Json) (nameOrSignature : Str) : Res Function := do
  let contract ← deContractOn bits abi
  selectFunction contract nameOrSignature

/-- main.rs:128-159 `load_event` -/
def loadEventOn (bits : Nat) (hash : Bytes → Word) (abi : Json) (nameOrSignature : Str) : Res Event := do
  let contract ← deContractOn bits abi
  selectEvent hash contract nameOrSignature

/-- main.rs:172-182 `encode_input` -/
def cliEncodeInputOn (bits : Nat) (hash : Bytes → Word) (prof : Profile) (abi : Json) (nameOrSignature : Str) (values : List Str)
    (lenient : Bool) : Res Str := do
  let function ← loadFunctionOn bits abi nameOrSignature
  let tokens ← parseTokens lenient ((function.inputs.map (·.kind)).zip values)
  let result ← function.encodeInputOn bits hash prof tokens
  .ok (hexEncode result)

/-- main.rs:187-191: `tuples::<(_, _)>()` and `Reader::read` of the first component -/
def readPairsOn (bits : Nat) : List Str → Res (List (ParamType × Str))
  | x :: y :: rest => do
      let z ← readOn bits x
      let ps ← readPairsOn bits rest
      .ok ((z, y) :: ps)
  | _ => .ok []

/-- main.rs:184-197 `encode_params` -/
def cliEncodeParamsOn (bits : Nat) (prof : Profile) (params : List Str) (lenient : Bool) : Res Str :=
  if params.length % 2 ≠ 0 then .panic
  else do
    let params ← readPairsOn bits params
    let tokens ← parseTokens lenient params
    let result ← encodeOn bits prof tokens
    .ok (hexEncode result)

/-- main.rs:199-215 `decode_call_output` -/
def cliDecodeOutputOn (bits : Nat) (prof : Profile) (abi : Json) (nameOrSignature : Str) (data : Str) : Res Str := do
  let function ← loadFunctionOn bits abi nameOrSignature
  let data ← hexDecode data
  let tokens ← function.decodeOutputOn bits prof data
  if function.outputs.length ≠ tokens.length then .panic
  else .ok (join (lit "\n") (typedLines (function.outputs.map (·.kind)) tokens))

/-- main.rs:218: all type texts -/
def readAllOn (bits : Nat) : List Str → Res (List ParamType)
  | [] => .ok []
  | s :: ss => do
      let t ← readOn bits s
      let ts ← readAllOn bits ss
      .ok (t :: ts)

/-- main.rs:217-230 `decode_params` -/
def cliDecodeParamsOn (bits : Nat) (prof : Profile) (types : List Str) (data : Str) : Res Str := do
  let types ← readAllOn bits types
  let data ← hexDecode data
  let tokens ← decodeOn bits prof types data
  if types.length ≠ tokens.length then .panic
  else .ok (join (lit "\n") (typedLines types tokens))

/-- main.rs:232-246 `decode_log` -/
def cliDecodeLogOn (bits : Nat) (hash : Bytes → Word) (parseHash : Str → Res Word) (prof : Profile) (abi : Json)
    (nameOrSignature : Str) (topics : List Str) (data : Str) : Res Str := do
  let event ← loadEventOn bits hash abi nameOrSignature
  let topics ← parseHashes parseHash topics
  let data ← hexDecode data
  let decoded ← event.parseLogOn bits hash prof { topics := topics, data := data }
  .ok (join (lit "\n") (decoded.params.map fun p => p.name ++ lit " " ++ p.value.display))

/-- main.rs:73-93 `execute` -/
def executeOn (bits : Nat) (hash : Bytes → Word) (parseHash : Str → Res Word) (prof : Profile)
    (file : Str → Option (Option Json)) : Command → Res Str
  | .encodeFunction path name params lenient =>
      openAbi file path >>= fun abi => cliEncodeInputOn bits hash prof abi name params lenient
  | .encodeParams params lenient => cliEncodeParamsOn bits prof params lenient
  | .decodeFunction path name data => openAbi file path >>= fun abi => cliDecodeOutputOn bits prof abi name data
  | .decodeParams types data => cliDecodeParamsOn bits prof types data
  | .decodeLog path name topics data =>
      openAbi file path >>= fun abi => cliDecodeLogOn bits hash parseHash prof abi name topics data

end Ethabi

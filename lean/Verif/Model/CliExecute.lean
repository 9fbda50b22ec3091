import Verif.Model.Cli
/-!
# The command line tool: `execute`

cli/src/main.rs:13-93 after `structopt` has parsed the arguments.  `file` stands for the file system together with
`serde_json`'s parser of JSON texts: `none` when a file cannot be opened, `some none` when it is not JSON.
-/
namespace Ethabi

/-- main.rs:13-65 `Opt`, `Encode` and `Decode` -/
inductive Command where
  | encodeFunction (abiPath nameOrSignature : Str) (params : List Str) (lenient : Bool)
  | encodeParams (params : List Str) (lenient : Bool)
  | decodeFunction (abiPath nameOrSignature data : Str)
  | decodeParams (types : List Str) (data : Str)
  | decodeLog (abiPath nameOrSignature : Str) (topics : List Str) (data : Str)

/-- main.rs:96-97, 129-130: opening the file, and the text of `Contract::load` as a JSON tree -/
def openAbi (file : Str → Option (Option Json)) (path : Str) : Res Json :=
  match file path with
  | none => .err .other
  | some none => .err .serdeJson
  | some (some j) => .ok j

/-- main.rs:73-93 `execute` -/
def execute (hash : Bytes → Word) (parseHash : Str → Res Word) (prof : Profile) (file : Str → Option (Option Json)) :
    Command → Res Str
  | .encodeFunction path name params lenient =>
      openAbi file path >>= fun abi => cliEncodeInput hash prof abi name params lenient
  | .encodeParams params lenient => cliEncodeParams prof params lenient
  | .decodeFunction path name data => openAbi file path >>= fun abi => cliDecodeOutput prof abi name data
  | .decodeParams types data => cliDecodeParams prof types data
  | .decodeLog path name topics data => openAbi file path >>= fun abi => cliDecodeLog hash parseHash prof abi name topics data

end Ethabi

import Verif.Model.Encoder
import Verif.Model.Decoder
import Verif.Model.Writer
/-!
# Signatures, functions and constructors

Keccak-256 is a parameter `hash : Bytes → Word` of every definition that uses it.
-/
namespace Ethabi

/-- ethabi/src/param.rs:21-29 `struct Param`. -/
structure Param where
  name : Str
  kind : ParamType
  internalType : Option Str
deriving DecidableEq

/-- ethabi/src/state_mutability.rs:5-18. -/
inductive StateMutability where
  | pure
  | view
  | nonPayable
  | payable
deriving DecidableEq

/-- ethabi/src/function.rs:20-37 `struct Function`. -/
structure Function where
  name : Str
  inputs : List Param
  outputs : List Param
  constant : Bool
  stateMutability : StateMutability
deriving DecidableEq

/-- ethabi/src/constructor.rs:15-18 `struct Constructor`. -/
structure Constructor where
  inputs : List Param
deriving DecidableEq

/-- signature.rs:28-30: the text that is hashed -/
def signatureText (name : Str) (params : List ParamType) : Str :=
  name ++ lit "(" ++ join (lit ",") (params.map write) ++ lit ")"

/-- signature.rs:15-19 `short_signature` (with `fill_signature`, 27-33). -/
def shortSignature (hash : Bytes → Word) (name : Str) (params : List ParamType) : Bytes :=
  (hash (strBytes (signatureText name params))).1.take 4

/-- signature.rs:21-25 `long_signature`. -/
def longSignature (hash : Bytes → Word) (name : Str) (params : List ParamType) : Word :=
  hash (strBytes (signatureText name params))

/-- function.rs:41-43 `Function::input_param_types`. -/
def Function.inputParamTypes (f : Function) : List ParamType := f.inputs.map (·.kind)

/-- function.rs:46-48 `Function::output_param_types`. -/
def Function.outputParamTypes (f : Function) : List ParamType := f.outputs.map (·.kind)

/-- function.rs:51-61 `Function::encode_input`. -/
def Function.encodeInput (hash : Bytes → Word) (prof : Profile) (f : Function) (tokens : List Token) : Res Bytes := do
  let params := f.inputParamTypes
  let okay ← Token.typesCheck tokens params
  if !okay then .err .invalidData
  else
    let signed := shortSignature hash f.name params
    let encoded ← encode prof tokens
    .ok (signed ++ encoded)

/-- function.rs:64-66 `Function::decode_output`. -/
def Function.decodeOutput (prof : Profile) (f : Function) (data : Bytes) : Res (List Token) :=
  decode prof f.outputParamTypes data

/-- function.rs:69-71 `Function::decode_input`. -/
def Function.decodeInput (prof : Profile) (f : Function) (data : Bytes) : Res (List Token) :=
  decode prof f.inputParamTypes data

/-- function.rs:80-89 `Function::signature`. -/
def Function.signature (f : Function) : Str :=
  let inputs := join (lit ",") (f.inputs.map fun p => write p.kind)
  let outputs := join (lit ",") (f.outputs.map fun p => write p.kind)
  if outputs.length = 0 then f.name ++ lit "(" ++ inputs ++ lit ")"
  else f.name ++ lit "(" ++ inputs ++ lit "):(" ++ outputs ++ lit ")"

/-- constructor.rs:22-24 `Constructor::param_types`. -/
def Constructor.paramTypes (c : Constructor) : List ParamType := c.inputs.map (·.kind)

/-- constructor.rs:27-35 `Constructor::encode_input`. -/
def Constructor.encodeInput (prof : Profile) (c : Constructor) (code : Bytes) (tokens : List Token) : Res Bytes := do
  let okay ← Token.typesCheck tokens c.paramTypes
  if okay then
    let e ← encode prof tokens
    .ok (code ++ e)
  else .err .invalidData

end Ethabi

import Verif.Spec.RustText
/-!
# Specification: the items that generated text consists of

A generated module has a text and functions that can be called.  The functions call each other as in Rust: by name, unless a
local variable has that name.
-/
namespace Ethabi.Spec

/-- `a: T0, b: T1, ..`, from number `i` on -/
def paramCodes : Nat → List Str → List Code
  | _, [] => []
  | i, n :: ns => ([Tok.word n] ++ r! ":" ++ [Tok.word (numbered "T" i)]) :: paramCodes (i + 1) ns

/-- a module without functions -/
def bare (hash : Bytes → Word) (prof : Profile) : World :=
  { hash, prof, items := fun _ _ => .stuck, decode := fun _ _ => .stuck }

/-! ## Function modules -/

/-- `pub mod name { .. }` for a function of the contract -/
structure FunctionModule where
  name : Str
  /-- body of `function` -/
  function : Expr
  /-- text of the type of the outputs -/
  output : Code
  /-- body of the decoder's `decode` -/
  decode : Expr
  /-- text of the generic parameters and their bounds -/
  generics : List Code
  params : List Str
  encodeInput : Expr
  decodeOutput : Expr
  call : Expr

namespace FunctionModule
/-- the text -/
def code (m : FunctionModule) : Code :=
  let signature := r! "<" ++ commas m.generics ++ r! "> (" ++ commas (paramCodes 0 m.params) ++ r! ")"
  r! "pub mod" ++ [.word m.name] ++ r! "{ use ethabi ; use super :: INTERNAL_ERR ;" ++
    r! "fn function ( ) -> ethabi :: Function {" ++ m.function.code ++ r! "}" ++
    [.doc (lit "Generic function output decoder.")] ++ r! "pub struct Decoder ( ethabi :: Function ) ;" ++
    r! "impl ethabi :: FunctionOutputDecoder for Decoder { type Output =" ++ m.output ++
    r! "; fn decode ( & self , output : & [ u8 ] ) -> ethabi :: Result < Self :: Output > {" ++ m.decode.code ++ r! "} }" ++
    [.doc (lit "Encodes function input.")] ++ r! "pub fn encode_input" ++ signature ++ r! "-> ethabi :: Bytes {" ++
    m.encodeInput.code ++ r! "}" ++
    [.doc (lit "Decodes function output.")] ++ r! "pub fn decode_output ( output : & [ u8 ] ) -> ethabi :: Result <" ++ m.output ++
    r! "> {" ++ m.decodeOutput.code ++ r! "}" ++
    [.doc (lit "Encodes function output and creates a `Decoder` instance.")] ++ r! "pub fn call" ++ signature ++
    r! "-> ( ethabi :: Bytes , Decoder ) {" ++ m.call.code ++ r! "} }"

variable (m : FunctionModule) (hash : Bytes → Word) (prof : Profile)

/-- the private `function()` -/
def runFunction : Run Val := runFn (bare hash prof) [] [] m.function

/-- where the bodies run: `function` can be called, and `decode` -/
def world : World where
  hash := hash
  prof := prof
  items n vs := if n = lit "function" ∧ vs.length = 0 then m.runFunction hash prof else .stuck
  decode d v := runMethod (bare hash prof) d [lit "output"] [v] m.decode

/-- `encode_input(args..)` -/
def runEncodeInput (args : List Val) : Run Val := runFn (m.world hash prof) m.params args m.encodeInput
/-- `decode_output(data)` -/
def runDecodeOutput (data : Bytes) : Run Val := runFn (m.world hash prof) [lit "output"] [.bytes data] m.decodeOutput
/-- `call(args..)` -/
def runCall (args : List Val) : Run Val := runFn (m.world hash prof) m.params args m.call
/-- `FunctionOutputDecoder::decode(&decoder, data)` -/
def runDecode (decoder : Val) (data : Bytes) : Run Val := (m.world hash prof).decode decoder (.bytes data)
end FunctionModule

/-! ## The constructor -/

/-- `pub fn constructor<..>(code: ethabi::Bytes, ..) -> ethabi::Bytes { .. }` -/
structure ConstructorItem where
  generics : List Code
  params : List Str
  body : Expr

namespace ConstructorItem
/-- the text -/
def code (m : ConstructorItem) : Code :=
  [.doc (lit "Encodes a call to contract's constructor.")] ++ r! "pub fn constructor <" ++ commas m.generics ++ r! "> (" ++
    commas (r! "code : ethabi :: Bytes" :: paramCodes 0 m.params) ++ r! ") -> ethabi :: Bytes {" ++ m.body.code ++ r! "}"
/-- `constructor(code, args..)` -/
def run (m : ConstructorItem) (hash : Bytes → Word) (prof : Profile) (code : Bytes) (args : List Val) : Run Val :=
  runFn (bare hash prof) (lit "code" :: m.params) (.bytes code :: args) m.body
end ConstructorItem

/-! ## Event modules and log structs -/

/-- `pub mod name { .. }` for an event of the contract -/
structure EventModule where
  name : Str
  /-- name of the struct in the module `logs` -/
  logName : Str
  /-- body of `event` -/
  event : Expr
  generics : List Code
  params : List Str
  filter : Expr
  wildcardFilter : Expr
  parseLog : Expr

namespace EventModule
/-- the text -/
def code (m : EventModule) : Code :=
  r! "pub mod" ++ [.word m.name] ++ r! "{ use ethabi ; use super :: INTERNAL_ERR ;" ++
    r! "pub fn event ( ) -> ethabi :: Event {" ++ m.event.code ++ r! "}" ++
    r! "pub fn filter <" ++ commas m.generics ++ r! "> (" ++ commas (paramCodes 0 m.params) ++
    r! ") -> ethabi :: TopicFilter {" ++ m.filter.code ++ r! "}" ++
    r! "pub fn wildcard_filter ( ) -> ethabi :: TopicFilter {" ++ m.wildcardFilter.code ++ r! "}" ++
    r! "pub fn parse_log ( log : ethabi :: RawLog ) -> ethabi :: Result < super :: super :: logs ::" ++ [.word m.logName] ++
    r! "> {" ++ m.parseLog.code ++ r! "} }"

variable (m : EventModule) (hash : Bytes → Word) (prof : Profile)

/-- `event()` -/
def runEvent : Run Val := runFn (bare hash prof) [] [] m.event

/-- `event` can be called -/
def inner : World := { bare hash prof with
  items := fun n vs => if n = lit "event" ∧ vs.length = 0 then m.runEvent hash prof else .stuck }

/-- `filter(args..)` -/
def runFilter (args : List Val) : Run Val := runFn (m.inner hash prof) m.params args m.filter

/-- `event` and `filter` can be called -/
def world : World := { bare hash prof with
  items := fun n vs =>
    if n = lit "filter" then m.runFilter hash prof vs
    else if n = lit "event" ∧ vs.length = 0 then m.runEvent hash prof else .stuck }

/-- `wildcard_filter()` -/
def runWildcardFilter : Run Val := runFn (m.world hash prof) [] [] m.wildcardFilter
/-- `parse_log(log)` -/
def runParseLog (log : RawLog) : Run Val := runFn (m.world hash prof) [lit "log"] [.rawLog log] m.parseLog
end EventModule

/-- `pub struct Name { pub a: A, .. }` -/
structure LogStruct where
  name : Str
  fields : List Str
  types : List Code

/-- the text -/
def LogStruct.code (s : LogStruct) : Code :=
  r! "# [ derive ( Debug , Clone , PartialEq ) ] pub struct" ++ [.word s.name] ++ r! "{" ++
    commas (List.zipWith (fun n t => r! "pub" ++ [Tok.word n] ++ r! ":" ++ t) s.fields s.types) ++ r! "}"

/-- the text of a contract -/
structure ContractText where
  constructor : Option ConstructorItem
  functions : List FunctionModule
  events : List EventModule
  logs : List LogStruct

/-- the text -/
def ContractText.code (c : ContractText) : Code :=
  r! "use ethabi ; const INTERNAL_ERR : & 'static str =" ++ [.str (lit "`ethabi_derive` internal error")] ++ r! ";" ++
    (match c.constructor with | .none => [] | .some k => k.code) ++
    [.doc (lit "Contract's functions.")] ++ r! "pub mod functions { use super :: INTERNAL_ERR ;" ++
    (c.functions.map (·.code)).flatten ++ r! "}" ++
    [.doc (lit "Contract's events.")] ++ r! "pub mod events { use super :: INTERNAL_ERR ;" ++
    (c.events.map (·.code)).flatten ++ r! "}" ++
    [.doc (lit "Contract's logs.")] ++ r! "pub mod logs { use super :: INTERNAL_ERR ; use ethabi ;" ++
    (c.logs.map (·.code)).flatten ++ r! "}"

/-! ## Rust types -/

/-- types of values in generated code -/
inductive RType where
  | address | bytes | hash | int | uint | bool | string
  /-- `[u8; n]` -/
  | byteArray (n : Nat)
  /-- `Vec<T>` -/
  | vec (t : RType)
  /-- `[T; n]` -/
  | array (t : RType) (n : Nat)

/-- the text -/
def RType.code : RType → Code
  | .address => r! "ethabi :: Address"
  | .bytes => r! "ethabi :: Bytes"
  | .hash => r! "ethabi :: Hash"
  | .int => r! "ethabi :: Int"
  | .uint => r! "ethabi :: Uint"
  | .bool => r! "bool"
  | .string => r! "String"
  | .byteArray n => r! "[ u8 ;" ++ [.num n] ++ r! "]"
  | .vec t => r! "Vec <" ++ t.code ++ r! ">"
  | .array t n => r! "[" ++ t.code ++ r! ";" ++ [.num n] ++ r! "]"

/-- The bound of a generic parameter with number `i`: `T: Into<R>`, `T: IntoIterator<Item = U>, U: Into<R>` or
`T: Into<[U; n]>, U: Into<R>`. -/
inductive Generic where
  | into (i : Nat) (r : RType)
  | items (i : Nat) (r : RType)
  | array (i n : Nat) (r : RType)

/-- the text -/
def Generic.code : Generic → Code
  | .into i r => [.word (numbered "T" i)] ++ r! ": Into <" ++ r.code ++ r! ">"
  | .items i r => [.word (numbered "T" i)] ++ r! ": IntoIterator < Item =" ++ [.word (numbered "U" i)] ++ r! "> ," ++
      [.word (numbered "U" i)] ++ r! ": Into <" ++ r.code ++ r! ">"
  | .array i n r => [.word (numbered "T" i)] ++ r! ": Into < [" ++ [.word (numbered "U" i)] ++ r! ";" ++ [.num n] ++ r! "] > ," ++
      [.word (numbered "U" i)] ++ r! ": Into <" ++ r.code ++ r! ">"

/-- No two modules or structs of one module have the same name, as rustc demands. -/
def ContractText.distinct (c : ContractText) : Bool :=
  decide (c.functions.map (·.name)).Nodup && decide (c.events.map (·.name)).Nodup && decide (c.logs.map (·.name)).Nodup

end Ethabi.Spec

import Verif.Model.Contract
/-!
# The generator `derive(EthabiContract)`

derive/src turns a `Contract` into Rust source text.  Here the text is a list of tokens, and each function of derive/src is a
function that produces it.  What the text does when it is run is modelled separately, in `Model/Derive.lean` by hand and in
`Spec/RustText.lean` from the text itself.

A doc comment is one token.  Spacing between punctuation characters is not represented, so `>>` is two tokens.

Not modelled: reading the attribute and the file (lib.rs:27-83); the order of iteration over the maps of functions and events
(the entries are taken in the order of the list); running out of memory (lib.rs:270 builds one token stream per element of a
fixed-size array).

Outside the repository, so parameters: `heck`'s case conversions and the test for identifiers made by `syn::Ident::new`.
-/
namespace Ethabi

/-- One token of Rust source text. -/
inductive Tok where
  /-- identifier, keyword, punctuation or literal written in a template -/
  | word (s : Str)
  /-- string literal with the given contents, `#name` for a `String` -/
  | str (s : Str)
  /-- `#x` for a `usize`: a literal with the suffix `usize` -/
  | num (n : Nat)
  /-- integer literal without suffix, such as `#size` for a `syn::Index` -/
  | index (n : Nat)
  /-- doc comment -/
  | doc (s : Str)
deriving DecidableEq

/-- `proc_macro2::TokenStream` -/
abbrev Code := List Tok

/-- words of template text -/
def txt (ws : List Str) : Code := ws.map Tok.word

/-- `r! "a b c"` is the template text with the words `a`, `b` and `c` -/
macro "r! " s:str : term => do
  let ws ← (s.getString.splitOn " ").mapM fun w => `(lit $(Lean.quote w))
  `(txt [$ws.toArray,*])

/-- The functions outside the repository that the generator depends on. -/
structure Naming where
  /-- `heck::SnakeCase::to_snake_case` -/
  snake : Str → Str
  /-- `heck::CamelCase::to_camel_case` -/
  camel : Str → Str
  /-- `syn::Ident::new` accepts the text -/
  valid : Str → Bool

/-- `syn::Ident::new`: panics unless the text is an identifier or a keyword -/
def Naming.ident (nm : Naming) (s : Str) : Res Str := if nm.valid s then .ok s else .panic

/-- `#(#cs),*` -/
def commas : List Code → Code
  | [] => []
  | [c] => c
  | c :: d :: cs => c ++ r! "," ++ commas (d :: cs)

/-- `#b` for a `bool` -/
def boolTok (b : Bool) : Tok := if b then .word (lit "true") else .word (lit "false")

/-- `iter.map(f).collect()` where `f` may panic -/
def mapRes {α β : Type} (f : α → Res β) : List α → Res (List β)
  | [] => .ok []
  | a :: as => do
      let b ← f a
      let bs ← mapRes f as
      .ok (b :: bs)

/-- derive/src/lib.rs:85-106 `to_syntax_string`; tuples are `unimplemented!` -/
def toSyntaxString : ParamType → Res Code
  | .address => .ok (r! "ethabi :: ParamType :: Address")
  | .bytes => .ok (r! "ethabi :: ParamType :: Bytes")
  | .int x => .ok (r! "ethabi :: ParamType :: Int (" ++ [.num x] ++ r! ")")
  | .uint x => .ok (r! "ethabi :: ParamType :: Uint (" ++ [.num x] ++ r! ")")
  | .bool => .ok (r! "ethabi :: ParamType :: Bool")
  | .string => .ok (r! "ethabi :: ParamType :: String")
  | .array t => do
      let c ← toSyntaxString t
      .ok (r! "ethabi :: ParamType :: Array ( Box :: new (" ++ c ++ r! ") )")
  | .fixedBytes x => .ok (r! "ethabi :: ParamType :: FixedBytes (" ++ [.num x] ++ r! ")")
  | .fixedArray t x => do
      let c ← toSyntaxString t
      .ok (r! "ethabi :: ParamType :: FixedArray ( Box :: new (" ++ c ++ r! ") ," ++ [.num x] ++ r! ")")
  | .tuple _ => .panic

/-- lib.rs:112-123: one element of the vector -/
def paramCode (p : Param) : Res Code := do
  let kind ← toSyntaxString p.kind
  .ok (r! "ethabi :: Param { name :" ++ [.str p.name] ++ r! ". to_owned ( ) , kind :" ++ kind ++ r! ", internal_type : None }")

/-- `vec![ #(#cs),* ]` -/
def vecCode (cs : List Code) : Code := r! "vec ! [" ++ commas cs ++ r! "]"

/-- lib.rs:108-128 `to_ethabi_param_vec` -/
def toEthabiParamVec (ps : List Param) : Res Code := do
  let cs ← mapRes paramCode ps
  .ok (vecCode cs)

/-- lib.rs:130-152 `rust_type` -/
def rustType : ParamType → Res Code
  | .address => .ok (r! "ethabi :: Address")
  | .bytes => .ok (r! "ethabi :: Bytes")
  | .fixedBytes n => if n = 32 then .ok (r! "ethabi :: Hash") else .ok (r! "[ u8 ;" ++ [.num n] ++ r! "]")
  | .int _ => .ok (r! "ethabi :: Int")
  | .uint _ => .ok (r! "ethabi :: Uint")
  | .bool => .ok (r! "bool")
  | .string => .ok (r! "String")
  | .array t => do
      let c ← rustType t
      .ok (r! "Vec <" ++ c ++ r! ">")
  | .fixedArray t n => do
      let c ← rustType t
      .ok (r! "[" ++ c ++ r! "," ++ [.num n] ++ r! "]")
  | .tuple _ => .panic

/-- the identifier `T0`, `U1`, `param2`, `topic3`: always accepted by `syn::Ident::new` -/
def numbered (stem : String) (i : Nat) : Str := lit stem ++ natText i

/-- lib.rs:154-182 `template_param_type` -/
def templateParamType (t : ParamType) (index : Nat) : Res Code :=
  let tid : Code := [.word (numbered "T" index)]
  let uid : Code := [.word (numbered "U" index)]
  match t with
  | .address => .ok (tid ++ r! ": Into < ethabi :: Address >")
  | .bytes => .ok (tid ++ r! ": Into < ethabi :: Bytes >")
  | .fixedBytes n =>
      if n = 32 then .ok (tid ++ r! ": Into < ethabi :: Hash >")
      else .ok (tid ++ r! ": Into < [ u8 ;" ++ [.num n] ++ r! "] >")
  | .int _ => .ok (tid ++ r! ": Into < ethabi :: Int >")
  | .uint _ => .ok (tid ++ r! ": Into < ethabi :: Uint >")
  | .bool => .ok (tid ++ r! ": Into < bool >")
  | .string => .ok (tid ++ r! ": Into < String >")
  | .array k => do
      let c ← rustType k
      .ok (tid ++ r! ": IntoIterator < Item =" ++ uid ++ r! "> ," ++ uid ++ r! ": Into <" ++ c ++ r! ">")
  | .fixedArray k n => do
      let c ← rustType k
      .ok (tid ++ r! ": Into < [" ++ uid ++ r! ";" ++ [.num n] ++ r! "] > ," ++ uid ++ r! ": Into <" ++ c ++ r! ">")
  | .tuple _ => .panic

/-- lib.rs:184-192 `from_template_param` -/
def fromTemplateParam (t : ParamType) (name : Str) : Code :=
  match t with
  | .array _ => [.word name] ++ r! ". into_iter ( ) . map ( Into :: into ) . collect :: < Vec < _ > > ( )"
  | .fixedArray _ _ =>
      r! "( Box :: new (" ++ [.word name] ++ r! ". into ( ) ) as Box < [ _ ] > )" ++
        r! ". into_vec ( ) . into_iter ( ) . map ( Into :: into ) . collect :: < Vec < _ > > ( )"
  | _ => [.word name] ++ r! ". into ( )"

/-- lib.rs:194-229 `to_token` -/
def toTokenCode (name : Code) : ParamType → Res Code
  | .address => .ok (r! "ethabi :: Token :: Address (" ++ name ++ r! ")")
  | .bytes => .ok (r! "ethabi :: Token :: Bytes (" ++ name ++ r! ")")
  | .fixedBytes _ => .ok (r! "ethabi :: Token :: FixedBytes (" ++ name ++ r! ". as_ref ( ) . to_vec ( ) )")
  | .int _ => .ok (r! "ethabi :: Token :: Int (" ++ name ++ r! ")")
  | .uint _ => .ok (r! "ethabi :: Token :: Uint (" ++ name ++ r! ")")
  | .bool => .ok (r! "ethabi :: Token :: Bool (" ++ name ++ r! ")")
  | .string => .ok (r! "ethabi :: Token :: String (" ++ name ++ r! ")")
  | .array k => do
      let c ← toTokenCode (r! "inner") k
      .ok (r! "{ let v =" ++ name ++ r! ". into_iter ( ) . map ( | inner |" ++ c ++
        r! ") . collect ( ) ; ethabi :: Token :: Array ( v ) }")
  | .fixedArray k _ => do
      let c ← toTokenCode (r! "inner") k
      .ok (r! "{ let v =" ++ name ++ r! ". into_iter ( ) . map ( | inner |" ++ c ++
        r! ") . collect ( ) ; ethabi :: Token :: FixedArray ( v ) }")
  | .tuple _ => .panic

/-- `syn::Index::from(usize)`: asserts that the number is less than `u32::MAX` -/
def synIndex (n : Nat) : Res Tok := if n < 2 ^ 32 - 1 then .ok (.index n) else .panic

/-- lib.rs:231-283 `from_token` -/
def fromTokenCode (token : Code) : ParamType → Res Code
  | .address => .ok (token ++ r! ". into_address ( ) . expect ( INTERNAL_ERR )")
  | .bytes => .ok (token ++ r! ". into_bytes ( ) . expect ( INTERNAL_ERR )")
  | .fixedBytes n =>
      if n = 32 then
        .ok (r! "{ let mut result = [ 0u8 ;" ++ [.index 32] ++ r! "] ; let v =" ++ token ++
          r! ". into_fixed_bytes ( ) . expect ( INTERNAL_ERR ) ; result . copy_from_slice ( & v ) ;" ++
          r! "ethabi :: Hash :: from ( result ) }")
      else do
        let size ← synIndex n
        .ok (r! "{ let mut result = [ 0u8 ;" ++ [size] ++ r! "] ; let v =" ++ token ++
          r! ". into_fixed_bytes ( ) . expect ( INTERNAL_ERR ) ; result . copy_from_slice ( & v ) ;" ++ r! "result }")
  | .int _ => .ok (token ++ r! ". into_int ( ) . expect ( INTERNAL_ERR )")
  | .uint _ => .ok (token ++ r! ". into_uint ( ) . expect ( INTERNAL_ERR )")
  | .bool => .ok (token ++ r! ". into_bool ( ) . expect ( INTERNAL_ERR )")
  | .string => .ok (token ++ r! ". into_string ( ) . expect ( INTERNAL_ERR )")
  | .array k => do
      let c ← fromTokenCode (r! "inner") k
      .ok (token ++ r! ". into_array ( ) . expect ( INTERNAL_ERR ) . into_iter ( ) . map ( | inner |" ++ c ++
        r! ") . collect ( )")
  | .fixedArray k n => do
      let c ← fromTokenCode (r! "inner") k
      .ok (r! "{ let iter =" ++ token ++ r! ". to_array ( ) . expect ( INTERNAL_ERR ) . into_iter ( ) . map ( | inner |" ++
        c ++ r! ") ; [" ++ commas (List.replicate n (r! "iter . next ( )")) ++ r! "] }")
  | .tuple _ => .panic

/-- lib.rs:317-326 `rust_variable` -/
def rustVariable (nm : Naming) (name : Str) : Str := if name = lit "self" then lit "_self" else nm.snake name

/-- lib.rs:290-294: the name of an input; `param` with its position when it has none -/
def inputName (nm : Naming) (i : Nat) (p : Param) : Res Str :=
  if p.name.isEmpty then .ok (numbered "param" i) else nm.ident (rustVariable nm p.name)

/-- lib.rs:285-297 `input_names`, from position `i` on -/
def inputNamesFrom (nm : Naming) : Nat → List Param → Res (List Str)
  | _, [] => .ok []
  | i, p :: ps => do
      let n ← inputName nm i p
      let ns ← inputNamesFrom nm (i + 1) ps
      .ok (n :: ns)

/-- lib.rs:299-301 `get_template_names` -/
def templateNames (n : Nat) : List Str := (List.range n).map (numbered "T")

/-- lib.rs:303-315 `get_output_kinds` -/
def outputKinds (outputs : List Param) : Res Code := do
  let outs ← mapRes (fun (p : Param) => rustType p.kind) outputs
  match outs with
  | [] => .ok (r! "( )")
  | [t] => .ok t
  | _ => .ok (r! "(" ++ commas outs ++ r! ")")

/-- function.rs:75, constructor.rs:32-33: `template_param_type` for each input, from position `i` on -/
def declarationsFrom : Nat → List ParamType → Res (List Code)
  | _, [] => .ok []
  | i, t :: ts => do
      let c ← templateParamType t i
      let cs ← declarationsFrom (i + 1) ts
      .ok (c :: cs)

/-- function.rs:84-90, constructor.rs:40-43: `#param_name: #template_name` -/
def definitions (names : List Str) : List Code :=
  List.zipWith (fun n t => [Tok.word n] ++ r! ":" ++ [Tok.word t]) names (templateNames names.length)

/-- function.rs:98-102, constructor.rs:48-52 `tokenize` -/
def tokenizeCode : List Str → List ParamType → Res (List Code)
  | n :: ns, t :: ts => do
      let c ← toTokenCode (fromTemplateParam t n) t
      let cs ← tokenizeCode ns ts
      .ok (c :: cs)
  | _, _ => .ok []

/-- function.rs:106-128 -/
def outputImplementation (outputs : List Param) : Res Code :=
  match outputs with
  | [] => .ok (r! "let _output = output ; Ok ( ( ) )")
  | [p] => do
      let c ← fromTokenCode (r! "out") p.kind
      .ok (r! "let out = self . 0 . decode_output ( output ) ? . into_iter ( ) . next ( ) . expect ( INTERNAL_ERR ) ;" ++
        r! "Ok (" ++ c ++ r! ")")
  | _ => do
      let cs ← mapRes (fun (p : Param) => fromTokenCode (r! "out . next ( ) . expect ( INTERNAL_ERR )") p.kind) outputs
      .ok (r! "let mut out = self . 0 . decode_output ( output ) ? . into_iter ( ) ; Ok ( (" ++ commas cs ++ r! ") )")

/-- function.rs:160-165 -/
def mutabilityCode : StateMutability → Code
  | .pure => r! ":: ethabi :: StateMutability :: Pure"
  | .payable => r! ":: ethabi :: StateMutability :: Payable"
  | .nonPayable => r! ":: ethabi :: StateMutability :: NonPayable"
  | .view => r! ":: ethabi :: StateMutability :: View"

/-- function.rs:174-182: the body of `function()` -/
def functionExpr (f : Function) : Res Code := do
  let inputs ← toEthabiParamVec f.inputs
  let outputs ← toEthabiParamVec f.outputs
  .ok (r! "ethabi :: Function { name :" ++ [.str f.name] ++ r! ". into ( ) , inputs :" ++ inputs ++ r! ", outputs :" ++
    outputs ++ r! ", constant :" ++ [boolTok f.constant] ++ r! ", state_mutability :" ++ mutabilityCode f.stateMutability ++
    r! "}")

/-- function.rs:198-201: the body of `encode_input` -/
def encodeInputBody (tokenize : List Code) : Code :=
  r! "let f = function ( ) ; let tokens =" ++ vecCode tokenize ++
    r! "; f . encode_input ( & tokens ) . expect ( INTERNAL_ERR )"

/-- function.rs:211-214: the body of `call` -/
def callBody (tokenize : List Code) : Code :=
  r! "let f = function ( ) ; let tokens =" ++ vecCode tokenize ++
    r! "; ( f . encode_input ( & tokens ) . expect ( INTERNAL_ERR ) , Decoder ( f ) )"

/-- function.rs:168-216: the module -/
def functionText (moduleName : Str) (function result implementation : Code) (decls definitions tokenize : List Code) : Code :=
  let signature := r! "<" ++ commas decls ++ r! "> (" ++ commas definitions ++ r! ")"
  r! "pub mod" ++ [.word moduleName] ++ r! "{ use ethabi ; use super :: INTERNAL_ERR ;" ++
    r! "fn function ( ) -> ethabi :: Function {" ++ function ++ r! "}" ++
    [.doc (lit "Generic function output decoder.")] ++ r! "pub struct Decoder ( ethabi :: Function ) ;" ++
    r! "impl ethabi :: FunctionOutputDecoder for Decoder { type Output =" ++ result ++
    r! "; fn decode ( & self , output : & [ u8 ] ) -> ethabi :: Result < Self :: Output > {" ++ implementation ++ r! "} }" ++
    [.doc (lit "Encodes function input.")] ++ r! "pub fn encode_input" ++ signature ++ r! "-> ethabi :: Bytes {" ++
    encodeInputBody tokenize ++ r! "}" ++
    [.doc (lit "Decodes function output.")] ++ r! "pub fn decode_output ( output : & [ u8 ] ) -> ethabi :: Result <" ++ result ++
    r! "> {" ++ r! "ethabi :: FunctionOutputDecoder :: decode ( & Decoder ( function ( ) ) , output )" ++ r! "}" ++
    [.doc (lit "Encodes function output and creates a `Decoder` instance.")] ++ r! "pub fn call" ++ signature ++
    r! "-> ( ethabi :: Bytes , Decoder ) {" ++ callBody tokenize ++ r! "} }"

/-- function.rs:72-216 `Function::from` and `Function::generate` -/
def generateFunction (nm : Naming) (f : Function) : Res Code := do
  let names ← inputNamesFrom nm 0 f.inputs
  let decls ← declarationsFrom 0 (f.inputs.map (·.kind))
  let tokenize ← tokenizeCode names (f.inputs.map (·.kind))
  let result ← outputKinds f.outputs
  let implementation ← outputImplementation f.outputs
  let function ← functionExpr f
  let moduleName ← nm.ident (nm.snake f.name)
  .ok (functionText moduleName function result implementation decls (definitions names) tokenize)

/-- constructor.rs:74-78: the body of `constructor` -/
def constructorBody (inputs : Code) (tokenize : List Code) : Code :=
  r! "let c = ethabi :: Constructor { inputs :" ++ inputs ++ r! ", } ; let tokens =" ++ vecCode tokenize ++
    r! "; c . encode_input ( code , & tokens ) . expect ( INTERNAL_ERR )"

/-- constructor.rs:25-83 `Constructor::from` and `Constructor::generate` -/
def generateConstructor (nm : Naming) (c : Constructor) : Res Code := do
  let names ← inputNamesFrom nm 0 c.inputs
  let decls ← declarationsFrom 0 (c.inputs.map (·.kind))
  let tokenize ← tokenizeCode names (c.inputs.map (·.kind))
  let inputs ← toEthabiParamVec c.inputs
  .ok ([.doc (lit "Encodes a call to contract's constructor.")] ++ r! "pub fn constructor <" ++ commas decls ++ r! "> (" ++
    commas (r! "code : ethabi :: Bytes" :: definitions names) ++ r! ") -> ethabi :: Bytes {" ++ constructorBody inputs tokenize ++
    r! "}")

/-- event.rs:31-44 and 62-74: the name of an event parameter; `topic` or `param` with its position when it has none -/
def eventName (nm : Naming) (i : Nat) (p : EventParam) : Res Str :=
  if p.name.isEmpty then .ok (if p.indexed then numbered "topic" i else numbered "param" i)
  else nm.ident (nm.snake p.name)

/-- event.rs:31-44, from position `i` on -/
def eventNamesFrom (nm : Naming) : Nat → List EventParam → Res (List Str)
  | _, [] => .ok []
  | i, p :: ps => do
      let n ← eventName nm i p
      let ns ← eventNamesFrom nm (i + 1) ps
      .ok (n :: ns)

/-- event.rs:60-75, from position `i` on: the indexed ones -/
def topicNamesFrom (nm : Naming) : Nat → List EventParam → Res (List Str)
  | _, [] => .ok []
  | i, p :: ps =>
      if p.indexed then do
        let n ← eventName nm i p
        let ns ← topicNamesFrom nm (i + 1) ps
        .ok (n :: ns)
      else topicNamesFrom nm (i + 1) ps

/-- event.rs:47-48 `log_fields` -/
def logFields (names : List Str) (kinds : List Code) : List Code :=
  List.zipWith (fun n k => r! "pub" ++ [Tok.word n] ++ r! ":" ++ k) names kinds

/-- event.rs:54-55 `log_init` -/
def logInit (names : List Str) (toLog : List Code) : List Code :=
  List.zipWith (fun n c => [Tok.word n] ++ r! ":" ++ c) names toLog

/-- event.rs:79-83 `filter_declarations` -/
def filterDeclarations (kinds : List Code) : List Code :=
  List.zipWith (fun k t => [Tok.word t] ++ r! ": Into < ethabi :: Topic <" ++ k ++ r! "> >") kinds (templateNames kinds.length)

/-- event.rs:91-104 `filter_init`, from topic `i` on, without the restriction to three -/
def filterInitFrom : Nat → List Str → List ParamType → Res (List Code)
  | i, n :: ns, t :: ts => do
      let c ← toTokenCode (r! "i") t
      let cs ← filterInitFrom (i + 1) ns ts
      .ok (([Tok.word (numbered "topic" i)] ++ r! ":" ++ [Tok.word n] ++ r! ". into ( ) . map ( | i |" ++ c ++ r! ") ,") :: cs)
  | _, _, _ => .ok []

/-- event.rs:106-120: one element of the vector -/
def eventParamCode (p : EventParam) : Res Code := do
  let kind ← toSyntaxString p.kind
  .ok (r! "ethabi :: EventParam { name :" ++ [.str p.name] ++ r! ". to_owned ( ) , kind :" ++ kind ++ r! ", indexed :" ++
    [boolTok p.indexed] ++ r! "}")

/-- event.rs:169-175: the body of `event()`; the name is camel-cased (153) -/
def eventExpr (nm : Naming) (e : Event) : Res Code := do
  let inputs ← mapRes eventParamCode e.inputs
  .ok (r! "ethabi :: Event { name :" ++ [.str (nm.camel e.name)] ++ r! ". into ( ) , inputs :" ++ vecCode inputs ++
    r! ", anonymous :" ++ [boolTok e.anonymous] ++ r! ", }")

/-- event.rs:178-184: the body of `filter` -/
def filterBody (init : List Code) : Code :=
  r! "let raw = ethabi :: RawTopicFilter {" ++ init.flatten ++
    r! ".. Default :: default ( ) } ; let e = event ( ) ; e . filter ( raw ) . expect ( INTERNAL_ERR )"

/-- event.rs:192-197: the body of `parse_log` -/
def parseLogBody (camelName : Str) (init : List Code) : Code :=
  r! "let e = event ( ) ; let mut log = e . parse_log ( log ) ? . params . into_iter ( ) ;" ++
    r! "let result = super :: super :: logs ::" ++ [.word camelName] ++ r! "{" ++ commas init ++ r! "} ; Ok ( result )"

/-- event.rs:45, 76-77: `rust_type` of the inputs -/
def kindsOf (ps : List EventParam) : Res (List Code) := mapRes (fun (p : EventParam) => rustType p.kind) ps

/-- event.rs:28-137 and 139-150 `Event::from` and `Event::generate_log`.  (`Event::from` also prepares what
`generate_event` uses; it panics in the same cases, see `generateEvent`.) -/
def generateLog (nm : Naming) (e : Event) : Res Code := do
  let names ← eventNamesFrom nm 0 e.inputs
  let kinds ← kindsOf e.inputs
  let name ← nm.ident (nm.camel e.name)
  .ok (r! "# [ derive ( Debug , Clone , PartialEq ) ] pub struct" ++ [.word name] ++ r! "{" ++
    commas (logFields names kinds) ++ r! "}")

/-- event.rs:163-200: the module -/
def eventText (name camelName : Str) (event filter parseLog : Code) (decls definitions wildcards : List Code) : Code :=
  r! "pub mod" ++ [.word name] ++ r! "{ use ethabi ; use super :: INTERNAL_ERR ;" ++
    r! "pub fn event ( ) -> ethabi :: Event {" ++ event ++ r! "}" ++
    r! "pub fn filter <" ++ commas decls ++ r! "> (" ++ commas definitions ++
    r! ") -> ethabi :: TopicFilter {" ++ filter ++ r! "}" ++
    r! "pub fn wildcard_filter ( ) -> ethabi :: TopicFilter {" ++ (r! "filter (" ++ commas wildcards ++ r! ")") ++ r! "}" ++
    r! "pub fn parse_log ( log : ethabi :: RawLog ) -> ethabi :: Result < super :: super :: logs ::" ++ [.word camelName] ++
    r! "> {" ++ parseLog ++ r! "} }"

/-- event.rs:28-137 and 152-200 `Event::from` and `Event::generate_event` -/
def generateEvent (nm : Naming) (e : Event) : Res Code := do
  let names ← eventNamesFrom nm 0 e.inputs
  let toLog ← mapRes (fun (p : EventParam) => fromTokenCode (r! "log . next ( ) . expect ( INTERNAL_ERR ) . value") p.kind) e.inputs
  let topicKinds ← kindsOf (e.inputs.filter (·.indexed))
  let topicNames ← topicNamesFrom nm 0 e.inputs
  let init ← filterInitFrom 0 (topicNames.take 3) (((e.inputs.filter (·.indexed)).map (·.kind)).take 3)
  let event ← eventExpr nm e
  let name ← nm.ident (nm.snake e.name)
  let camelName ← nm.ident (nm.camel e.name)
  .ok (eventText name camelName event (filterBody init) (parseLogBody camelName (logInit names toLog))
    (filterDeclarations topicKinds) (definitions topicNames) (topicNames.map fun _ => r! "ethabi :: Topic :: Any"))

/-- contract.rs:34: the constructor, if there is one -/
def generateConstructors (nm : Naming) : Option Constructor → Res Code
  | none => .ok []
  | some c => generateConstructor nm c

/-- contract.rs:21-64 `Contract::from` and `Contract::generate` -/
def generateContract (nm : Naming) (c : Contract) : Res Code := do
  let constructor ← generateConstructors nm c.constructor
  let functions ← mapRes (generateFunction nm) c.allFunctions
  let events ← mapRes (generateEvent nm) c.allEvents
  let logs ← mapRes (generateLog nm) c.allEvents
  .ok (r! "use ethabi ; const INTERNAL_ERR : & 'static str =" ++ [.str (lit "`ethabi_derive` internal error")] ++ r! ";" ++
    constructor ++
    [.doc (lit "Contract's functions.")] ++ r! "pub mod functions { use super :: INTERNAL_ERR ;" ++ functions.flatten ++ r! "}" ++
    [.doc (lit "Contract's events.")] ++ r! "pub mod events { use super :: INTERNAL_ERR ;" ++ events.flatten ++ r! "}" ++
    [.doc (lit "Contract's logs.")] ++ r! "pub mod logs { use super :: INTERNAL_ERR ; use ethabi ;" ++ logs.flatten ++ r! "}")

end Ethabi

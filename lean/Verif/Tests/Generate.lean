import Verif.Model.Generate
/-!
# Tests: the text produced by the generator

The unit tests of derive/src: the expected `quote!` blocks were translated token by token.
These are tests of the model (finitely many inputs), not proofs of any property.
-/
namespace Ethabi.Tests

/-- `heck` and `syn` on the names that occur in these tests -/
def simpleNaming : Naming where
  snake s := s
  camel s := match s with
    | [] => []
    | c :: cs => c.toUpper :: cs
  valid s := !s.isEmpty

private def par (name : String) (t : ParamType) : Param := ⟨lit name, t, none⟩
private def fnDecl (name : String) (inputs outputs : List Param) : Function :=
  { name := lit name, inputs, outputs, constant := false, stateMutability := .payable }

/-- derive/src/function.rs:224 `test_no_params`: the expected text -/
def functionTestNoParams : Code :=
  r! "pub mod empty { use ethabi ; use super :: INTERNAL_ERR ; fn function ( ) -> ethabi :: Function" ++
    r! "{ ethabi :: Function { name :" ++ [.str (lit "empty")] ++
    r! ". into ( ) , inputs : vec ! [ ] , outputs : vec ! [ ] , constant : false , state_mutability" ++
    r! ": :: ethabi :: StateMutability :: Payable } }" ++ [.doc (lit "Generic function output decoder.")] ++
    r! "pub struct Decoder ( ethabi :: Function ) ; impl ethabi :: FunctionOutputDecoder for Decoder" ++
    r! "{ type Output = ( ) ; fn decode ( & self , output : & [ u8 ] ) -> ethabi :: Result < Self ::" ++
    r! "Output > { let _output = output ; Ok ( ( ) ) } }" ++ [.doc (lit "Encodes function input.")] ++
    r! "pub fn encode_input < > ( ) -> ethabi :: Bytes { let f = function ( ) ; let tokens = vec !" ++
    r! "[ ] ; f . encode_input ( & tokens ) . expect ( INTERNAL_ERR ) }" ++ [.doc (lit "Decodes function output.")] ++
    r! "pub fn decode_output ( output : & [ u8 ] ) -> ethabi :: Result < ( ) > { ethabi :: FunctionOutputDecoder" ++
    r! ":: decode ( & Decoder ( function ( ) ) , output ) }" ++
    [.doc (lit "Encodes function output and creates a `Decoder` instance.")] ++
    r! "pub fn call < > ( ) -> ( ethabi :: Bytes , Decoder ) { let f = function ( ) ; let tokens =" ++
    r! "vec ! [ ] ; ( f . encode_input ( & tokens ) . expect ( INTERNAL_ERR ) , Decoder ( f ) ) } }"

example : generateFunction simpleNaming (fnDecl "empty" [] []) =
    .ok functionTestNoParams := by decide +kernel

/-- derive/src/function.rs:288 `test_one_param`: the expected text -/
def functionTestOneParam : Code :=
  r! "pub mod hello { use ethabi ; use super :: INTERNAL_ERR ; fn function ( ) -> ethabi :: Function" ++
    r! "{ ethabi :: Function { name :" ++ [.str (lit "hello")] ++ r! ". into ( ) , inputs : vec ! [ ethabi :: Param { name :" ++
    [.str (lit "foo")] ++ r! ". to_owned ( ) , kind : ethabi :: ParamType :: Address , internal_type : None } ] , outputs" ++
    r! ": vec ! [ ethabi :: Param { name :" ++ [.str (lit "bar")] ++
    r! ". to_owned ( ) , kind : ethabi :: ParamType :: Uint (" ++ [.num 256] ++
    r! ") , internal_type : None } ] , constant : false , state_mutability : :: ethabi :: StateMutability" ++
    r! ":: Payable } }" ++ [.doc (lit "Generic function output decoder.")] ++
    r! "pub struct Decoder ( ethabi :: Function ) ; impl ethabi :: FunctionOutputDecoder for Decoder" ++
    r! "{ type Output = ethabi :: Uint ; fn decode ( & self , output : & [ u8 ] ) -> ethabi :: Result" ++
    r! "< Self :: Output > { let out = self . 0 . decode_output ( output ) ? . into_iter ( ) . next" ++
    r! "( ) . expect ( INTERNAL_ERR ) ; Ok ( out . into_uint ( ) . expect ( INTERNAL_ERR ) ) } }" ++
    [.doc (lit "Encodes function input.")] ++
    r! "pub fn encode_input < T0 : Into < ethabi :: Address > > ( foo : T0 ) -> ethabi :: Bytes { let" ++
    r! "f = function ( ) ; let tokens = vec ! [ ethabi :: Token :: Address ( foo . into ( ) ) ] ; f" ++
    r! ". encode_input ( & tokens ) . expect ( INTERNAL_ERR ) }" ++ [.doc (lit "Decodes function output.")] ++
    r! "pub fn decode_output ( output : & [ u8 ] ) -> ethabi :: Result < ethabi :: Uint > { ethabi" ++
    r! ":: FunctionOutputDecoder :: decode ( & Decoder ( function ( ) ) , output ) }" ++
    [.doc (lit "Encodes function output and creates a `Decoder` instance.")] ++
    r! "pub fn call < T0 : Into < ethabi :: Address > > ( foo : T0 ) -> ( ethabi :: Bytes , Decoder" ++
    r! ") { let f = function ( ) ; let tokens = vec ! [ ethabi :: Token :: Address ( foo . into ( )" ++
    r! ") ] ; ( f . encode_input ( & tokens ) . expect ( INTERNAL_ERR ) , Decoder ( f ) ) } }"

example : generateFunction simpleNaming (fnDecl "hello" [par "foo" .address] [par "bar" (.uint 256)]) =
    .ok functionTestOneParam := by decide +kernel

/-- derive/src/function.rs:364 `test_multiple_params`: the expected text -/
def functionTestMultipleParams : Code :=
  r! "pub mod multi { use ethabi ; use super :: INTERNAL_ERR ; fn function ( ) -> ethabi :: Function" ++
    r! "{ ethabi :: Function { name :" ++ [.str (lit "multi")] ++ r! ". into ( ) , inputs : vec ! [ ethabi :: Param { name :" ++
    [.str (lit "foo")] ++ r! ". to_owned ( ) , kind : ethabi :: ParamType :: FixedArray ( Box :: new ( ethabi :: ParamType" ++
    r! ":: Address ) ," ++ [.num 2] ++ r! ") , internal_type : None } , ethabi :: Param { name :" ++ [.str (lit "bar")] ++
    r! ". to_owned ( ) , kind : ethabi :: ParamType :: Array ( Box :: new ( ethabi :: ParamType ::" ++ r! "Uint (" ++
    [.num 256] ++ r! ") ) ) , internal_type : None } ] , outputs : vec ! [ ethabi :: Param { name :" ++ [.str (lit "")] ++
    r! ". to_owned ( ) , kind : ethabi :: ParamType :: Uint (" ++ [.num 256] ++
    r! ") , internal_type : None } , ethabi :: Param { name :" ++ [.str (lit "")] ++
    r! ". to_owned ( ) , kind : ethabi :: ParamType :: String , internal_type : None } ] , constant" ++
    r! ": false , state_mutability : :: ethabi :: StateMutability :: Payable } }" ++
    [.doc (lit "Generic function output decoder.")] ++
    r! "pub struct Decoder ( ethabi :: Function ) ; impl ethabi :: FunctionOutputDecoder for Decoder" ++
    r! "{ type Output = ( ethabi :: Uint , String ) ; fn decode ( & self , output : & [ u8 ] ) -> ethabi" ++
    r! ":: Result < Self :: Output > { let mut out = self . 0 . decode_output ( output ) ? . into_iter" ++
    r! "( ) ; Ok ( ( out . next ( ) . expect ( INTERNAL_ERR ) . into_uint ( ) . expect ( INTERNAL_ERR" ++
    r! ") , out . next ( ) . expect ( INTERNAL_ERR ) . into_string ( ) . expect ( INTERNAL_ERR ) )" ++ r! ") } }" ++
    [.doc (lit "Encodes function input.")] ++ r! "pub fn encode_input < T0 : Into < [ U0 ;" ++ [.num 2] ++
    r! "] > , U0 : Into < ethabi :: Address > , T1 : IntoIterator < Item = U1 > , U1 : Into < ethabi" ++
    r! ":: Uint > > ( foo : T0 , bar : T1 ) -> ethabi :: Bytes { let f = function ( ) ; let tokens" ++
    r! "= vec ! [ { let v = ( Box :: new ( foo . into ( ) ) as Box < [ _ ] > ) . into_vec ( ) . into_iter" ++
    r! "( ) . map ( Into :: into ) . collect :: < Vec < _ > > ( ) . into_iter ( ) . map ( | inner |" ++
    r! "ethabi :: Token :: Address ( inner ) ) . collect ( ) ; ethabi :: Token :: FixedArray ( v )" ++
    r! "} , { let v = bar . into_iter ( ) . map ( Into :: into ) . collect :: < Vec < _ > > ( ) . into_iter" ++
    r! "( ) . map ( | inner | ethabi :: Token :: Uint ( inner ) ) . collect ( ) ; ethabi :: Token ::" ++
    r! "Array ( v ) } ] ; f . encode_input ( & tokens ) . expect ( INTERNAL_ERR ) }" ++
    [.doc (lit "Decodes function output.")] ++
    r! "pub fn decode_output ( output : & [ u8 ] ) -> ethabi :: Result < ( ethabi :: Uint , String" ++
    r! ") > { ethabi :: FunctionOutputDecoder :: decode ( & Decoder ( function ( ) ) , output ) }" ++
    [.doc (lit "Encodes function output and creates a `Decoder` instance.")] ++ r! "pub fn call < T0 : Into < [ U0 ;" ++
    [.num 2] ++ r! "] > , U0 : Into < ethabi :: Address > , T1 : IntoIterator < Item = U1 > , U1 : Into < ethabi" ++
    r! ":: Uint > > ( foo : T0 , bar : T1 ) -> ( ethabi :: Bytes , Decoder ) { let f = function ( )" ++
    r! "; let tokens = vec ! [ { let v = ( Box :: new ( foo . into ( ) ) as Box < [ _ ] > ) . into_vec" ++
    r! "( ) . into_iter ( ) . map ( Into :: into ) . collect :: < Vec < _ > > ( ) . into_iter ( ) ." ++
    r! "map ( | inner | ethabi :: Token :: Address ( inner ) ) . collect ( ) ; ethabi :: Token :: FixedArray" ++
    r! "( v ) } , { let v = bar . into_iter ( ) . map ( Into :: into ) . collect :: < Vec < _ > > (" ++
    r! ") . into_iter ( ) . map ( | inner | ethabi :: Token :: Uint ( inner ) ) . collect ( ) ; ethabi" ++
    r! ":: Token :: Array ( v ) } ] ; ( f . encode_input ( & tokens ) . expect ( INTERNAL_ERR ) , Decoder" ++ r! "( f ) ) } }"

example : generateFunction simpleNaming (fnDecl "multi" [par "foo" (.fixedArray .address 2), par "bar" (.array (.uint 256))]
    [par "" (.uint 256), par "" .string]) =
    .ok functionTestMultipleParams := by decide +kernel

/-- derive/src/constructor.rs:90 `test_no_params`: the expected text -/
def constructorTestNoParams : Code :=
  [.doc (lit "Encodes a call to contract's constructor.")] ++
    r! "pub fn constructor < > ( code : ethabi :: Bytes ) -> ethabi :: Bytes { let c = ethabi :: Constructor" ++
    r! "{ inputs : vec ! [ ] , } ; let tokens = vec ! [ ] ; c . encode_input ( code , & tokens ) ." ++
    r! "expect ( INTERNAL_ERR ) }"

example : generateConstructor simpleNaming ⟨[]⟩ =
    .ok constructorTestNoParams := by decide +kernel

/-- derive/src/constructor.rs:110 `test_one_param`: the expected text -/
def constructorTestOneParam : Code :=
  [.doc (lit "Encodes a call to contract's constructor.")] ++
    r! "pub fn constructor < T0 : Into < ethabi :: Uint > > ( code : ethabi :: Bytes , foo : T0 ) ->" ++
    r! "ethabi :: Bytes { let c = ethabi :: Constructor { inputs : vec ! [ ethabi :: Param { name :" ++ [.str (lit "foo")] ++
    r! ". to_owned ( ) , kind : ethabi :: ParamType :: Uint (" ++ [.num 256] ++
    r! ") , internal_type : None } ] , } ; let tokens = vec ! [ ethabi :: Token :: Uint ( foo . into" ++
    r! "( ) ) ] ; c . encode_input ( code , & tokens ) . expect ( INTERNAL_ERR ) }"

example : generateConstructor simpleNaming ⟨[par "foo" (.uint 256)]⟩ =
    .ok constructorTestOneParam := by decide +kernel

/-- derive/src/event.rs:210 `test_empty_log`: the expected text -/
def eventTestEmptyLog : Code :=
  r! "# [ derive ( Debug , Clone , PartialEq ) ] pub struct Hello { }"

example : generateLog simpleNaming ⟨lit "hello", [], false⟩ =
    .ok eventTestEmptyLog := by decide +kernel

/-- derive/src/event.rs:224 `test_empty_event`: the expected text -/
def eventTestEmptyEvent : Code :=
  r! "pub mod hello { use ethabi ; use super :: INTERNAL_ERR ; pub fn event ( ) -> ethabi :: Event" ++
    r! "{ ethabi :: Event { name :" ++ [.str (lit "Hello")] ++
    r! ". into ( ) , inputs : vec ! [ ] , anonymous : false , } } pub fn filter < > ( ) -> ethabi ::" ++
    r! "TopicFilter { let raw = ethabi :: RawTopicFilter { .. Default :: default ( ) } ; let e = event" ++
    r! "( ) ; e . filter ( raw ) . expect ( INTERNAL_ERR ) } pub fn wildcard_filter ( ) -> ethabi ::" ++
    r! "TopicFilter { filter ( ) } pub fn parse_log ( log : ethabi :: RawLog ) -> ethabi :: Result" ++
    r! "< super :: super :: logs :: Hello > { let e = event ( ) ; let mut log = e . parse_log ( log" ++
    r! ") ? . params . into_iter ( ) ; let result = super :: super :: logs :: Hello { } ; Ok ( result" ++ r! ") } }"

example : generateEvent simpleNaming ⟨lit "hello", [], false⟩ =
    .ok eventTestEmptyEvent := by decide +kernel

/-- derive/src/event.rs:268 `test_event_with_one_input`: the expected text -/
def eventTestEventWithOneInput : Code :=
  r! "pub mod one { use ethabi ; use super :: INTERNAL_ERR ; pub fn event ( ) -> ethabi :: Event" ++
    r! "{ ethabi :: Event { name :" ++ [.str (lit "One")] ++ r! ". into ( ) , inputs : vec ! [ ethabi :: EventParam { name :" ++
    [.str (lit "foo")] ++
    r! ". to_owned ( ) , kind : ethabi :: ParamType :: Address , indexed : true } ] , anonymous : false" ++
    r! ", } } pub fn filter < T0 : Into < ethabi :: Topic < ethabi :: Address > > > ( foo : T0 ) ->" ++
    r! "ethabi :: TopicFilter { let raw = ethabi :: RawTopicFilter { topic0 : foo . into ( ) . map" ++
    r! "( | i | ethabi :: Token :: Address ( i ) ) , .. Default :: default ( ) } ; let e = event (" ++
    r! ") ; e . filter ( raw ) . expect ( INTERNAL_ERR ) } pub fn wildcard_filter ( ) -> ethabi ::" ++
    r! "TopicFilter { filter ( ethabi :: Topic :: Any ) } pub fn parse_log ( log : ethabi :: RawLog" ++
    r! ") -> ethabi :: Result < super :: super :: logs :: One > { let e = event ( ) ; let mut log =" ++
    r! "e . parse_log ( log ) ? . params . into_iter ( ) ; let result = super :: super :: logs :: One" ++
    r! "{ foo : log . next ( ) . expect ( INTERNAL_ERR ) . value . into_address ( ) . expect ( INTERNAL_ERR" ++
    r! ") } ; Ok ( result ) } }"

example : generateEvent simpleNaming ⟨lit "one", [⟨lit "foo", .address, true⟩], false⟩ =
    .ok eventTestEventWithOneInput := by decide +kernel

/-- derive/src/event.rs:323 `test_log_with_one_field`: the expected text -/
def eventTestLogWithOneField : Code :=
  r! "# [ derive ( Debug , Clone , PartialEq ) ] pub struct One { pub foo : ethabi :: Address }"

example : generateLog simpleNaming ⟨lit "one", [⟨lit "foo", .address, false⟩], false⟩ =
    .ok eventTestLogWithOneField := by decide +kernel

/-- derive/src/event.rs:343 `test_log_with_multiple_field`: the expected text -/
def eventTestLogWithMultipleField : Code :=
  r! "# [ derive ( Debug , Clone , PartialEq ) ] pub struct Many { pub foo : ethabi :: Address ," ++
    r! "pub bar : Vec < String > , pub xyz : ethabi :: Uint }"

example : generateLog simpleNaming ⟨lit "many", [⟨lit "foo", .address, false⟩,
    ⟨lit "bar", .array .string, false⟩, ⟨lit "xyz", .uint 256, false⟩], false⟩ =
    .ok eventTestLogWithMultipleField := by decide +kernel

/-- derive/src/contract.rs:73 `test_no_body`: the expected text -/
def contractTestNoBody : Code :=
  r! "use ethabi ; const INTERNAL_ERR : & 'static str =" ++ [.str (lit "`ethabi_derive` internal error")] ++ r! ";" ++
    [.doc (lit "Contract's functions.")] ++ r! "pub mod functions { use super :: INTERNAL_ERR ; }" ++
    [.doc (lit "Contract's events.")] ++ r! "pub mod events { use super :: INTERNAL_ERR ; }" ++
    [.doc (lit "Contract's logs.")] ++ r! "pub mod logs { use super :: INTERNAL_ERR ; use ethabi ; }"

example : generateContract simpleNaming {} =
    .ok contractTestNoBody := by decide +kernel

end Ethabi.Tests

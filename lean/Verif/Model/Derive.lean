import Verif.Model.Event
/-!
# The code generated by `derive(EthabiContract)`

derive/src emits Rust text; modelled here is what that text does when it is run.  A generated function over the Rust
types of its parameters becomes a definition over `Rust kind`.  The text itself is in `Model/Generate.lean`; C70, C71 and C73
(Props/Generate.lean) say that it behaves like the definitions here.

Reading the attribute and the file (derive/src/lib.rs:27-83) is in `Model/DeriveEntry.lean`.  The generator itself panics (`unimplemented!`) on
any tuple; and for a `FixedArray` among outputs or event parameters, or nested in an input, the text is not valid Rust
(`[T, n]`, lib.rs:146; `to_array` and `iter.next()`, 270-275; C72).  So there is no generated program for these; the
definitions below give them an empty type or `panic`.
`camel` stands for `heck`'s `to_camel_case`, which is outside the repository.
-/
namespace Ethabi

/-- derive/src/lib.rs:130-152 `rust_type`; `[u8; n]` and `Hash` are both lists of a fixed length.  Integers are 256 bits
wide whatever the declared size. -/
def Rust : ParamType → Type
  | .address => Address
  | .bytes => Bytes
  | .int _ => U256
  | .uint _ => U256
  | .bool => Bool
  | .string => Str
  | .fixedBytes n => { l : Bytes // l.length = n }
  | .array t => List (Rust t)
  | .fixedArray t n => { l : List (Rust t) // l.length = n }
  | .tuple _ => Empty

/-- the arguments of a generated function / the fields of a generated struct -/
def RustArgs : List ParamType → Type
  | [] => Unit
  | t :: ts => Rust t × RustArgs ts

/-- lib.rs:194-229 `to_token` -/
def toToken : (t : ParamType) → Rust t → Token
  | .address, a => .address a
  | .bytes, b => .bytes b
  | .int _, i => .int i
  | .uint _, u => .uint u
  | .bool, b => .bool b
  | .string, s => .string s
  | .fixedBytes _, b => .fixedBytes b.1
  | .array t, l => .array (List.map (toToken t) l)
  | .fixedArray t _, l => .fixedArray (l.1.map (toToken t))
  | .tuple _, e => nomatch e

/-- function.rs:98-102, constructor.rs:48-52: `vec![#(#tokenize),*]` -/
def toTokens : (ts : List ParamType) → RustArgs ts → List Token
  | [], _ => []
  | t :: ts, (a, as) => toToken t a :: toTokens ts as

/-- `iter.map(f).collect()` where `f` may panic -/
def collectAll {α β : Type} (f : α → Res β) : List α → Res (List β)
  | [] => .ok []
  | a :: as => do
      let b ← f a
      let bs ← collectAll f as
      .ok (b :: bs)

/-- ethabi/src/token/token.rs:137-142 `into_address` -/
def Token.intoAddress : Token → Option Address
  | .address a => some a
  | _ => none
/-- token.rs:145-150 `into_fixed_bytes` -/
def Token.intoFixedBytes : Token → Option Bytes
  | .fixedBytes b => some b
  | _ => none
/-- token.rs:153-158 `into_bytes` -/
def Token.intoBytes : Token → Option Bytes
  | .bytes b => some b
  | _ => none
/-- token.rs:161-166 `into_int` -/
def Token.intoInt : Token → Option U256
  | .int i => some i
  | _ => none
/-- token.rs:169-174 `into_uint` -/
def Token.intoUint : Token → Option U256
  | .uint u => some u
  | _ => none
/-- token.rs:177-182 `into_bool` -/
def Token.intoBool : Token → Option Bool
  | .bool b => some b
  | _ => none
/-- token.rs:185-190 `into_string` -/
def Token.intoString : Token → Option Str
  | .string s => some s
  | _ => none
/-- token.rs:193-198 `into_fixed_array` -/
def Token.intoFixedArray : Token → Option (List Token)
  | .fixedArray l => some l
  | _ => none
/-- token.rs:201-206 `into_array` -/
def Token.intoArray : Token → Option (List Token)
  | .array l => some l
  | _ => none

/-- `.expect(INTERNAL_ERR)` on an `Option` -/
def expectSome {α : Type} : Option α → Res α
  | some a => .ok a
  | none => .panic

/-- `result.copy_from_slice(&v)` into `[0u8; n]`, lib.rs:239, 249: panics on another length -/
def copyFromSlice (n : Nat) (v : Bytes) : Res { l : Bytes // l.length = n } :=
  if h : v.length = n then .ok ⟨v, h⟩ else .panic

/-- lib.rs:231-283 `from_token` -/
def fromToken : (t : ParamType) → Token → Res (Rust t)
  | .address, tok => expectSome tok.intoAddress
  | .bytes, tok => expectSome tok.intoBytes
  | .int _, tok => expectSome tok.intoInt
  | .uint _, tok => expectSome tok.intoUint
  | .bool, tok => expectSome tok.intoBool
  | .string, tok => expectSome tok.intoString
  | .fixedBytes n, tok => Res.bind (expectSome tok.intoFixedBytes) (copyFromSlice n)
  | .array t, tok => Res.bind (expectSome tok.intoArray) (collectAll (fromToken t))
  | .fixedArray _ _, _ => .panic
  | .tuple _, _ => .panic

/-- function.rs:113-128, event.rs:50-55: one token after the other, `next().expect(INTERNAL_ERR)` -/
def fromTokens : (ts : List ParamType) → List Token → Res (RustArgs ts)
  | [], _ => .ok ()
  | _ :: _, [] => .panic
  | t :: ts, tok :: toks => do
      let a ← fromToken t tok
      let as ← fromTokens ts toks
      .ok (a, as)

/-- `.expect(INTERNAL_ERR)` on a `Result` -/
def Res.expect {α : Type} : Res α → Res α
  | .ok a => .ok a
  | .err _ => .panic
  | .panic => .panic

/-- function.rs:174-182, lib.rs:108-128: the function recreated in the generated module (`internal_type` is dropped) -/
def genFunction (f : Function) : Function :=
  { f with inputs := f.inputs.map fun p => { p with internalType := none },
           outputs := f.outputs.map fun p => { p with internalType := none } }

/-- function.rs:196-200: the generated `encode_input` (also the first component of `call`, 208-212) -/
def genEncodeInput (hash : Bytes → Word) (prof : Profile) (f : Function) (args : RustArgs (f.inputs.map (·.kind))) :
    Res Bytes :=
  ((genFunction f).encodeInput hash prof (toTokens (f.inputs.map (·.kind)) args)).expect

/-- function.rs:106-128, 187-205: the generated `decode_output`; without outputs the data is not looked at -/
def genDecodeOutput (prof : Profile) (f : Function) (data : Bytes) : Res (RustArgs (f.outputs.map (·.kind))) :=
  if f.outputs.length = 0 then fromTokens _ []
  else do
    let toks ← (genFunction f).decodeOutput prof data
    fromTokens (f.outputs.map (·.kind)) toks

/-- constructor.rs:73-79: the generated `constructor` -/
def genConstructor (prof : Profile) (c : Constructor) (code : Bytes) (args : RustArgs (c.inputs.map (·.kind))) : Res Bytes :=
  (Constructor.encodeInput prof { inputs := c.inputs.map fun p => { p with internalType := none } } code
    (toTokens (c.inputs.map (·.kind)) args)).expect

/-- event.rs:153, 169-175: the event recreated in the generated module; its name is camel-cased -/
def genEvent (camel : Str → Str) (e : Event) : Event := { e with name := camel e.name }

/-- event.rs:191-198: the generated `parse_log` -/
def genParseLog (camel : Str → Str) (hash : Bytes → Word) (prof : Profile) (e : Event) (log : RawLog) :
    Res (RustArgs (e.inputs.map (·.kind))) := do
  let l ← (genEvent camel e).parseLog hash prof log
  fromTokens (e.inputs.map (·.kind)) (l.params.map (·.value))

/-- the arguments of the generated `filter` (event.rs:76-86), after `into()` -/
def FilterArgs : List ParamType → Type
  | [] => Unit
  | t :: ts => Topic (Rust t) × FilterArgs ts

/-- event.rs:91-102: `#param_name.into().map(|i| to_token(i))` for each argument -/
def filterTopics : (ts : List ParamType) → FilterArgs ts → List (Topic Token)
  | [], _ => []
  | t :: ts, (a, as) => a.map (toToken t) :: filterTopics ts as

/-- event.rs:95, 178-181: the first three, the others default -/
def rawOfTopics (l : List (Topic Token)) : RawTopicFilter :=
  { topic0 := l[0]?.getD .default, topic1 := l[1]?.getD .default, topic2 := l[2]?.getD .default }

/-- event.rs:177-185: the generated `filter` -/
def genFilter (camel : Str → Str) (hash : Bytes → Word) (prof : Profile) (e : Event)
    (args : FilterArgs ((e.indexedParams true).map (·.kind))) : Res TopicFilter :=
  ((genEvent camel e).filter hash prof (rawOfTopics (filterTopics ((e.indexedParams true).map (·.kind)) args))).expect

/-- event.rs:88-89: arguments `ethabi::Topic::Any` -/
def anyArgs : (ts : List ParamType) → FilterArgs ts
  | [] => ()
  | _ :: ts => (.any, anyArgs ts)

/-- event.rs:187-189: the generated `wildcard_filter` -/
def genWildcardFilter (camel : Str → Str) (hash : Bytes → Word) (prof : Profile) (e : Event) : Res TopicFilter :=
  genFilter camel hash prof e (anyArgs _)

end Ethabi

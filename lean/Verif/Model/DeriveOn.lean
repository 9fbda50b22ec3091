import Verif.Model.Derive
import Verif.Model.EventOn
/-!
# Generated code on targets whose `usize` has `bits` bits

The same source lines as in Model/Derive.lean, with the library for `bits` bits.  The conversions between Rust values and tokens
compute no positions and are the same on every target.  `C123_same_code` proves that this is the model of the other claims for
`bits = 64`.
-/
namespace Ethabi

/-- derive/src/function.rs:196-200: the generated `encode_input` -/
def genEncodeInputOn (bits : Nat) (hash : Bytes → Word) (prof : Profile) (f : Function) (args : RustArgs (f.inputs.map (·.kind))) :
    Res Bytes :=
  ((genFunction f).encodeInputOn bits hash prof (toTokens (f.inputs.map (·.kind)) args)).expect

/-- derive/src/function.rs:106-128, 187-205: the generated `decode_output` -/
def genDecodeOutputOn (bits : Nat) (prof : Profile) (f : Function) (data : Bytes) : Res (RustArgs (f.outputs.map (·.kind))) :=
  if f.outputs.length = 0 then fromTokens _ []
  else do
    let toks ← (genFunction f).decodeOutputOn bits prof data
    fromTokens (f.outputs.map (·.kind)) toks

/-- derive/src/constructor.rs:73-79: the generated `constructor` -/
def genConstructorOn (bits : Nat) (prof : Profile) (c : Constructor) (code : Bytes) (args : RustArgs (c.inputs.map (·.kind))) :
    Res Bytes :=
  (Constructor.encodeInputOn bits prof { inputs := c.inputs.map fun p => { p with internalType := none } } code
    (toTokens (c.inputs.map (·.kind)) args)).expect

/-- derive/src/event.rs:191-198: the generated `parse_log` -/
def genParseLogOn (bits : Nat) (camel : Str → Str) (hash : Bytes → Word) (prof : Profile) (e : Event) (log : RawLog) :
    Res (RustArgs (e.inputs.map (·.kind))) := do
  let l ← (genEvent camel e).parseLogOn bits hash prof log
  fromTokens (e.inputs.map (·.kind)) (l.params.map (·.value))

/-- derive/src/event.rs:177-185: the generated `filter` -/
def genFilterOn (bits : Nat) (camel : Str → Str) (hash : Bytes → Word) (prof : Profile) (e : Event)
    (args : FilterArgs ((e.indexedParams true).map (·.kind))) : Res TopicFilter :=
  ((genEvent camel e).filterOn bits hash prof (rawOfTopics (filterTopics ((e.indexedParams true).map (·.kind)) args))).expect

/-- derive/src/event.rs:187-189: the generated `wildcard_filter` -/
def genWildcardFilterOn (bits : Nat) (camel : Str → Str) (hash : Bytes → Word) (prof : Profile) (e : Event) : Res TopicFilter :=
  genFilterOn bits camel hash prof e (anyArgs _)

end Ethabi

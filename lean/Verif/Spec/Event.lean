import Verif.Spec.Text
/-!
# Specification: logs and topics

Written from the Solidity ABI specification, sections "Events" and "Encoding of Indexed Event Parameters".
Uses only the token and type data types.
-/
namespace Ethabi.Spec

/-- types whose indexed values are stored in the topic themselves -/
def valueType : ParamType → Bool
  | .address => true
  | .int _ => true
  | .uint _ => true
  | .bool => true
  | .fixedBytes _ => true
  | _ => false

mutual
/-- in-place encoding of an element of an array or struct: padded to whole words, no length prefixes, no offsets -/
def inPlace : Token → ParamType → Bytes
  | .bytes b, .bytes => padRight b
  | .string s, .string => padRight (s.flatMap String.utf8EncodeChar)
  | .array ts, .array t => inPlaceAll ts t
  | .fixedArray ts, .fixedArray t _ => inPlaceAll ts t
  | .tuple ts, .tuple ps => inPlaceZip ts ps
  | tok, t => enc tok t
def inPlaceAll : List Token → ParamType → Bytes
  | [], _ => []
  | tok :: toks, t => inPlace tok t ++ inPlaceAll toks t
def inPlaceZip : List Token → List ParamType → Bytes
  | tok :: toks, t :: ts => inPlace tok t ++ inPlaceZip toks ts
  | _, _ => []
end

/-- what is hashed for an indexed value of a type that does not fit in a topic: the bare contents of `bytes` and
`string`, the in-place encoding of arrays and structs -/
def topicPreimage : Token → ParamType → Bytes
  | .bytes b, .bytes => b
  | .string s, .string => s.flatMap String.utf8EncodeChar
  | tok, t => inPlace tok t

/-- the topic of an indexed value -/
def topicOf (hash : Bytes → Word) (tok : Token) (t : ParamType) : Bytes :=
  if valueType t then enc tok t else (hash (topicPreimage tok t)).1

/-- hash of the UTF-8 text `name(type1,...,typeN)` -/
def eventTopic (hash : Bytes → Word) (name : Str) (ts : List ParamType) : Bytes :=
  (hash ((signature (String.ofList name) ts).toList.flatMap String.utf8EncodeChar)).1

/-- an event parameter with the emitted value -/
structure Emitted where
  name : Str
  kind : ParamType
  indexed : Bool
  value : Token

/-- topics of the emitted log -/
def emitTopics (hash : Bytes → Word) (name : Str) (anonymous : Bool) (ps : List Emitted) : List Bytes :=
  (if anonymous then [] else [eventTopic hash name (ps.map (·.kind))]) ++
    (ps.filter (·.indexed)).map fun p => topicOf hash p.value p.kind

/-- data of the emitted log: the ABI encoding of the values that are not indexed -/
def emitData (ps : List Emitted) : Bytes :=
  encodeArgs ((ps.filter (!·.indexed)).map (·.value)) ((ps.filter (!·.indexed)).map (·.kind))

/-- the value a reader of the log can recover -/
def recoverable (hash : Bytes → Word) (p : Emitted) : Token :=
  if p.indexed && !valueType p.kind then .fixedBytes (topicOf hash p.value p.kind) else p.value

/-- the type under which a topic is read -/
def topicType (t : ParamType) : ParamType := if valueType t then t else .fixedBytes 32

/-- put topic values (`true`) and data values (`false`) back in declaration order -/
def interleave : List Bool → List Token → List Token → List Token
  | true :: fs, t :: ts, ds => t :: interleave fs ts ds
  | false :: fs, ts, d :: ds => d :: interleave fs ts ds
  | _, _, _ => []

end Ethabi.Spec

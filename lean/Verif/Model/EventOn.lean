import Verif.Model.Event
import Verif.Model.DecoderOn
import Verif.Model.EncoderOn
/-!
# Calls, filters and logs on targets whose `usize` has `bits` bits

The same source lines as in Model/Function.lean and Model/Event.lean, with the decoder and the encoder for `bits` bits.
`C104_same_code` proves that this is the model of the other claims for `bits = 64`.
-/
namespace Ethabi

/-- function.rs:64-66 `Function::decode_output`. -/
def Function.decodeOutputOn (bits : Nat) (prof : Profile) (f : Function) (data : Bytes) : Res (List Token) :=
  decodeOn bits prof f.outputParamTypes data

/-- function.rs:69-71 `Function::decode_input`. -/
def Function.decodeInputOn (bits : Nat) (prof : Profile) (f : Function) (data : Bytes) : Res (List Token) :=
  decodeOn bits prof f.inputParamTypes data

/-- event.rs:55-67 `convert_token` in `Event::filter`. -/
def convertTokenOn (bits : Nat) (hash : Bytes → Word) (prof : Profile) (token : Token) (kind : ParamType) : Res Word := do
  let okay ← Token.typeCheck token kind
  if !okay then .err .invalidData
  else
    let encoded ← encodeOn bits prof [token]
    if h : encoded.length = 32 then .ok ⟨encoded, h⟩
    else .ok (hash encoded)

/-- event.rs:76: `tokens.into_iter().map(..).collect::<Result<Vec<_>>>()` -/
def convertTokensOn (bits : Nat) (hash : Bytes → Word) (prof : Profile) (kind : ParamType) : List Token → Res (List Word)
  | [] => .ok []
  | t :: ts => do
      let w ← convertTokenOn bits hash prof t kind
      let ws ← convertTokensOn bits hash prof kind ts
      .ok (w :: ws)

/-- event.rs:69-85 `convert_topic` in `Event::filter`. -/
def convertTopicOn (bits : Nat) (hash : Bytes → Word) (prof : Profile) (topic : Topic Token) (kind : Option ParamType) :
    Res (Topic Word) :=
  match topic with
  | .any => .ok .any
  | .oneOf tokens => match kind with
      | none => .err .invalidData
      | some kind => do
          let topics ← convertTokensOn bits hash prof kind tokens
          .ok (.oneOf topics)
  | .this token => match kind with
      | none => .err .invalidData
      | some kind => do
          let topic ← convertTokenOn bits hash prof token kind
          .ok (.this topic)

/-- event.rs:54-105 `Event::filter`. -/
def Event.filterOn (bits : Nat) (hash : Bytes → Word) (prof : Profile) (e : Event) (raw : RawTopicFilter) : Res TopicFilter :=
  let kinds := (e.indexedParams true).map (·.kind)
  if e.anonymous then do
    let t0 ← convertTopicOn bits hash prof raw.topic0 kinds[0]?
    let t1 ← convertTopicOn bits hash prof raw.topic1 kinds[1]?
    let t2 ← convertTopicOn bits hash prof raw.topic2 kinds[2]?
    .ok { topic0 := t0, topic1 := t1, topic2 := t2, topic3 := .any }
  else do
    let t1 ← convertTopicOn bits hash prof raw.topic0 kinds[0]?
    let t2 ← convertTopicOn bits hash prof raw.topic1 kinds[1]?
    let t3 ← convertTopicOn bits hash prof raw.topic2 kinds[2]?
    .ok { topic0 := .this (e.signature hash), topic1 := t1, topic2 := t2, topic3 := t3 }

/-- event.rs:123-173 `Event::parse_log`. -/
def Event.parseLogOn (bits : Nat) (hash : Bytes → Word) (prof : Profile) (e : Event) (log : RawLog) : Res Log := do
  let topicParams := e.indexedParams true
  let dataParams := e.indexedParams false
  let toSkip ← e.checkSignature hash log.topics
  let topicTypes := topicParams.map fun p => convertTopicParamType p.kind
  let flatTopics := (log.topics.drop toSkip).flatMap (·.1)
  let topicTokens ← decodeOn bits prof topicTypes flatTopics
  if topicTokens.length ≠ log.topics.length - toSkip then .err .invalidData
  else do
    let topicsNamed := (topicParams.map (·.name)).zip topicTokens
    let dataTokens ← decodeOn bits prof (dataParams.map (·.kind)) log.data
    let dataNamed := (dataParams.map (·.name)).zip dataTokens
    let params ← logParams (topicsNamed ++ dataNamed) e.paramsNames
    .ok { params := params }

end Ethabi

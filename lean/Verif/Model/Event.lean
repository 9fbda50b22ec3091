import Verif.Model.Contract
import Verif.Model.Hex
/-!
# Events, logs and topic filters
-/
namespace Ethabi

/-- ethabi/src/filter.rs:49-56 `enum Topic<T>`. -/
inductive Topic (α : Type) where
  | any
  | oneOf (l : List α)
  | this (a : α)
deriving DecidableEq

/-- filter.rs:60-69 `Topic::map`. -/
def Topic.map {α β : Type} (f : α → β) : Topic α → Topic β
  | .any => .any
  | .oneOf l => .oneOf (l.map f)
  | .this a => .this (f a)

/-- filter.rs:72-77 `Topic::is_any`. -/
def Topic.isAny {α : Type} : Topic α → Bool
  | .any => true
  | .this _ => false
  | .oneOf _ => false

/-- filter.rs:80-84 `Default for Topic`. -/
def Topic.default {α : Type} : Topic α := .any

/-- filter.rs:86-93 `From<Option<T>>`. -/
def Topic.ofOption {α : Type} : Option α → Topic α
  | some a => .this a
  | none => .any

/-- filter.rs:95-99 `From<T>`. -/
def Topic.ofValue {α : Type} (a : α) : Topic α := .this a

/-- filter.rs:101-105 `From<Vec<T>>`. -/
def Topic.ofVec {α : Type} (l : List α) : Topic α := .oneOf l

/-- filter.rs:107-115 `From<Topic<T>> for Vec<T>`. -/
def Topic.toVec {α : Type} : Topic α → List α
  | .any => []
  | .this a => [a]
  | .oneOf l => l

/-- filter.rs:134-148 `Index<usize>`. -/
def Topic.index {α : Type} (t : Topic α) (i : Nat) : Res α :=
  match t with
  | .any => .panic
  | .this a => if i ≠ 0 then .panic else .ok a
  | .oneOf l => match l[i]? with
      | some a => .ok a
      | none => .panic

/-- filter.rs:16-23 `struct RawTopicFilter`. -/
structure RawTopicFilter where
  topic0 : Topic Token := .any
  topic1 : Topic Token := .any
  topic2 : Topic Token := .any

/-- filter.rs:26-36 `struct TopicFilter`. -/
structure TopicFilter where
  topic0 : Topic Word := .any
  topic1 : Topic Word := .any
  topic2 : Topic Word := .any
  topic3 : Topic Word := .any
deriving DecidableEq

/-- `format!("0x{:x}", hash)` -/
def hashText (h : Word) : Str := lit "0x" ++ hexEncode h.1

/-- filter.rs:117-132 `Serialize for Topic<Hash>`. -/
def serTopic : Topic Word → Json
  | .any => .null
  | .oneOf l => .arr (l.map fun h => .str (hashText h))
  | .this h => .str (hashText h)

/-- filter.rs:38-45 `Serialize for TopicFilter`. -/
def serTopicFilter (f : TopicFilter) : Json :=
  .arr [serTopic f.topic0, serTopic f.topic1, serTopic f.topic2, serTopic f.topic3]

/-- event.rs:39-41 `Event::param_types`. -/
def Event.paramTypes (e : Event) : List ParamType := e.inputs.map (·.kind)

/-- event.rs:34-36 `Event::params_names`. -/
def Event.paramsNames (e : Event) : List Str := e.inputs.map (·.name)

/-- event.rs:44-46 `Event::indexed_params`. -/
def Event.indexedParams (e : Event) (indexed : Bool) : List EventParam := e.inputs.filter (·.indexed == indexed)

/-- event.rs:49-51 `Event::signature`. -/
def Event.signature (hash : Bytes → Word) (e : Event) : Word := longSignature hash e.name e.paramTypes

/-- event.rs:55-67 `convert_token` in `Event::filter`. -/
def convertToken (hash : Bytes → Word) (prof : Profile) (token : Token) (kind : ParamType) : Res Word := do
  let okay ← Token.typeCheck token kind
  if !okay then .err .invalidData
  else
    let encoded ← encode prof [token]
    if h : encoded.length = 32 then .ok ⟨encoded, h⟩
    else .ok (hash encoded)

/-- event.rs:76: `tokens.into_iter().map(..).collect::<Result<Vec<_>>>()` -/
def convertTokens (hash : Bytes → Word) (prof : Profile) (kind : ParamType) : List Token → Res (List Word)
  | [] => .ok []
  | t :: ts => do
      let w ← convertToken hash prof t kind
      let ws ← convertTokens hash prof kind ts
      .ok (w :: ws)

/-- event.rs:69-85 `convert_topic` in `Event::filter`. -/
def convertTopic (hash : Bytes → Word) (prof : Profile) (topic : Topic Token) (kind : Option ParamType) :
    Res (Topic Word) :=
  match topic with
  | .any => .ok .any
  | .oneOf tokens => match kind with
      | none => .err .invalidData
      | some kind => do
          let topics ← convertTokens hash prof kind tokens
          .ok (.oneOf topics)
  | .this token => match kind with
      | none => .err .invalidData
      | some kind => do
          let topic ← convertToken hash prof token kind
          .ok (.this topic)

/-- event.rs:54-105 `Event::filter`. -/
def Event.filter (hash : Bytes → Word) (prof : Profile) (e : Event) (raw : RawTopicFilter) : Res TopicFilter :=
  let kinds := (e.indexedParams true).map (·.kind)
  if e.anonymous then do
    let t0 ← convertTopic hash prof raw.topic0 kinds[0]?
    let t1 ← convertTopic hash prof raw.topic1 kinds[1]?
    let t2 ← convertTopic hash prof raw.topic2 kinds[2]?
    .ok { topic0 := t0, topic1 := t1, topic2 := t2, topic3 := .any }
  else do
    let t1 ← convertTopic hash prof raw.topic0 kinds[0]?
    let t2 ← convertTopic hash prof raw.topic1 kinds[1]?
    let t3 ← convertTopic hash prof raw.topic2 kinds[2]?
    .ok { topic0 := .this (e.signature hash), topic1 := t1, topic2 := t2, topic3 := t3 }

/-- event.rs:111-120 `Event::convert_topic_param_type`. -/
def convertTopicParamType : ParamType → ParamType
  | .string => .fixedBytes 32
  | .bytes => .fixedBytes 32
  | .array _ => .fixedBytes 32
  | .fixedArray _ _ => .fixedBytes 32
  | .tuple _ => .fixedBytes 32
  | t => t

/-- ethabi/src/log.rs:30-35 `struct RawLog`. -/
structure RawLog where
  topics : List Word
  data : Bytes

/-- log.rs:45-50 `struct LogParam`. -/
structure LogParam where
  name : Str
  value : Token
deriving DecidableEq

/-- log.rs:54-57 `struct Log`. -/
structure Log where
  params : List LogParam
deriving DecidableEq

/-- `named_tokens[&name]` in the `HashMap` collected from `pairs` (event.rs:162, 167): of several entries with the
same key the last one is kept; indexing a missing key panics. -/
def mapIndex (pairs : List (Str × Token)) (name : Str) : Res Token :=
  match pairs.reverse.lookup name with
  | some t => .ok t
  | none => .panic

/-- event.rs:164-168: one `LogParam` per declared name -/
def logParams (pairs : List (Str × Token)) : List Str → Res (List LogParam)
  | [] => .ok []
  | n :: ns => do
      let v ← mapIndex pairs n
      let ps ← logParams pairs ns
      .ok ({ name := n, value := v } :: ps)

/-- event.rs:131-140: how many topics precede the indexed parameters, after checking the signature -/
def Event.checkSignature (hash : Bytes → Word) (e : Event) (topics : List Word) : Res Nat :=
  if e.anonymous then .ok 0
  else match topics[0]? with
    | none => .err .invalidData
    | some s => if s ≠ e.signature hash then .err .invalidData else .ok 1

/-- event.rs:123-173 `Event::parse_log`.  `topics_len - to_skip` (150) cannot underflow: a skipped topic exists. -/
def Event.parseLog (hash : Bytes → Word) (prof : Profile) (e : Event) (log : RawLog) : Res Log := do
  let topicParams := e.indexedParams true
  let dataParams := e.indexedParams false
  let toSkip ← e.checkSignature hash log.topics
  let topicTypes := topicParams.map fun p => convertTopicParamType p.kind
  let flatTopics := (log.topics.drop toSkip).flatMap (·.1)
  let topicTokens ← decode prof topicTypes flatTopics
  if topicTokens.length ≠ log.topics.length - toSkip then .err .invalidData
  else do
    let topicsNamed := (topicParams.map (·.name)).zip topicTokens
    let dataTokens ← decode prof (dataParams.map (·.kind)) log.data
    let dataNamed := (dataParams.map (·.name)).zip dataTokens
    let params ← logParams (topicsNamed ++ dataNamed) e.paramsNames
    .ok { params := params }

end Ethabi

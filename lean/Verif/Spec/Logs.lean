import Verif.Spec.Event
import Verif.Spec.Reading
/-!
# Which logs an event describes
-/
namespace Ethabi.Spec

/-- `v` stands under the name `n` in the list and no later entry has that name -/
def lastNamed {α : Type} (pairs : List (Str × α)) (n : Str) (v : α) : Prop :=
  ∃ before after, pairs = before ++ (n, v) :: after ∧ ∀ p ∈ after, p.1 ≠ n

/-- the first topic, unless the event is anonymous, is the hash of its signature -/
def signedBy (hash : Bytes → Word) (name : Str) (kinds : List ParamType) (anonymous : Bool) (topics : List Bytes) : Prop :=
  anonymous = true ∨ topics.head? = some (eventTopic hash name kinds)

/-- the topics behind the signature -/
def argumentTopics (anonymous : Bool) (topics : List Bytes) : List Bytes := if anonymous then topics else topics.tail

/-- the topics are signed, there is one for each of the indexed types `ts`, and they hold `toks` -/
def topicsHold (hash : Bytes → Word) (name : Str) (kinds : List ParamType) (anonymous : Bool) (topics : List Bytes)
    (ts : List ParamType) (toks : List Token) : Prop :=
  signedBy hash name kinds anonymous topics ∧ (argumentTopics anonymous topics).length = ts.length ∧
    readsAll (ts.map topicType) (argumentTopics anonymous topics).flatten 0 toks

/-- the data hold `toks` -/
def dataHold (data : Bytes) (ts : List ParamType) (toks : List Token) : Prop :=
  (data ≠ [] ∨ zeroTypes ts) ∧ readsAll ts data 0 toks

end Ethabi.Spec

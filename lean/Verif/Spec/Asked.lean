import Verif.Model.Event
/-! # Specification: the values a raw topic filter asks for -/
namespace Ethabi.Spec

/-- the topic asks for the value `t` -/
def asks (topic : Topic Token) (t : Token) : Prop := topic = .this t ∨ ∃ l, topic = .oneOf l ∧ t ∈ l

/-- one of the three topics asks for the value `t` -/
def asked (raw : RawTopicFilter) (t : Token) : Prop := asks raw.topic0 t ∨ asks raw.topic1 t ∨ asks raw.topic2 t

end Ethabi.Spec

import Verif.Model.Event
import Verif.Spec.Event
import Mathlib.Data.List.Forall2
/-!
# Specification: topic filters

Meaning of a filter (Ethereum JSON-RPC `eth_getLogs`/`eth_newFilter`, topics are order-dependent), and of its JSON
form.  Uses the data types of the model only.
-/
namespace Ethabi.Spec

/-- does the topic at one position satisfy the condition? -/
def topicMatches : Topic Word → Option Bytes → Prop
  | .any, _ => True
  | .this h, t => t = some h.1
  | .oneOf hs, t => ∃ h ∈ hs, t = some h.1

/-- does the topic list of a log satisfy the filter? -/
def filterMatches (f : TopicFilter) (topics : List Bytes) : Prop :=
  topicMatches f.topic0 topics[0]? ∧ topicMatches f.topic1 topics[1]? ∧
    topicMatches f.topic2 topics[2]? ∧ topicMatches f.topic3 topics[3]?

/-- does an indexed parameter satisfy the condition, `R` telling when a token describes its value? -/
def valueMatches (R : Token → Emitted → Prop) : Topic Token → Option Emitted → Prop
  | .any, _ => True
  | .this t, v => ∃ p, v = some p ∧ R t p
  | .oneOf ts, v => ∃ t ∈ ts, ∃ p, v = some p ∧ R t p

/-- the three conditions of a raw filter against the indexed parameters in order -/
def rawMatches (R : Token → Emitted → Prop) (raw : RawTopicFilter) (ps : List Emitted) : Prop :=
  valueMatches R raw.topic0 ps[0]? ∧ valueMatches R raw.topic1 ps[1]? ∧ valueMatches R raw.topic2 ps[2]?

/-- is the value at one position one of those asked for? -/
def tokenMatches : Topic Token → Option Token → Prop
  | .any, _ => True
  | .this t, v => v = some t
  | .oneOf ts, v => ∃ t ∈ ts, v = some t

/-- the three conditions of a raw filter against values in order -/
def rawMatchesValues (raw : RawTopicFilter) (vs : List Token) : Prop :=
  tokenMatches raw.topic0 vs[0]? ∧ tokenMatches raw.topic1 vs[1]? ∧ tokenMatches raw.topic2 vs[2]?

/-- same shape, and elements related one by one -/
inductive TopicRel {α β : Type} (R : α → β → Prop) : Topic α → Topic β → Prop where
  | any : TopicRel R .any .any
  | this {a b} (h : R a b) : TopicRel R (.this a) (.this b)
  | oneOf {l l'} (h : List.Forall₂ R l l') : TopicRel R (.oneOf l) (.oneOf l')

/-! ### JSON form -/

def hexDigits : List Char := ['0', '1', '2', '3', '4', '5', '6', '7', '8', '9', 'a', 'b', 'c', 'd', 'e', 'f']

/-- bytes from pairs of lower-case hexadecimal digits -/
def readHex : List Char → Option Bytes
  | [] => some []
  | a :: b :: cs => match hexDigits.idxOf? a, hexDigits.idxOf? b, readHex cs with
      | some x, some y, some r => some (UInt8.ofNat (16 * x + y) :: r)
      | _, _, _ => none
  | _ => none

/-- `0x` and 64 digits -/
def readHash : Json → Option Word
  | .str ('0' :: 'x' :: cs) => match readHex cs with
      | some b => if h : b.length = 32 then some ⟨b, h⟩ else none
      | none => none
  | _ => none

def readHashes : List Json → Option (List Word)
  | [] => some []
  | j :: js => match readHash j, readHashes js with
      | some h, some hs => some (h :: hs)
      | _, _ => none

def readTopic : Json → Option (Topic Word)
  | .null => some .any
  | .arr js => match readHashes js with
      | some l => some (.oneOf l)
      | none => none
  | j => match readHash j with
      | some h => some (.this h)
      | none => none

def readTopicFilter : Json → Option TopicFilter
  | .arr [a, b, c, d] => match readTopic a, readTopic b, readTopic c, readTopic d with
      | some t0, some t1, some t2, some t3 => some ⟨t0, t1, t2, t3⟩
      | _, _, _, _ => none
  | _ => none

end Ethabi.Spec

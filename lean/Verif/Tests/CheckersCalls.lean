import Verif.Tests.Checkers
import Verif.Model.Contract
import Verif.Model.Event
import Verif.Model.Json
import Verif.Spec.Filter
/-! Checkers as in `Tests/Checkers.lean`, for calls, contracts, logs and filters (tests). -/
namespace Ethabi.Checkers
open Ethabi.Spec

def c15 (pe pd : Profile) (ts : List ParamType) (toks : List Token) : Bool :=
  !(valuesOf toks ts && nonemptyFixedAll toks && codableAll ts && countsFitAll toks &&
      decide ((encodeArgs (zeroExtends toks ts) ts).length < 2 ^ 32) && nonzeroWidthAny ts) ||
    (decide (Token.typesCheck toks ts = .ok true) &&
      match encode pe toks with | .ok bs => decide (decode pd ts bs = .ok (zeroExtends toks ts)) | _ => false)

def c18 (hash : Bytes → Word) (pe pd : Profile) (f : Function) (toks : List Token) : Bool :=
  !fits (f.inputs.map (·.kind)) toks || match f.encodeInput hash pe toks with
    | .ok bs => decide (bs.drop 4 = encodeArgs toks (f.inputs.map (·.kind))) && decide (f.decodeInput pd (bs.drop 4) = .ok toks)
    | _ => false

def c20 (hash : Bytes → Word) (p : Profile) (f : Function) (c : Constructor) (code : Bytes) (toks : List Token) : Bool :=
  (decide (toks.length = f.inputs.length) || decide (f.encodeInput hash p toks = .err .invalidData)) &&
  (decide (toks.length = c.inputs.length) || decide (c.encodeInput p code toks = .err .invalidData)) &&
  (!arityMatchZip toks (f.inputs.map (·.kind)) || valuesOf toks (f.inputs.map (·.kind)) ||
    decide (f.encodeInput hash p toks = .err .invalidData)) &&
  (!arityMatchZip toks (c.inputs.map (·.kind)) || valuesOf toks (c.inputs.map (·.kind)) ||
    decide (c.encodeInput p code toks = .err .invalidData))

def c21 (pe pd : Profile) (c : Constructor) (code : Bytes) (toks : List Token) : Bool :=
  !(fits (c.inputs.map (·.kind)) toks && codableAll (c.inputs.map (·.kind)) && countsFitAll toks && nonzeroWidthAny (c.inputs.map (·.kind))) ||
    match c.encodeInput pe code toks with
    | .ok bs => decide (bs = code ++ encodeArgs toks (c.inputs.map (·.kind))) &&
        decide (decode pd (c.inputs.map (·.kind)) (bs.drop code.length) = .ok toks)
    | _ => false

def operations : List Json → Option (List Operation)
  | [] => some []
  | j :: js => match deOperation j, operations js with | .ok op, some ops => some (op :: ops) | _, _ => none

def functionsNamed (n : Str) (ops : List Operation) : List Function :=
  ops.filterMap fun | .function f => if f.name = n then some f else none | _ => none
def eventsNamed (n : Str) (ops : List Operation) : List Event :=
  ops.filterMap fun | .event f => if f.name = n then some f else none | _ => none

def c30 (js : List Json) (n : Str) : Bool :=
  match operations js with
  | none => true
  | some ops => match deContract (.arr js) with
    | .ok c => decide (c.functionsByName n = match functionsNamed n ops with | [] => .err (.invalidName n) | l => .ok l) &&
        decide (c.eventsByName n = match eventsNamed n ops with | [] => .err (.invalidName n) | l => .ok l) &&
        decide (c.function n = match functionsNamed n ops with | [] => .err (.invalidName n) | f :: _ => .ok f) &&
        decide (c.event n = match eventsNamed n ops with | [] => .err (.invalidName n) | e :: _ => .ok e) &&
        (c.receive == decide (Operation.receive ∈ ops)) && (c.fallback == decide (Operation.fallback ∈ ops))
    | _ => false

def c31 (js : List Json) (n : Str) : Bool :=
  match operations js with
  | none => true
  | some ops => match deContract (.arr js) with
    | .ok c => decide ({ c with functions := c.functions.reverse }.allFunctions.Perm (ops.filterMap fun | Operation.function f => some f | _ => none)) &&
        decide ({ c with events := c.events.reverse }.allEvents.Perm (ops.filterMap fun | Operation.event f => some f | _ => none)) &&
        decide ({ c with functions := c.functions.reverse }.allFunctions.filter (fun f => decide (f.name = n)) = functionsNamed n ops) &&
        decide ({ c with events := c.events.reverse }.allEvents.filter (fun f => decide (f.name = n)) = eventsNamed n ops)
    | _ => false

def c32 (s : Str) : Bool := decide (sanitizeName s = s.takeWhile (· != '('))

def c32l (j : Json) : Bool :=
  match deContract j with
  | .ok c => c.allFunctions.all (fun f => !f.name.contains '(') && c.allEvents.all (fun e => !e.name.contains '(')
  | _ => true

def toWords : List Bytes → Option (List Word)
  | [] => some []
  | b :: bs => if h : b.length = 32 then (toWords bs).map (⟨b, h⟩ :: ·) else none

def c33 (hash : Bytes → Word) (p : Profile) (name : Str) (anonymous : Bool) (ps : List Emitted) : Bool :=
  let e : Event := ⟨name, ps.map fun p => { name := p.name, kind := p.kind, indexed := p.indexed }, anonymous⟩
  match toWords (emitTopics hash name anonymous ps) with
  | none => true
  | some ws => !(decide (ps.map (·.name)).Nodup && ps.all (fun p => hasType p.value p.kind && solidity p.kind) &&
      decide (ws.length < 2 ^ 27) && decide ((emitData ps).length < 2 ^ 32)) ||
    decide (e.parseLog hash p ⟨ws, emitData ps⟩ = .ok { params := ps.map fun p => { name := p.name, value := recoverable hash p } })

def c35 (hash : Bytes → Word) (p : Profile) (e : Event) (log : RawLog) : Bool :=
  match e.parseLog hash p log with
  | .ok l => decide (l.params.map (·.name) = e.inputs.map (·.name))
  | _ => true

def shape {α : Type} : Topic α → Option Nat
  | .any => none
  | .this _ => some 0
  | .oneOf l => some (l.length + 1)

def c37 (hash : Bytes → Word) (p : Profile) (e : Event) (raw : RawTopicFilter) : Bool :=
  match e.filter hash p raw with
  | .ok f =>
    if e.anonymous then shape f.topic3 == none && shape f.topic0 == shape raw.topic0 && shape f.topic1 == shape raw.topic1 && shape f.topic2 == shape raw.topic2
    else (match f.topic0 with | .this w => decide (w.1 = eventTopic hash e.name (e.inputs.map (·.kind))) | _ => false) &&
      shape f.topic1 == shape raw.topic0 && shape f.topic2 == shape raw.topic1 && shape f.topic3 == shape raw.topic2
  | _ => true

def tokens : Topic Token → List Token
  | .any => []
  | .this t => [t]
  | .oneOf l => l

def wrongTopic (topic : Topic Token) (kind : Option ParamType) : Bool :=
  !(shape topic == none) && (match kind with | none => true | some k => (tokens topic).any fun t => !valueOf t k)

def c38 (hash : Bytes → Word) (e : Event) (raw : RawTopicFilter) : Bool :=
  let ks := (e.inputs.filter (·.indexed)).map (·.kind)
  let wrong := wrongTopic raw.topic0 ks[0]? || wrongTopic raw.topic1 ks[1]? || wrongTopic raw.topic2 ks[2]?
  !ks.all tupleFree || (if wrong then decide (e.filter hash .release raw = .err .invalidData)
    else match e.filter hash .release raw with | .ok _ => true | _ => false)

def topicOk : Topic Word → Option Bytes → Bool
  | .any, _ => true
  | .this h, t => decide (t = some h.1)
  | .oneOf hs, t => hs.any fun h => decide (t = some h.1)

def valueOk : Topic Token → Option Emitted → Bool
  | .any, _ => true
  | .this _, none => false
  | .this t, some p => decide (p.value = t)
  | .oneOf _, none => false
  | .oneOf ts, some p => ts.any fun t => decide (p.value = t)

def typedTopic (topic : Topic Token) : Option Emitted → Bool
  | none => true
  | some p => (tokens topic).all fun t => hasType t p.kind

def c39 (hash : Bytes → Word) (p : Profile) (name : Str) (anonymous : Bool) (ps : List Emitted) (raw : RawTopicFilter) : Bool :=
  let e : Event := ⟨name, ps.map fun p => { name := p.name, kind := p.kind, indexed := p.indexed }, anonymous⟩
  let is := ps.filter (·.indexed)
  match e.filter hash p raw with
  | .ok f => !(ps.all (fun p => !p.indexed || (valueType p.kind && solidity p.kind && hasType p.value p.kind)) &&
        typedTopic raw.topic0 is[0]? && typedTopic raw.topic1 is[1]? && typedTopic raw.topic2 is[2]?) ||
      (let ts := emitTopics hash name anonymous ps
       (topicOk f.topic0 ts[0]? && topicOk f.topic1 ts[1]? && topicOk f.topic2 ts[2]? && topicOk f.topic3 ts[3]?) ==
        (valueOk raw.topic0 is[0]? && valueOk raw.topic1 is[1]? && valueOk raw.topic2 is[2]?))
  | _ => true

def c41 (t : Topic Nat) (i a : Nat) : Bool :=
  (decide (t.index i = .ok a) == decide (t.toVec[i]? = some a)) && (decide (t.index i = .panic) == decide (t.toVec.length ≤ i)) &&
    (t.isAny == decide (t = .any)) && decide ((t.map (· + 1)).toVec = t.toVec.map (· + 1)) && decide (shape (t.map (· + 1)) = shape t)

end Ethabi.Checkers

import Verif.Model.Json
/-!
# ABI JSON: functions, events, operations and contracts

The derived (`#[derive(Deserialize)]`) implementations accept an operation as a JSON object and also as a JSON array of
its tag and its fields in declaration order, and `StateMutability` as a string and also as an object `{"pure": null}`.
Newer versions of serde also accept `{"pure": {}}`, which this model rejects.
A `HashMap` is a list of entries with distinct keys; its iteration order is a permutation of that list chosen
by the environment.
-/
namespace Ethabi

/-- ethabi/src/event.rs:22-30 `struct Event`. -/
structure Event where
  name : Str
  inputs : List EventParam
  anonymous : Bool
deriving DecidableEq

/-- ethabi/src/util.rs:34-38 `sanitize_name`: `find('(')` and `truncate`. -/
def sanitizeName (name : Str) : Str := name.takeWhile (· != '(')

/-- ethabi/src/util.rs:25-32 `sanitize_name::deserialize`. -/
def deName (j : Json) : Res Str := do
  let s ← deString j
  .ok (sanitizeName s)

/-- `Vec<T>::deserialize` -/
def deVec {α : Type} (de : Json → Res α) : List Json → Res (List α)
  | [] => .ok []
  | x :: xs => do
      let a ← de x
      let as ← deVec de xs
      .ok (a :: as)

/-- `Vec<T>::deserialize` -/
def deArr {α : Type} (de : Json → Res α) : Json → Res (List α)
  | .arr xs => deVec de xs
  | _ => .err .serdeJson

/-- ethabi/src/state_mutability.rs:5-18: the renamed variants -/
def mutabilityVariant (s : Str) : Res StateMutability :=
  if s = lit "pure" then .ok .pure
  else if s = lit "view" then .ok .view
  else if s = lit "nonpayable" then .ok .nonPayable
  else if s = lit "payable" then .ok .payable
  else .err .serdeJson

/-- ethabi/src/state_mutability.rs:5-18, derived `Deserialize`: an externally tagged enum of unit variants, either the
variant's name or an object with the name as its only key and `null`. -/
def deStateMutability : Json → Res StateMutability
  | .str s => mutabilityVariant s
  | .obj [(s, .null)] => mutabilityVariant s
  | _ => .err .serdeJson

/-- ethabi/src/state_mutability.rs:5-18, derived `Serialize`. -/
def serStateMutability : StateMutability → Json
  | .pure => .str (lit "pure")
  | .view => .str (lit "view")
  | .nonPayable => .str (lit "nonpayable")
  | .payable => .str (lit "payable")

/-- partially read fields of `Function`, `Event` and `Constructor` -/
structure OpSt where
  name : Option Str := none
  inputs : Option (List Param) := none
  outputs : Option (List Param) := none
  constant : Option Bool := none
  stateMutability : Option StateMutability := none
  eventInputs : Option (List EventParam) := none
  anonymous : Option Bool := none

/-- ethabi/src/function.rs:20-37, derived field loop; unknown fields are skipped. -/
def deFunctionFields (mode : Mode) : List (Str × Json) → OpSt → Res OpSt
  | [], st => .ok st
  | (k, v) :: fs, st =>
      if k = lit "name" then
        if st.name.isSome then .err .serdeJson
        else do let x ← deName v; deFunctionFields mode fs { st with name := some x }
      else if k = lit "inputs" then
        if st.inputs.isSome then .err .serdeJson
        else do let x ← deArr (deParam mode) v; deFunctionFields mode fs { st with inputs := some x }
      else if k = lit "outputs" then
        if st.outputs.isSome then .err .serdeJson
        else do let x ← deArr (deParam mode) v; deFunctionFields mode fs { st with outputs := some x }
      else if k = lit "constant" then
        if st.constant.isSome then .err .serdeJson
        else do let x ← deBool v; deFunctionFields mode fs { st with constant := some x }
      else if k = lit "stateMutability" then
        if st.stateMutability.isSome then .err .serdeJson
        else do let x ← deStateMutability v; deFunctionFields mode fs { st with stateMutability := some x }
      else deFunctionFields mode fs st

/-- ethabi/src/function.rs:20-37, derived `Deserialize` (`constant` and `stateMutability` have defaults). -/
def deFunction (mode : Mode) (fs : List (Str × Json)) : Res Function := do
  let st ← deFunctionFields mode fs {}
  let name ← required st.name
  let inputs ← required st.inputs
  let outputs ← required st.outputs
  .ok { name := name, inputs := inputs, outputs := outputs, constant := st.constant.getD false,
        stateMutability := st.stateMutability.getD .nonPayable }

/-- ethabi/src/event.rs:22-30, derived field loop. -/
def deEventOpFields (mode : Mode) : List (Str × Json) → OpSt → Res OpSt
  | [], st => .ok st
  | (k, v) :: fs, st =>
      if k = lit "name" then
        if st.name.isSome then .err .serdeJson
        else do let x ← deName v; deEventOpFields mode fs { st with name := some x }
      else if k = lit "inputs" then
        if st.eventInputs.isSome then .err .serdeJson
        else do let x ← deArr (deEventParam mode) v; deEventOpFields mode fs { st with eventInputs := some x }
      else if k = lit "anonymous" then
        if st.anonymous.isSome then .err .serdeJson
        else do let x ← deBool v; deEventOpFields mode fs { st with anonymous := some x }
      else deEventOpFields mode fs st

/-- ethabi/src/event.rs:22-30, derived `Deserialize`. -/
def deEvent (mode : Mode) (fs : List (Str × Json)) : Res Event := do
  let st ← deEventOpFields mode fs {}
  let name ← required st.name
  let inputs ← required st.eventInputs
  let anonymous ← required st.anonymous
  .ok { name := name, inputs := inputs, anonymous := anonymous }

/-- ethabi/src/constructor.rs:14-18, derived field loop. -/
def deConstructorFields (mode : Mode) : List (Str × Json) → OpSt → Res OpSt
  | [], st => .ok st
  | (k, v) :: fs, st =>
      if k = lit "inputs" then
        if st.inputs.isSome then .err .serdeJson
        else do let x ← deArr (deParam mode) v; deConstructorFields mode fs { st with inputs := some x }
      else deConstructorFields mode fs st

/-- ethabi/src/constructor.rs:14-18, derived `Deserialize`. -/
def deConstructor (mode : Mode) (fs : List (Str × Json)) : Res Constructor := do
  let st ← deConstructorFields mode fs {}
  let inputs ← required st.inputs
  .ok { inputs := inputs }

/-- serde `SeqAccess::next_element` -/
def nextElement {α : Type} (de : Json → Res α) : List Json → Res (Option α × List Json)
  | [] => .ok (none, [])
  | x :: xs => do
      let a ← de x
      .ok (some a, xs)

/-- a sequence must have been read to its end (serde `SeqDeserializer::end`) -/
def endOfSeq : List Json → Res Unit
  | [] => .ok ()
  | _ :: _ => .err .serdeJson

/-- ethabi/src/function.rs:20-37, derived `Deserialize` from a sequence: the fields in the order of declaration; the last
two have defaults. -/
def deFunctionSeq (mode : Mode) (xs : List Json) : Res Function := do
  let (name, xs) ← nextElement deName xs
  let name ← required name
  let (inputs, xs) ← nextElement (deArr (deParam mode)) xs
  let inputs ← required inputs
  let (outputs, xs) ← nextElement (deArr (deParam mode)) xs
  let outputs ← required outputs
  let (constant, xs) ← nextElement deBool xs
  let (stateMutability, xs) ← nextElement deStateMutability xs
  endOfSeq xs
  .ok { name := name, inputs := inputs, outputs := outputs, constant := constant.getD false,
        stateMutability := stateMutability.getD .nonPayable }

/-- ethabi/src/event.rs:22-30, derived `Deserialize` from a sequence. -/
def deEventSeq (mode : Mode) (xs : List Json) : Res Event := do
  let (name, xs) ← nextElement deName xs
  let name ← required name
  let (inputs, xs) ← nextElement (deArr (deEventParam mode)) xs
  let inputs ← required inputs
  let (anonymous, xs) ← nextElement deBool xs
  let anonymous ← required anonymous
  endOfSeq xs
  .ok { name := name, inputs := inputs, anonymous := anonymous }

/-- ethabi/src/constructor.rs:14-18, derived `Deserialize` from a sequence. -/
def deConstructorSeq (mode : Mode) (xs : List Json) : Res Constructor := do
  let (inputs, xs) ← nextElement (deArr (deParam mode)) xs
  let inputs ← required inputs
  endOfSeq xs
  .ok { inputs := inputs }

/-- ethabi/src/operation.rs:15-33 `enum Operation`. -/
inductive Operation where
  | constructor (c : Constructor)
  | function (f : Function)
  | event (e : Event)
  | fallback
  | receive
deriving DecidableEq

/-- internally tagged enum: collect the `type` entry, keep the others in order (serde `TaggedContentVisitor`) -/
def splitTag : List (Str × Json) → Option Json → List (Str × Json) → Res (Json × List (Str × Json))
  | [], some tag, acc => .ok (tag, acc)
  | [], none, _ => .err .serdeJson
  | (k, v) :: fs, tag, acc =>
      if k = lit "type" then
        match tag with
        | some _ => .err .serdeJson
        | none => splitTag fs (some v) acc
      else splitTag fs tag (acc ++ [(k, v)])

/-- ethabi/src/operation.rs:15-33, derived `Deserialize` with `tag = "type"`, from a sequence: the tag is the first
element (serde `TaggedContentVisitor::visit_seq`). -/
def deOperationSeq : List Json → Res Operation
  | .str s :: rest =>
      if s = lit "constructor" then do let c ← deConstructorSeq .buffered rest; .ok (.constructor c)
      else if s = lit "function" then do let f ← deFunctionSeq .buffered rest; .ok (.function f)
      else if s = lit "event" then do let e ← deEventSeq .buffered rest; .ok (.event e)
      else if s = lit "fallback" then do endOfSeq rest; .ok .fallback
      else if s = lit "receive" then do endOfSeq rest; .ok .receive
      else .err .serdeJson
  | _ => .err .serdeJson

/-- ethabi/src/operation.rs:15-33, derived `Deserialize` with `tag = "type"`. -/
def deOperation : Json → Res Operation
  | .obj fs => do
      let (tag, rest) ← splitTag fs none []
      match tag with
      | .str s =>
          if s = lit "constructor" then do let c ← deConstructor .buffered rest; .ok (.constructor c)
          else if s = lit "function" then do let f ← deFunction .buffered rest; .ok (.function f)
          else if s = lit "event" then do let e ← deEvent .buffered rest; .ok (.event e)
          else if s = lit "fallback" then .ok .fallback
          else if s = lit "receive" then .ok .receive
          else .err .serdeJson
      | _ => .err .serdeJson
  | .arr xs => deOperationSeq xs
  | _ => .err .serdeJson

/-- ethabi/src/contract.rs:23-34 `struct Contract`; maps as entry lists. -/
structure Contract where
  constructor : Option Constructor := none
  functions : List (Str × List Function) := []
  events : List (Str × List Event) := []
  receive : Bool := false
  fallback : Bool := false
deriving DecidableEq

/-- `map.entry(key).or_default().push(v)` -/
def pushEntry {α : Type} (key : Str) (v : α) : List (Str × List α) → List (Str × List α)
  | [] => [(key, [v])]
  | (k, vs) :: m => if k = key then (k, vs ++ [v]) :: m else (k, vs) :: pushEntry key v m

/-- `map.get(key)` -/
def getEntry {α : Type} (key : Str) : List (Str × List α) → Option (List α)
  | [] => none
  | (k, vs) :: m => if k = key then some vs else getEntry key m

/-- ethabi/src/contract.rs:60-76: one iteration of the loop in `visit_seq` -/
def Contract.add (c : Contract) : Operation → Contract
  | .constructor k => { c with constructor := some k }
  | .function f => { c with functions := pushEntry f.name f c.functions }
  | .event e => { c with events := pushEntry e.name e c.events }
  | .fallback => { c with fallback := true }
  | .receive => { c with receive := true }

/-- contract.rs:58-79: the loop, from the contract `c` -/
def deOperations : List Json → Contract → Res Contract
  | [], c => .ok c
  | j :: js, c => do
      let op ← deOperation j
      deOperations js (c.add op)

/-- ethabi/src/contract.rs:36-81 `Deserialize for Contract`; also `Contract::load`, 140-142. -/
def deContract : Json → Res Contract
  | .arr js => deOperations js {}
  | _ => .err .serdeJson

/-- derived `Serialize for Function` (function.rs:20-37) -/
def functionFields (f : Function) : List (Str × Json) :=
  [(lit "name", .str f.name), (lit "inputs", .arr (f.inputs.map serParam)),
   (lit "outputs", .arr (f.outputs.map serParam)), (lit "constant", .bool f.constant),
   (lit "stateMutability", serStateMutability f.stateMutability)]

/-- derived `Serialize for Event` (event.rs:22-30) -/
def eventFields (e : Event) : List (Str × Json) :=
  [(lit "name", .str e.name), (lit "inputs", .arr (e.inputs.map serEventParam)),
   (lit "anonymous", .bool e.anonymous)]

/-- derived `Serialize for Constructor` (constructor.rs:14-18) -/
def constructorFields (c : Constructor) : List (Str × Json) :=
  [(lit "inputs", .arr (c.inputs.map serParam))]

/-- ethabi/src/operation.rs:15-33, derived `Serialize`; the same text is produced by `OperationRef`,
contract.rs:88-104. -/
def serOperation : Operation → Json
  | .constructor c => .obj ((lit "type", .str (lit "constructor")) :: constructorFields c)
  | .function f => .obj ((lit "type", .str (lit "function")) :: functionFields f)
  | .event e => .obj ((lit "type", .str (lit "event")) :: eventFields e)
  | .fallback => .obj [(lit "type", .str (lit "fallback"))]
  | .receive => .obj [(lit "type", .str (lit "receive"))]

/-- ethabi/src/contract.rs:83-136 `Serialize for Contract`, in the iteration order of the entry lists:
the operations written -/
def Contract.operations (c : Contract) : List Operation :=
  (match c.constructor with | some k => [.constructor k] | none => []) ++
  (c.functions.flatMap fun e => e.2.map .function) ++
  (c.events.flatMap fun e => e.2.map .event) ++
  (if c.receive then [.receive] else []) ++
  (if c.fallback then [.fallback] else [])

/-- ethabi/src/contract.rs:83-136 `Serialize for Contract`. -/
def serContract (c : Contract) : Json := .arr (c.operations.map serOperation)

/-- contract.rs:151-153 `Contract::function`. -/
def Contract.function (c : Contract) (name : Str) : Res Function :=
  match getEntry name c.functions with
  | some (f :: _) => .ok f
  | _ => .err (.invalidName name)

/-- contract.rs:156-158 `Contract::event`. -/
def Contract.event (c : Contract) (name : Str) : Res Event :=
  match getEntry name c.events with
  | some (e :: _) => .ok e
  | _ => .err (.invalidName name)

/-- contract.rs:161-163 `Contract::events_by_name`. -/
def Contract.eventsByName (c : Contract) (name : Str) : Res (List Event) :=
  match getEntry name c.events with
  | some es => .ok es
  | none => .err (.invalidName name)

/-- contract.rs:166-168 `Contract::functions_by_name`. -/
def Contract.functionsByName (c : Contract) (name : Str) : Res (List Function) :=
  match getEntry name c.functions with
  | some fs => .ok fs
  | none => .err (.invalidName name)

/-- contract.rs:171-173 `Contract::functions`, in the iteration order of the entry list -/
def Contract.allFunctions (c : Contract) : List Function := c.functions.flatMap (·.2)

/-- contract.rs:176-178 `Contract::events` -/
def Contract.allEvents (c : Contract) : List Event := c.events.flatMap (·.2)

end Ethabi

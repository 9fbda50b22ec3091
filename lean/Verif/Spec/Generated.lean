import Verif.Spec.Abi
import Verif.Spec.Derive
import Verif.Spec.RustModules
import Verif.Model.Derive
/-!
# Specification: what the generator accepts, and Rust values

Conditions on a contract under which text is generated, and the values of `Spec/RustText.lean` that stand for the arguments
and results of `Model/Derive.lean`.
-/
namespace Ethabi.Spec

/-- `bytesN` is written with `syn::Index`, which holds numbers below `u32::MAX`; `bytes32` is a special case -/
def indexable : ParamType → Bool
  | .fixedBytes n => n == 32 || decide (n < 2 ^ 32 - 1)
  | .array t => indexable t
  | .fixedArray t _ => indexable t
  | _ => true

/-- The identifier made from the name of a parameter (`none`: the parameter is unnamed, and numbered) is accepted. -/
def nameOk (nm : Naming) (ident : Str → Str) (name : Str) : Bool := name.isEmpty || nm.valid (ident name)

/-- the identifier for a named input -/
def inputIdent (nm : Naming) (name : Str) : Str := if name = lit "self" then lit "_self" else nm.snake name

/-- inputs for which text is generated -/
def inputsOk (nm : Naming) (ps : List Param) : Bool :=
  ps.all fun p => tupleFree p.kind && nameOk nm (inputIdent nm) p.name

/-- functions for which text is generated -/
def functionOk (nm : Naming) (f : Function) : Bool :=
  inputsOk nm f.inputs && (f.outputs.all fun p => tupleFree p.kind && indexable p.kind) && nm.valid (nm.snake f.name)

/-- events for which text is generated -/
def eventOk (nm : Naming) (e : Event) : Bool :=
  (e.inputs.all fun p => tupleFree p.kind && indexable p.kind && nameOk nm nm.snake p.name) &&
    nm.valid (nm.snake e.name) && nm.valid (nm.camel e.name)

/-- contracts for which text is generated -/
def contractOk (nm : Naming) (c : Contract) : Bool :=
  (match c.constructor with | .none => true | .some k => inputsOk nm k.inputs) &&
    c.allFunctions.all (functionOk nm) && c.allEvents.all (eventOk nm)

/-- the names of the inputs, from number `i` on -/
def inputNames (nm : Naming) : Nat → List Param → List Str
  | _, [] => []
  | i, p :: ps => (if p.name.isEmpty then numbered "param" i else inputIdent nm p.name) :: inputNames nm (i + 1) ps

/-- the names of the inputs of an event, from number `i` on -/
def fieldNames (nm : Naming) : Nat → List EventParam → List Str
  | _, [] => []
  | i, p :: ps =>
      (if p.name.isEmpty then (if p.indexed then numbered "topic" i else numbered "param" i) else nm.snake p.name) ::
        fieldNames nm (i + 1) ps

/-- the names of the indexed inputs of an event -/
def topicNames (nm : Naming) (e : Event) : List Str :=
  ((fieldNames nm 0 e.inputs).zip e.inputs).filterMap fun x => if x.2.indexed then some x.1 else none

/-! ## Values -/

/-- a Rust value -/
def hostVal : (t : ParamType) → Rust t → Val
  | .address, a => .addr a
  | .bytes, b => .bytes b
  | .int _, i => .int i
  | .uint _, u => .int u
  | .bool, b => .bool b
  | .string, s => .str s
  | .fixedBytes _, b => .bytes b.1
  | .array t, l => .list (List.map (hostVal t) l)
  | .fixedArray t _, l => .list (l.1.map (hostVal t))
  | .tuple _, e => nomatch e

/-- arguments -/
def hostVals : (ts : List ParamType) → RustArgs ts → List Val
  | [], _ => []
  | t :: ts, (a, as) => hostVal t a :: hostVals ts as

/-- the outputs of a function: one is returned as it is, several as a tuple -/
def outputVal : (ts : List ParamType) → RustArgs ts → Val
  | [t], (a, _) => hostVal t a
  | ts, as => .tuple (hostVals ts as)

/-- arguments of a filter -/
def topicVals : (ts : List ParamType) → FilterArgs ts → List Val
  | [], _ => []
  | t :: ts, (a, as) => .topic (a.map (hostVal t)) :: topicVals ts as

/-- a result that must be there (`.expect`) -/
def expected {α : Type} (f : α → Val) : Res α → Run Val
  | .ok a => .ok (f a)
  | .err _ => .panic
  | .panic => .panic

/-! ## What rustc accepts -/

/-- The parameters of `encode_input` and `call` are distinct names that are not keywords, and none of them hides `f` or
`function` in the body. -/
def callable (nm : Naming) (f : Function) : Bool :=
  let names := inputNames nm 0 f.inputs
  namesOk names && !names.contains (lit "f") && !names.contains (lit "function")

/-- the same for `constructor`, which has a parameter `code` and a variable `c` -/
def constructible (nm : Naming) (c : Constructor) : Bool :=
  let names := inputNames nm 0 c.inputs
  namesOk (lit "code" :: names) && !names.contains (lit "c")

/-- the same for `filter`, which calls `event` -/
def filterable (nm : Naming) (e : Event) : Bool :=
  namesOk (topicNames nm e) && !(topicNames nm e).contains (lit "event")

/-- the Rust type for a parameter, if there is one -/
def rtype : ParamType → Option RType
  | .address => some .address
  | .bytes => some .bytes
  | .int _ => some .int
  | .uint _ => some .uint
  | .bool => some .bool
  | .string => some .string
  | .fixedBytes n => some (if n = 32 then .hash else .byteArray n)
  | .array t => (rtype t).map .vec
  | .fixedArray _ _ => none
  | .tuple _ => none

/-- the bound for an argument: any iterator for an array; an array of the right length, without a Rust type for `T[k]` inside
others -/
def generic (i : Nat) : ParamType → Option Generic
  | .array t => (rtype t).map (.items i)
  | .fixedArray t n => (rtype t).map (.array i n)
  | t => (rtype t).map (.into i)

/-! ## Modules that do what they should -/

/-- a module for the function `f` -/
structure FunctionModule.Implements (m : FunctionModule) (nm : Naming) (f : Function) : Prop where
  /-- its name and its parameters -/
  name : m.name = nm.snake f.name
  params : m.params = inputNames nm 0 f.inputs
  /-- the function recreated -/
  function : ∀ hash prof, m.runFunction hash prof =
    .ok (.fn { f with inputs := f.inputs.map fun p => { p with internalType := none },
                      outputs := f.outputs.map fun p => { p with internalType := none } })
  encode : ∀ hash prof as, m.runEncodeInput hash prof (hostVals (f.inputs.map (·.kind)) as) =
    if callable nm f then expected .bytes (genEncodeInput hash prof f as) else .stuck
  call : ∀ hash prof as, m.runCall hash prof (hostVals (f.inputs.map (·.kind)) as) =
    if callable nm f then expected (fun b => .tuple [.bytes b, .decoder (genFunction f)]) (genEncodeInput hash prof f as)
    else .stuck
  decode : (∀ p ∈ f.outputs, generated p.kind = true) → ∀ hash prof data,
    m.runDecode hash prof (.decoder (genFunction f)) data = result (outputVal _) (genDecodeOutput prof f data) ∧
      m.runDecodeOutput hash prof data = result (outputVal _) (genDecodeOutput prof f data)

/-- an item for the constructor `c` -/
def ConstructorItem.Implements (m : ConstructorItem) (nm : Naming) (c : Constructor) : Prop :=
  ∀ hash prof code as, m.run hash prof code (hostVals (c.inputs.map (·.kind)) as) =
    if constructible nm c then expected .bytes (genConstructor prof c code as) else .stuck

/-- a module for the event `e` -/
structure EventModule.Implements (m : EventModule) (nm : Naming) (e : Event) : Prop where
  name : m.name = nm.snake e.name
  params : m.params = topicNames nm e
  logName : m.logName = nm.camel e.name
  /-- the event recreated, with another name -/
  event : ∀ hash prof, m.runEvent hash prof = .ok (.ev { e with name := nm.camel e.name })
  filter : ∀ hash prof as, m.runFilter hash prof (topicVals ((e.indexedParams true).map (·.kind)) as) =
    if filterable nm e then expected .filter (genFilter nm.camel hash prof e as) else .stuck
  wildcard : ∀ hash prof, m.runWildcardFilter hash prof =
    if filterable nm e then expected .filter (genWildcardFilter nm.camel hash prof e) else .stuck
  parse : (∀ p ∈ e.inputs, generated p.kind = true) → namesOk (fieldNames nm 0 e.inputs) = true → ∀ hash prof log,
    m.runParseLog hash prof log =
      result (fun as => .struct (nm.camel e.name) (fieldNames nm 0 e.inputs) (hostVals _ as)) (genParseLog nm.camel hash prof e log)

/-- two lists of the same length, related element by element -/
def Each {α β : Type} (R : α → β → Prop) : List α → List β → Prop
  | [], [] => True
  | a :: as, b :: bs => R a b ∧ Each R as bs
  | _, _ => False

/-- a struct for the logs of the event `e`: a field for every parameter, of its type -/
structure LogStruct.Implements (s : LogStruct) (nm : Naming) (e : Event) : Prop where
  name : s.name = nm.camel e.name
  fields : s.fields = fieldNames nm 0 e.inputs
  types : ∀ rs : List RType, (e.inputs.map fun p => rtype p.kind) = rs.map some → s.types = rs.map RType.code

/-- text for the contract `c` -/
structure ContractText.Implements (t : ContractText) (nm : Naming) (c : Contract) : Prop where
  constructor : match t.constructor, c.constructor with
    | some m, some k => m.Implements nm k
    | none, none => True
    | _, _ => False
  functions : Each (fun m f => FunctionModule.Implements m nm f) t.functions c.allFunctions
  events : Each (fun m e => EventModule.Implements m nm e) t.events c.allEvents
  logs : Each (fun s e => LogStruct.Implements s nm e) t.logs c.allEvents

end Ethabi.Spec

import Verif.Model.Contract
import Verif.Model.ReaderOn
/-!
# ABI JSON on targets whose `usize` has `bits` bits

The same source lines as Model/Json.lean and Model/Contract.lean, with the type strings read by `Reader::read` of the target
(Model/ReaderOn.lean).  `C120_same_code` proves that this is the model of the other files for `bits = 64`.
-/
namespace Ethabi

/-- ethabi/src/param_type/deserialize.rs:16-47: every error of `Reader::read` becomes a serde error. -/
def deKindOn (bits : Nat) : Json → Res ParamType
  | .str s => match readOn bits s with
      | .ok t => .ok t
      | .err _ => .err .serdeJson
      | .panic => .panic
  | _ => .err .serdeJson

mutual
/-- ethabi/src/tuple_param.rs:32-93 `Deserialize for TupleParam`. -/
def deTupleParamOn (bits : Nat) (mode : Mode) : Json → Res TupleParam
  | .obj fs => do
      let st ← deTupleFieldsOn bits mode fs {}
      finishTupleParam st
  | _ => .err .serdeJson
/-- tuple_param.rs:59-88, the field loop -/
def deTupleFieldsOn (bits : Nat) (mode : Mode) : List (Str × Json) → FieldSt → Res FieldSt
  | [], st => .ok st
  | (k, v) :: fs, st =>
      if k = lit "name" then
        if st.name.isSome then .err .serdeJson
        else do let x ← deString v; deTupleFieldsOn bits mode fs { st with name := some x }
      else if k = lit "type" then
        if st.kind.isSome then .err .serdeJson
        else do let x ← deKindOn bits v; deTupleFieldsOn bits mode fs { st with kind := some x }
      else if k = lit "internalType" then
        if st.internalType.isSome then .err .serdeJson
        else do let x ← deString v; deTupleFieldsOn bits mode fs { st with internalType := some x }
      else if k = lit "components" then
        if st.components.isSome then .err .serdeJson
        else do let x ← deComponentsOn bits mode v; deTupleFieldsOn bits mode fs { st with components := some x }
      else match mode with
        | .direct => .err .serdeJson
        | .buffered => deTupleFieldsOn bits mode fs st
/-- `Vec<TupleParam>::deserialize` -/
def deComponentsOn (bits : Nat) (mode : Mode) : Json → Res (List TupleParam)
  | .arr xs => deTupleParamsOn bits mode xs
  | _ => .err .serdeJson
/-- elements of `Vec<TupleParam>` -/
def deTupleParamsOn (bits : Nat) (mode : Mode) : List Json → Res (List TupleParam)
  | [] => .ok []
  | x :: xs => do
      let p ← deTupleParamOn bits mode x
      let ps ← deTupleParamsOn bits mode xs
      .ok (p :: ps)
end

/-- ethabi/src/param.rs:58-87, the field loop -/
def deParamFieldsOn (bits : Nat) (mode : Mode) : List (Str × Json) → FieldSt → Res FieldSt
  | [], st => .ok st
  | (k, v) :: fs, st =>
      if k = lit "name" then
        if st.name.isSome then .err .serdeJson
        else do let x ← deString v; deParamFieldsOn bits mode fs { st with name := some x }
      else if k = lit "type" then
        if st.kind.isSome then .err .serdeJson
        else do let x ← deKindOn bits v; deParamFieldsOn bits mode fs { st with kind := some x }
      else if k = lit "internalType" then
        if st.internalType.isSome then .err .serdeJson
        else do let x ← deString v; deParamFieldsOn bits mode fs { st with internalType := some x }
      else if k = lit "components" then
        if st.components.isSome then .err .serdeJson
        else do let x ← deComponentsOn bits mode v; deParamFieldsOn bits mode fs { st with components := some x }
      else match mode with
        | .direct => .err .serdeJson
        | .buffered => deParamFieldsOn bits mode fs st

/-- ethabi/src/param.rs:31-93 `Deserialize for Param`. -/
def deParamOn (bits : Nat) (mode : Mode) : Json → Res Param
  | .obj fs => do
      let st ← deParamFieldsOn bits mode fs {}
      let name ← required st.name
      let kind ← required st.kind
      let kind ← setTupleComponents kind (st.components.map (·.map (·.kind)))
      .ok { name := name, kind := kind, internalType := st.internalType }
  | _ => .err .serdeJson

/-- ethabi/src/event_param.rs:57-85, the field loop -/
def deEventFieldsOn (bits : Nat) (mode : Mode) : List (Str × Json) → FieldSt → Res FieldSt
  | [], st => .ok st
  | (k, v) :: fs, st =>
      if k = lit "name" then
        if st.name.isSome then .err .serdeJson
        else do let x ← deString v; deEventFieldsOn bits mode fs { st with name := some x }
      else if k = lit "type" then
        if st.kind.isSome then .err .serdeJson
        else do let x ← deKindOn bits v; deEventFieldsOn bits mode fs { st with kind := some x }
      else if k = lit "components" then
        if st.components.isSome then .err .serdeJson
        else do let x ← deComponentsOn bits mode v; deEventFieldsOn bits mode fs { st with components := some x }
      else if k = lit "indexed" then
        if st.indexed.isSome then .err .serdeJson
        else do let x ← deBool v; deEventFieldsOn bits mode fs { st with indexed := some x }
      else match mode with
        | .direct => .err .serdeJson
        | .buffered => deEventFieldsOn bits mode fs st

/-- ethabi/src/event_param.rs:30-93 `Deserialize for EventParam`. -/
def deEventParamOn (bits : Nat) (mode : Mode) : Json → Res EventParam
  | .obj fs => do
      let st ← deEventFieldsOn bits mode fs {}
      let name ← required st.name
      let kind ← required st.kind
      let kind ← setTupleComponents kind (st.components.map (·.map (·.kind)))
      .ok { name := name, kind := kind, indexed := st.indexed.getD false }
  | _ => .err .serdeJson

/-- ethabi/src/function.rs:20-37, derived field loop; unknown fields are skipped. -/
def deFunctionFieldsOn (bits : Nat) (mode : Mode) : List (Str × Json) → OpSt → Res OpSt
  | [], st => .ok st
  | (k, v) :: fs, st =>
      if k = lit "name" then
        if st.name.isSome then .err .serdeJson
        else do let x ← deName v; deFunctionFieldsOn bits mode fs { st with name := some x }
      else if k = lit "inputs" then
        if st.inputs.isSome then .err .serdeJson
        else do let x ← deArr (deParamOn bits mode) v; deFunctionFieldsOn bits mode fs { st with inputs := some x }
      else if k = lit "outputs" then
        if st.outputs.isSome then .err .serdeJson
        else do let x ← deArr (deParamOn bits mode) v; deFunctionFieldsOn bits mode fs { st with outputs := some x }
      else if k = lit "constant" then
        if st.constant.isSome then .err .serdeJson
        else do let x ← deBool v; deFunctionFieldsOn bits mode fs { st with constant := some x }
      else if k = lit "stateMutability" then
        if st.stateMutability.isSome then .err .serdeJson
        else do let x ← deStateMutability v; deFunctionFieldsOn bits mode fs { st with stateMutability := some x }
      else deFunctionFieldsOn bits mode fs st

/-- ethabi/src/function.rs:20-37, derived `Deserialize` (`constant` and `stateMutability` have defaults). -/
def deFunctionOn (bits : Nat) (mode : Mode) (fs : List (Str × Json)) : Res Function := do
  let st ← deFunctionFieldsOn bits mode fs {}
  let name ← required st.name
  let inputs ← required st.inputs
  let outputs ← required st.outputs
  .ok { name := name, inputs := inputs, outputs := outputs, constant := st.constant.getD false,
        stateMutability := st.stateMutability.getD .nonPayable }

/-- ethabi/src/event.rs:22-30, derived field loop. -/
def deEventOpFieldsOn (bits : Nat) (mode : Mode) : List (Str × Json) → OpSt → Res OpSt
  | [], st => .ok st
  | (k, v) :: fs, st =>
      if k = lit "name" then
        if st.name.isSome then .err .serdeJson
        else do let x ← deName v; deEventOpFieldsOn bits mode fs { st with name := some x }
      else if k = lit "inputs" then
        if st.eventInputs.isSome then .err .serdeJson
        else do let x ← deArr (deEventParamOn bits mode) v; deEventOpFieldsOn bits mode fs { st with eventInputs := some x }
      else if k = lit "anonymous" then
        if st.anonymous.isSome then .err .serdeJson
        else do let x ← deBool v; deEventOpFieldsOn bits mode fs { st with anonymous := some x }
      else deEventOpFieldsOn bits mode fs st

/-- ethabi/src/event.rs:22-30, derived `Deserialize`. -/
def deEventOn (bits : Nat) (mode : Mode) (fs : List (Str × Json)) : Res Event := do
  let st ← deEventOpFieldsOn bits mode fs {}
  let name ← required st.name
  let inputs ← required st.eventInputs
  let anonymous ← required st.anonymous
  .ok { name := name, inputs := inputs, anonymous := anonymous }

/-- ethabi/src/constructor.rs:14-18, derived field loop. -/
def deConstructorFieldsOn (bits : Nat) (mode : Mode) : List (Str × Json) → OpSt → Res OpSt
  | [], st => .ok st
  | (k, v) :: fs, st =>
      if k = lit "inputs" then
        if st.inputs.isSome then .err .serdeJson
        else do let x ← deArr (deParamOn bits mode) v; deConstructorFieldsOn bits mode fs { st with inputs := some x }
      else deConstructorFieldsOn bits mode fs st

/-- ethabi/src/constructor.rs:14-18, derived `Deserialize`. -/
def deConstructorOn (bits : Nat) (mode : Mode) (fs : List (Str × Json)) : Res Constructor := do
  let st ← deConstructorFieldsOn bits mode fs {}
  let inputs ← required st.inputs
  .ok { inputs := inputs }

/-- ethabi/src/function.rs:20-37, derived `Deserialize` from a sequence: the fields in the order of declaration; the last
two have defaults. -/
def deFunctionSeqOn (bits : Nat) (mode : Mode) (xs : List Json) : Res Function := do
  let (name, xs) ← nextElement deName xs
  let name ← required name
  let (inputs, xs) ← nextElement (deArr (deParamOn bits mode)) xs
  let inputs ← required inputs
  let (outputs, xs) ← nextElement (deArr (deParamOn bits mode)) xs
  let outputs ← required outputs
  let (constant, xs) ← nextElement deBool xs
  let (stateMutability, xs) ← nextElement deStateMutability xs
  endOfSeq xs
  .ok { name := name, inputs := inputs, outputs := outputs, constant := constant.getD false,
        stateMutability := stateMutability.getD .nonPayable }

/-- ethabi/src/event.rs:22-30, derived `Deserialize` from a sequence. -/
def deEventSeqOn (bits : Nat) (mode : Mode) (xs : List Json) : Res Event := do
  let (name, xs) ← nextElement deName xs
  let name ← required name
  let (inputs, xs) ← nextElement (deArr (deEventParamOn bits mode)) xs
  let inputs ← required inputs
  let (anonymous, xs) ← nextElement deBool xs
  let anonymous ← required anonymous
  endOfSeq xs
  .ok { name := name, inputs := inputs, anonymous := anonymous }

/-- ethabi/src/constructor.rs:14-18, derived `Deserialize` from a sequence. -/
def deConstructorSeqOn (bits : Nat) (mode : Mode) (xs : List Json) : Res Constructor := do
  let (inputs, xs) ← nextElement (deArr (deParamOn bits mode)) xs
  let inputs ← required inputs
  endOfSeq xs
  .ok { inputs := inputs }

/-- ethabi/src/operation.rs:15-33, derived `Deserialize` with `tag = "type"`, from a sequence: the tag is the first
element (serde `TaggedContentVisitor::visit_seq`). -/
def deOperationSeqOn (bits : Nat) : List Json → Res Operation
  | .str s :: rest =>
      if s = lit "constructor" then do let c ← deConstructorSeqOn bits .buffered rest; .ok (.constructor c)
      else if s = lit "function" then do let f ← deFunctionSeqOn bits .buffered rest; .ok (.function f)
      else if s = lit "event" then do let e ← deEventSeqOn bits .buffered rest; .ok (.event e)
      else if s = lit "fallback" then do endOfSeq rest; .ok .fallback
      else if s = lit "receive" then do endOfSeq rest; .ok .receive
      else .err .serdeJson
  | _ => .err .serdeJson

/-- ethabi/src/operation.rs:15-33, derived `Deserialize` with `tag = "type"`. -/
def deOperationOn (bits : Nat) : Json → Res Operation
  | .obj fs => do
      let (tag, rest) ← splitTag fs none []
      match tag with
      | .str s =>
          if s = lit "constructor" then do let c ← deConstructorOn bits .buffered rest; .ok (.constructor c)
          else if s = lit "function" then do let f ← deFunctionOn bits .buffered rest; .ok (.function f)
          else if s = lit "event" then do let e ← deEventOn bits .buffered rest; .ok (.event e)
          else if s = lit "fallback" then .ok .fallback
          else if s = lit "receive" then .ok .receive
          else .err .serdeJson
      | _ => .err .serdeJson
  | .arr xs => deOperationSeqOn bits xs
  | _ => .err .serdeJson

/-- contract.rs:58-79: the loop, from the contract `c` -/
def deOperationsOn (bits : Nat) : List Json → Contract → Res Contract
  | [], c => .ok c
  | j :: js, c => do
      let op ← deOperationOn bits j
      deOperationsOn bits js (c.add op)

/-- ethabi/src/contract.rs:36-81 `Deserialize for Contract`; also `Contract::load`, 140-142. -/
def deContractOn (bits : Nat) : Json → Res Contract
  | .arr js => deOperationsOn bits js {}
  | _ => .err .serdeJson

end Ethabi

import Verif.Model.Reader
import Verif.Model.Function
/-!
# ABI JSON: parameters

JSON is modelled at the level of syntax trees: objects are lists of key/value pairs in document order, possibly
with repeated keys.  The text level (serde_json's lexer and printer) is not modelled.

`Mode` distinguishes where the object being deserialised comes from.  Inside a contract every operation is
buffered first (`#[serde(tag = "type")]`, operation.rs:15-16), and an unknown key is ignored.  When a parameter is
deserialised directly with `serde_json::from_str`, the hand-written visitors leave the value of an unknown key
unread (`_ => {}`, param.rs:85), and the next `next_key` call fails.
-/
namespace Ethabi

/-- JSON values; numbers are never inspected by the crate. -/
inductive Json where
  | null
  | bool (b : Bool)
  | num (n : Int)
  | str (s : Str)
  | arr (xs : List Json)
  | obj (fs : List (Str × Json))

/-- how the deserialiser is driven -/
inductive Mode where
  | direct
  | buffered
deriving DecidableEq

/-- ethabi/src/tuple_param.rs:21-30 `struct TupleParam`. -/
structure TupleParam where
  name : Option Str
  kind : ParamType
  internalType : Option Str
deriving DecidableEq

/-- ethabi/src/event_param.rs:21-28 `struct EventParam`. -/
structure EventParam where
  name : Str
  kind : ParamType
  indexed : Bool
deriving DecidableEq

/-- `String::deserialize` -/
def deString : Json → Res Str
  | .str s => .ok s
  | _ => .err .serdeJson

/-- `bool::deserialize` -/
def deBool : Json → Res Bool
  | .bool b => .ok b
  | _ => .err .serdeJson

/-- ethabi/src/param_type/deserialize.rs:16-47: every error of `Reader::read` becomes a serde error. -/
def deKind : Json → Res ParamType
  | .str s => match read s with
      | .ok t => .ok t
      | .err _ => .err .serdeJson
      | .panic => .panic
  | _ => .err .serdeJson

/-- ethabi/src/param.rs:125-134 `inner_tuple`. -/
def innerTuple : ParamType → Option (List ParamType)
  | .array t => innerTuple t
  | .fixedArray t _ => innerTuple t
  | .tuple ts => some ts
  | _ => none

/-- ethabi/src/param.rs:114-123 `inner_tuple_mut`, with the mutation of `set_tuple_components` (143) applied
through the reference: the innermost tuple is extended by `more`. -/
def extendInner (more : List ParamType) : ParamType → ParamType
  | .array t => .array (extendInner more t)
  | .fixedArray t n => .fixedArray (extendInner more t) n
  | .tuple ts => .tuple (ts ++ more)
  | t => t

/-- ethabi/src/param.rs:136-145 `set_tuple_components`; `components` are the kinds of the parsed components. -/
def setTupleComponents (kind : ParamType) (components : Option (List ParamType)) : Res ParamType :=
  match innerTuple kind with
  | some _ => match components with
      | some more => .ok (extendInner more kind)
      | none => .err .serdeJson
  | none => .ok kind

/-- local variables of the field loops (param.rs:53-56, tuple_param.rs:54-57, event_param.rs:52-55) -/
structure FieldSt where
  name : Option Str := none
  kind : Option ParamType := none
  components : Option (List TupleParam) := none
  internalType : Option Str := none
  indexed : Option Bool := none

/-- `x.ok_or_else(|| Error::missing_field(..))?` -/
def required {α : Type} : Option α → Res α
  | some a => .ok a
  | none => .err .serdeJson

/-- tuple_param.rs:90-92: the end of `visit_map` -/
def finishTupleParam (st : FieldSt) : Res TupleParam := do
  let kind ← required st.kind
  let kind ← setTupleComponents kind (st.components.map (·.map (·.kind)))
  .ok { name := st.name, kind := kind, internalType := st.internalType }

mutual
/-- ethabi/src/tuple_param.rs:32-93 `Deserialize for TupleParam`. -/
def deTupleParam (mode : Mode) : Json → Res TupleParam
  | .obj fs => do
      let st ← deTupleFields mode fs {}
      finishTupleParam st
  | _ => .err .serdeJson
/-- tuple_param.rs:59-88, the field loop -/
def deTupleFields (mode : Mode) : List (Str × Json) → FieldSt → Res FieldSt
  | [], st => .ok st
  | (k, v) :: fs, st =>
      if k = lit "name" then
        if st.name.isSome then .err .serdeJson
        else do let x ← deString v; deTupleFields mode fs { st with name := some x }
      else if k = lit "type" then
        if st.kind.isSome then .err .serdeJson
        else do let x ← deKind v; deTupleFields mode fs { st with kind := some x }
      else if k = lit "internalType" then
        if st.internalType.isSome then .err .serdeJson
        else do let x ← deString v; deTupleFields mode fs { st with internalType := some x }
      else if k = lit "components" then
        if st.components.isSome then .err .serdeJson
        else do let x ← deComponents mode v; deTupleFields mode fs { st with components := some x }
      else match mode with
        | .direct => .err .serdeJson
        | .buffered => deTupleFields mode fs st
/-- `Vec<TupleParam>::deserialize` -/
def deComponents (mode : Mode) : Json → Res (List TupleParam)
  | .arr xs => deTupleParams mode xs
  | _ => .err .serdeJson
/-- elements of `Vec<TupleParam>` -/
def deTupleParams (mode : Mode) : List Json → Res (List TupleParam)
  | [] => .ok []
  | x :: xs => do
      let p ← deTupleParam mode x
      let ps ← deTupleParams mode xs
      .ok (p :: ps)
end

/-- ethabi/src/param.rs:58-87, the field loop -/
def deParamFields (mode : Mode) : List (Str × Json) → FieldSt → Res FieldSt
  | [], st => .ok st
  | (k, v) :: fs, st =>
      if k = lit "name" then
        if st.name.isSome then .err .serdeJson
        else do let x ← deString v; deParamFields mode fs { st with name := some x }
      else if k = lit "type" then
        if st.kind.isSome then .err .serdeJson
        else do let x ← deKind v; deParamFields mode fs { st with kind := some x }
      else if k = lit "internalType" then
        if st.internalType.isSome then .err .serdeJson
        else do let x ← deString v; deParamFields mode fs { st with internalType := some x }
      else if k = lit "components" then
        if st.components.isSome then .err .serdeJson
        else do let x ← deComponents mode v; deParamFields mode fs { st with components := some x }
      else match mode with
        | .direct => .err .serdeJson
        | .buffered => deParamFields mode fs st

/-- ethabi/src/param.rs:31-93 `Deserialize for Param`. -/
def deParam (mode : Mode) : Json → Res Param
  | .obj fs => do
      let st ← deParamFields mode fs {}
      let name ← required st.name
      let kind ← required st.kind
      let kind ← setTupleComponents kind (st.components.map (·.map (·.kind)))
      .ok { name := name, kind := kind, internalType := st.internalType }
  | _ => .err .serdeJson

/-- ethabi/src/event_param.rs:57-85, the field loop -/
def deEventFields (mode : Mode) : List (Str × Json) → FieldSt → Res FieldSt
  | [], st => .ok st
  | (k, v) :: fs, st =>
      if k = lit "name" then
        if st.name.isSome then .err .serdeJson
        else do let x ← deString v; deEventFields mode fs { st with name := some x }
      else if k = lit "type" then
        if st.kind.isSome then .err .serdeJson
        else do let x ← deKind v; deEventFields mode fs { st with kind := some x }
      else if k = lit "components" then
        if st.components.isSome then .err .serdeJson
        else do let x ← deComponents mode v; deEventFields mode fs { st with components := some x }
      else if k = lit "indexed" then
        if st.indexed.isSome then .err .serdeJson
        else do let x ← deBool v; deEventFields mode fs { st with indexed := some x }
      else match mode with
        | .direct => .err .serdeJson
        | .buffered => deEventFields mode fs st

/-- ethabi/src/event_param.rs:30-93 `Deserialize for EventParam`. -/
def deEventParam (mode : Mode) : Json → Res EventParam
  | .obj fs => do
      let st ← deEventFields mode fs {}
      let name ← required st.name
      let kind ← required st.kind
      let kind ← setTupleComponents kind (st.components.map (·.map (·.kind)))
      .ok { name := name, kind := kind, indexed := st.indexed.getD false }
  | _ => .err .serdeJson

/-- `serialize_key("components")`, `serialize_value(..)` when there is an inner tuple -/
def componentsField : Option Json → List (Str × Json)
  | some c => [(lit "components", c)]
  | none => []

mutual
/-- the value of the `components` entry written for a type with an inner tuple (param.rs:106-109, 171-174; the loop of
`inner_tuple`, 125-134, is inlined) -/
def serComponents : ParamType → Option Json
  | .array t => serComponents t
  | .fixedArray t _ => serComponents t
  | .tuple ts => some (.arr (serMembers ts))
  | _ => none
/-- ethabi/src/param.rs:147-177 `SerializeableParamVec`, `SerializeableParam`. -/
def serMembers : List ParamType → List Json
  | [] => []
  | t :: ts =>
      .obj ((lit "type", .str (writeForAbi false t)) :: componentsField (serComponents t)) :: serMembers ts
end

/-- the `components` entry, if any -/
def componentsEntry (t : ParamType) : List (Str × Json) := componentsField (serComponents t)

/-- an optional string entry -/
def optEntry (k : Str) : Option Str → List (Str × Json)
  | some s => [(k, .str s)]
  | none => []

/-- ethabi/src/param.rs:95-112 `Serialize for Param`. -/
def serParam (p : Param) : Json :=
  .obj (optEntry (lit "internalType") p.internalType ++
    [(lit "name", .str p.name), (lit "type", .str (writeForAbi false p.kind))] ++ componentsEntry p.kind)

/-- ethabi/src/tuple_param.rs:96-115 `Serialize for TupleParam`. -/
def serTupleParam (p : TupleParam) : Json :=
  .obj (optEntry (lit "internalType") p.internalType ++ optEntry (lit "name") p.name ++
    [(lit "type", .str (writeForAbi false p.kind))] ++ componentsEntry p.kind)

/-- ethabi/src/event_param.rs:95-110 `Serialize for EventParam`. -/
def serEventParam (p : EventParam) : Json :=
  .obj ([(lit "name", .str p.name), (lit "type", .str (writeForAbi false p.kind)),
    (lit "indexed", .bool p.indexed)] ++ componentsEntry p.kind)

end Ethabi

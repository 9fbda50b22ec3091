import Verif.Spec.Logs
import Verif.Model.Event
/-!
# What the fields of a generated event are read from

Of the model only the data types of events are used.
-/
namespace Ethabi.Spec

/-- names and types in the order in which a log is read: topics, then data -/
def readOrder (e : Event) : List (Str × ParamType) :=
  (e.inputs.filter (·.indexed)).map (fun p => (p.name, topicType p.kind)) ++
    (e.inputs.filter (!·.indexed)).map (fun p => (p.name, p.kind))

/-- both types are the same in Rust: widths of integers do not matter, those of `bytesN` do -/
def sameRust : ParamType → ParamType → Bool
  | .address, .address => true
  | .bytes, .bytes => true
  | .int _, .int _ => true
  | .uint _, .uint _ => true
  | .bool, .bool => true
  | .string, .string => true
  | .fixedBytes n, .fixedBytes m => n == m
  | .array t, .array u => sameRust t u
  | _, _ => false

/-- every field is read from something of its type -/
def fieldsMatch (e : Event) : Prop := ∀ p ∈ e.inputs, ∀ u, lastNamed (readOrder e) p.name u → sameRust p.kind u = true

/-- a value of a type, with something in every array -/
def someValue : ParamType → Token
  | .address => .address ⟨List.replicate 20 0, by simp⟩
  | .bytes => .bytes []
  | .int _ => .int 0
  | .uint _ => .uint 0
  | .bool => .bool false
  | .string => .string []
  | .fixedBytes n => .fixedBytes (List.replicate n 0)
  | .array t => .array [someValue t]
  | .fixedArray t n => .fixedArray (List.replicate n (someValue t))
  | .tuple _ => .tuple []

/-- the data of a log with these values -/
def exampleData (e : Event) : Bytes :=
  encodeArgs ((e.inputs.filter (!·.indexed)).map fun p => someValue p.kind) ((e.inputs.filter (!·.indexed)).map (·.kind))

end Ethabi.Spec

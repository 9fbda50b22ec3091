import Verif.Model.Contract
/-!
# ABI JSON as it is written

The format of ABI JSON for types: a type string made of an elementary name or `tuple`, followed by `[]` and `[k]`, and
for tuples the list of members under `components`.  Independent of the serialisers.
-/
namespace Ethabi.Spec

/-- an object with exactly the given entries (those with a value), each key once, in any order -/
def Entries (j : Json) (es : List (String × Option Json)) : Prop :=
  ∃ fs, j = .obj fs ∧ (fs.map (·.1)).Nodup ∧ ∀ k v, (k, v) ∈ fs ↔ ∃ e ∈ es, e.1.toList = k ∧ e.2 = some v

/-- a number in decimal -/
def inDecimal (n : Nat) : Str := (toString n).toList

mutual
/-- the type string and the components of a type -/
inductive Describes : ParamType → Str → Option Json → Prop
  | address : Describes .address "address".toList none
  | bytes : Describes .bytes "bytes".toList none
  | bool : Describes .bool "bool".toList none
  | string : Describes .string "string".toList none
  | int (n : Nat) : Describes (.int n) ("int".toList ++ inDecimal n) none
  | uint (n : Nat) : Describes (.uint n) ("uint".toList ++ inDecimal n) none
  | fixedBytes (n : Nat) : Describes (.fixedBytes n) ("bytes".toList ++ inDecimal n) none
  | array {t : ParamType} {s : Str} {c : Option Json} : Describes t s c → Describes (.array t) (s ++ "[]".toList) c
  | fixedArray {t : ParamType} {s : Str} {c : Option Json} (k : Nat) :
      Describes t s c → Describes (.fixedArray t k) (s ++ ("[".toList ++ inDecimal k ++ "]".toList)) c
  | tuple {ts : List ParamType} {js : List Json} : DescribesAll ts js → Describes (.tuple ts) "tuple".toList (some (.arr js))
/-- the members of a tuple, as the library writes them: without names -/
inductive DescribesAll : List ParamType → List Json → Prop
  | nil : DescribesAll [] []
  | cons {t : ParamType} {ts : List ParamType} {s : Str} {c : Option Json} {j : Json} {js : List Json} :
      Describes t s c → Entries j [("type", some (.str s)), ("components", c)] → DescribesAll ts js →
      DescribesAll (t :: ts) (j :: js)
end

/-- a parameter of a function or a constructor -/
def WrittenParam (p : Param) (j : Json) : Prop := ∃ s c, Describes p.kind s c ∧
  Entries j [("name", some (.str p.name)), ("type", some (.str s)), ("components", c), ("internalType", p.internalType.map .str)]

/-- a tuple member on its own -/
def WrittenMember (p : TupleParam) (j : Json) : Prop := ∃ s c, Describes p.kind s c ∧
  Entries j [("name", p.name.map .str), ("type", some (.str s)), ("components", c), ("internalType", p.internalType.map .str)]

/-- a parameter of an event -/
def WrittenEventParam (p : EventParam) (j : Json) : Prop := ∃ s c, Describes p.kind s c ∧
  Entries j [("name", some (.str p.name)), ("type", some (.str s)), ("components", c), ("indexed", some (.bool p.indexed))]

/-- an array, element by element -/
def WrittenList {α : Type} (w : α → Json → Prop) (xs : List α) (j : Json) : Prop :=
  ∃ js, j = .arr js ∧ js.length = xs.length ∧ ∀ (i : Nat) x y, xs[i]? = some x → js[i]? = some y → w x y

/-- the words for the four state mutabilities -/
def mutabilityName : StateMutability → String
  | .pure => "pure"
  | .view => "view"
  | .nonPayable => "nonpayable"
  | .payable => "payable"

/-- an element of a contract -/
def WrittenOperation : Operation → Json → Prop
  | .constructor c, j => ∃ inputs, WrittenList WrittenParam c.inputs inputs ∧
      Entries j [("type", some (.str "constructor".toList)), ("inputs", some inputs)]
  | .function f, j => ∃ inputs outputs, WrittenList WrittenParam f.inputs inputs ∧ WrittenList WrittenParam f.outputs outputs ∧
      Entries j [("type", some (.str "function".toList)), ("name", some (.str f.name)), ("inputs", some inputs),
        ("outputs", some outputs), ("constant", some (.bool f.constant)),
        ("stateMutability", some (.str (mutabilityName f.stateMutability).toList))]
  | .event e, j => ∃ inputs, WrittenList WrittenEventParam e.inputs inputs ∧
      Entries j [("type", some (.str "event".toList)), ("name", some (.str e.name)), ("inputs", some inputs),
        ("anonymous", some (.bool e.anonymous))]
  | .receive, j => Entries j [("type", some (.str "receive".toList))]
  | .fallback, j => Entries j [("type", some (.str "fallback".toList))]

end Ethabi.Spec

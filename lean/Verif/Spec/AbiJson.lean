import Verif.Model.Contract
/-!
# The meaning of ABI JSON

What a JSON value denotes: parameters, functions, events, constructors.  `read` is the reader of type strings, whose
own properties are C24 to C27 and C76.
-/
namespace Ethabi.Spec

/-- the values of all entries with the key `k` -/
def entriesOf (k : String) (fs : List (Str × Json)) : List Json := (fs.filter (fun e => decide (e.1 = k.toList))).map (·.2)

/-- `k` occurs exactly once, with this value -/
def Once (k : String) (fs : List (Str × Json)) (v : Json) : Prop := entriesOf k fs = [v]

/-- `k` does not occur -/
def Absent (k : String) (fs : List (Str × Json)) : Prop := entriesOf k fs = []

/-- `k` is absent or occurs once, as a string -/
def OptionalString (k : String) (fs : List (Str × Json)) : Option Str → Prop
  | none => Absent k fs
  | some s => Once k fs (.str s)

/-- `k` occurs once, as a boolean, or is absent and stands for `d` -/
def DefaultBool (k : String) (fs : List (Str × Json)) (d b : Bool) : Prop :=
  Once k fs (.bool b) ∨ (Absent k fs ∧ b = d)

/-- a parameter that is deserialised on its own must not have further keys; inside a contract they are ignored -/
def KnownKeys (mode : Mode) (keys : List String) (fs : List (Str × Json)) : Prop :=
  mode = .direct → ∀ e ∈ fs, ∃ k ∈ keys, e.1 = k.toList

/-- arrays around a tuple -/
inductive AroundTuple : ParamType → Prop where
  | tuple (ts : List ParamType) : AroundTuple (.tuple ts)
  | array {t : ParamType} : AroundTuple t → AroundTuple (.array t)
  | fixedArray {t : ParamType} (n : Nat) : AroundTuple t → AroundTuple (.fixedArray t n)

/-- the tuple inside gets further members -/
inductive WithMembers (more : List ParamType) : ParamType → ParamType → Prop where
  | tuple (ts : List ParamType) : WithMembers more (.tuple ts) (.tuple (ts ++ more))
  | array {t u : ParamType} : WithMembers more t u → WithMembers more (.array t) (.array u)
  | fixedArray {t u : ParamType} (n : Nat) : WithMembers more t u → WithMembers more (.fixedArray t n) (.fixedArray u n)

mutual
/-- the object of a tuple member -/
inductive DenotesMember (mode : Mode) : Json → TupleParam → Prop where
  | mk {fs : List (Str × Json)} {p : TupleParam} : KnownKeys mode ["name", "type", "internalType", "components"] fs →
      OptionalString "name" fs p.name → OptionalString "internalType" fs p.internalType →
      DenotesType mode fs p.kind → DenotesMember mode (.obj fs) p
/-- the type given by the keys `type` and `components` -/
inductive DenotesType (mode : Mode) : List (Str × Json) → ParamType → Prop where
  | plain {fs : List (Str × Json)} {s : Str} {t : ParamType} : Once "type" fs (.str s) → read s = .ok t →
      ¬ AroundTuple t → Absent "components" fs → DenotesType mode fs t
  | unused {fs : List (Str × Json)} {s : Str} {t : ParamType} {xs : List Json} {ps : List TupleParam} :
      Once "type" fs (.str s) → read s = .ok t → ¬ AroundTuple t → Once "components" fs (.arr xs) →
      DenotesMembers mode xs ps → DenotesType mode fs t
  | tuple {fs : List (Str × Json)} {s : Str} {t u : ParamType} {xs : List Json} {ps : List TupleParam} :
      Once "type" fs (.str s) → read s = .ok t → Once "components" fs (.arr xs) → DenotesMembers mode xs ps →
      WithMembers (ps.map (·.kind)) t u → DenotesType mode fs u
/-- the members of a tuple -/
inductive DenotesMembers (mode : Mode) : List Json → List TupleParam → Prop where
  | nil : DenotesMembers mode [] []
  | cons {x : Json} {xs : List Json} {p : TupleParam} {ps : List TupleParam} : DenotesMember mode x p →
      DenotesMembers mode xs ps → DenotesMembers mode (x :: xs) (p :: ps)
end

/-- the object of a function parameter -/
def DenotesParam (mode : Mode) (j : Json) (p : Param) : Prop :=
  ∃ fs, j = .obj fs ∧ KnownKeys mode ["name", "type", "internalType", "components"] fs ∧
    Once "name" fs (.str p.name) ∧ OptionalString "internalType" fs p.internalType ∧ DenotesType mode fs p.kind

/-- the object of an event parameter; `indexed` is false by default -/
def DenotesEventParam (mode : Mode) (j : Json) (p : EventParam) : Prop :=
  ∃ fs, j = .obj fs ∧ KnownKeys mode ["name", "type", "components", "indexed"] fs ∧
    Once "name" fs (.str p.name) ∧ DefaultBool "indexed" fs false p.indexed ∧ DenotesType mode fs p.kind

/-- an array, element by element -/
inductive DenotesEach {α : Type} (R : Json → α → Prop) : Json → List α → Prop where
  | nil : DenotesEach R (.arr []) []
  | cons {x : Json} {xs : List Json} {a : α} {as : List α} : R x a → DenotesEach R (.arr xs) as →
      DenotesEach R (.arr (x :: xs)) (a :: as)

/-- `p` is the longest prefix of `s` without an opening parenthesis -/
def CutAtParen (s p : Str) : Prop := ∃ rest, s = p ++ rest ∧ '(' ∉ p ∧ (rest = [] ∨ ∃ r, rest = '(' :: r)

/-- names of functions and events are cut at the first parenthesis -/
def DenotesName (fs : List (Str × Json)) (n : Str) : Prop := ∃ s, Once "name" fs (.str s) ∧ CutAtParen s n

/-- the words for state mutability -/
def mutabilityWord : StateMutability → String
  | .pure => "pure"
  | .view => "view"
  | .nonPayable => "nonpayable"
  | .payable => "payable"

/-- the two ways to write a word -/
inductive WordJson (w : String) : Json → Prop where
  | string : WordJson w (.str w.toList)
  | object : WordJson w (.obj [(w.toList, .null)])

/-- `stateMutability` is `nonpayable` by default -/
def DenotesMutability (fs : List (Str × Json)) (m : StateMutability) : Prop :=
  (∃ v, Once "stateMutability" fs v ∧ WordJson (mutabilityWord m) v) ∨ (Absent "stateMutability" fs ∧ m = .nonPayable)

/-- the optional last two places of a function written as an array -/
inductive DenotesTail : List Json → Bool → StateMutability → Prop where
  | none : DenotesTail [] false .nonPayable
  | constant (b : Bool) : DenotesTail [.bool b] b .nonPayable
  | both (b : Bool) {v : Json} {m : StateMutability} : WordJson (mutabilityWord m) v → DenotesTail [.bool b, v] b m

/-- an element of a contract -/
inductive DenotesOperation : Json → Operation → Prop where
  | constructor {fs : List (Str × Json)} {v : Json} {ps : List Param} :
      Once "type" fs (.str "constructor".toList) → Once "inputs" fs v → DenotesEach (DenotesParam .buffered) v ps →
      DenotesOperation (.obj fs) (.constructor { inputs := ps })
  | function {fs : List (Str × Json)} {v w : Json} {f : Function} :
      Once "type" fs (.str "function".toList) → DenotesName fs f.name →
      Once "inputs" fs v → DenotesEach (DenotesParam .buffered) v f.inputs →
      Once "outputs" fs w → DenotesEach (DenotesParam .buffered) w f.outputs →
      DefaultBool "constant" fs false f.constant → DenotesMutability fs f.stateMutability →
      DenotesOperation (.obj fs) (.function f)
  | event {fs : List (Str × Json)} {v : Json} {e : Event} :
      Once "type" fs (.str "event".toList) → DenotesName fs e.name →
      Once "inputs" fs v → DenotesEach (DenotesEventParam .buffered) v e.inputs →
      Once "anonymous" fs (.bool e.anonymous) → DenotesOperation (.obj fs) (.event e)
  | fallback {fs : List (Str × Json)} : Once "type" fs (.str "fallback".toList) → DenotesOperation (.obj fs) .fallback
  | receive {fs : List (Str × Json)} : Once "type" fs (.str "receive".toList) → DenotesOperation (.obj fs) .receive
  | constructorArray {v : Json} {ps : List Param} : DenotesEach (DenotesParam .buffered) v ps →
      DenotesOperation (.arr [.str "constructor".toList, v]) (.constructor { inputs := ps })
  | functionArray {s : Str} {v w : Json} {tail : List Json} {f : Function} : CutAtParen s f.name →
      DenotesEach (DenotesParam .buffered) v f.inputs → DenotesEach (DenotesParam .buffered) w f.outputs →
      DenotesTail tail f.constant f.stateMutability →
      DenotesOperation (.arr (.str "function".toList :: .str s :: v :: w :: tail)) (.function f)
  | eventArray {s : Str} {v : Json} {e : Event} : CutAtParen s e.name →
      DenotesEach (DenotesEventParam .buffered) v e.inputs →
      DenotesOperation (.arr [.str "event".toList, .str s, v, .bool e.anonymous]) (.event e)
  | fallbackArray : DenotesOperation (.arr [.str "fallback".toList]) .fallback
  | receiveArray : DenotesOperation (.arr [.str "receive".toList]) .receive

/-- a string under the key `type`, at any depth -/
inductive TypeString : Json → Str → Prop where
  | here {fs : List (Str × Json)} {s : Str} : ("type".toList, .str s) ∈ fs → TypeString (.obj fs) s
  | field {fs : List (Str × Json)} {k s : Str} {v : Json} : (k, v) ∈ fs → TypeString v s → TypeString (.obj fs) s
  | element {xs : List Json} {v : Json} {s : Str} : v ∈ xs → TypeString v s → TypeString (.arr xs) s

end Ethabi.Spec

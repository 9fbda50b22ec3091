import Verif.Spec.Abi
/-!
# Specification: textual signatures

Independent description of canonical type names and signatures (Solidity ABI specification,
"Function Selector": "the canonical expression of the basic prototype, i.e. the function name with the
parenthesised list of parameter types; parameter types are split by a single comma — no spaces").
-/
namespace Ethabi.Spec

mutual
/-- canonical name of a type -/
def typeName : ParamType → String
  | .address => "address"
  | .bytes => "bytes"
  | .bool => "bool"
  | .string => "string"
  | .int n => s!"int{n}"
  | .uint n => s!"uint{n}"
  | .fixedBytes n => s!"bytes{n}"
  | .array t => s!"{typeName t}[]"
  | .fixedArray t n => s!"{typeName t}[{n}]"
  | .tuple ts => s!"({String.intercalate "," (typeNames ts)})"
def typeNames : List ParamType → List String
  | [] => []
  | t :: ts => typeName t :: typeNames ts
end

/-- `name(t1,...,tn)` -/
def signature (name : String) (ts : List ParamType) : String := s!"{name}({String.intercalate "," (typeNames ts)})"

/-- type string in ABI JSON: `tuple` stands for the member list -/
def abiTypeName : ParamType → String
  | .array t => abiTypeName t ++ "[]"
  | .fixedArray t n => s!"{abiTypeName t}[{n}]"
  | .tuple _ => "tuple"
  | t => typeName t

/-- the type with the members of its innermost tuple removed -/
def emptied : ParamType → ParamType
  | .array t => .array (emptied t)
  | .fixedArray t n => .fixedArray (emptied t) n
  | .tuple _ => .tuple []
  | t => t

/-! ### types whose text `Reader::read` can parse -/

/-- arrays over a nonempty tuple whose members contain no tuple -/
def flatTuple : ParamType → Bool
  | .array t => flatTuple t
  | .fixedArray t _ => flatTuple t
  | .tuple ts => !ts.isEmpty && ts.all tupleFree
  | _ => false

/-- number of members of the tuple under the arrays -/
def memberCount : ParamType → Nat
  | .array t => memberCount t
  | .fixedArray t _ => memberCount t
  | .tuple ts => ts.length
  | _ => 0

/-- a tuple (not an array of tuples) whose last member is `flatTuple` and whose other members contain no tuple -/
def lastNested : ParamType → Bool
  | .tuple ts => match ts.reverse with
      | m :: xs => flatTuple m && xs.all tupleFree
      | [] => false
  | _ => false

/-- tuple members in the supported class.  `seen`: an inner tuple with two or more members has occurred. -/
def readableMembers (seen : Bool) : List ParamType → Bool
  | [] => true
  | m :: ms =>
      if tupleFree m then readableMembers seen ms
      else if flatTuple m then readableMembers (seen || decide (2 ≤ memberCount m)) ms
      else lastNested m && !seen && readableMembers false ms

/-- the class of types whose text `Reader::read` parses back: arrays over elementary types and over tuples
with `readableMembers` -/
def readable : ParamType → Bool
  | .array t => readable t
  | .fixedArray t _ => readable t
  | .tuple ts => readableMembers false ts
  | _ => true

/-- the type under the arrays -/
def arrayBase : ParamType → ParamType
  | .array t => arrayBase t
  | .fixedArray t _ => arrayBase t
  | t => t

mutual
/-- how deeply tuples are nested in a type -/
def tupleDepth : ParamType → Nat
  | .array t => tupleDepth t
  | .fixedArray t _ => tupleDepth t
  | .tuple ts => tupleDepthAll ts + 1
  | _ => 0
/-- the largest `tupleDepth` in a list -/
def tupleDepthAll : List ParamType → Nat
  | [] => 0
  | t :: ts => max (tupleDepth t) (tupleDepthAll ts)
end

/-- Every `]` is preceded by a `[` with none of `( ) , [ ]` in between (`isOpen`: such a `[` has been seen). -/
def bracketsClose (isOpen : Bool) : List Char → Bool
  | [] => true
  | c :: cs =>
      if c = '[' then bracketsClose true cs
      else if c = ']' then isOpen && bracketsClose false cs
      else if c = '(' ∨ c = ')' ∨ c = ',' then bracketsClose false cs
      else bracketsClose isOpen cs

end Ethabi.Spec

import Verif.Model.Derive
/-! # Taking a value out of a token -/
namespace Ethabi.Spec

/-- the functions `Token::into_…` -/
inductive Getter where
  | address | fixedBytes | bytes | int | uint | bool | string | fixedArray | array
deriving DecidableEq

/-- the function returns `Some` -/
def Getter.answers : Getter → Token → Prop
  | .address, t => ∃ a, t.intoAddress = some a
  | .fixedBytes, t => ∃ b, t.intoFixedBytes = some b
  | .bytes, t => ∃ b, t.intoBytes = some b
  | .int, t => ∃ v, t.intoInt = some v
  | .uint, t => ∃ v, t.intoUint = some v
  | .bool, t => ∃ b, t.intoBool = some b
  | .string, t => ∃ s, t.intoString = some s
  | .fixedArray, t => ∃ l, t.intoFixedArray = some l
  | .array, t => ∃ l, t.intoArray = some l

/-- the function for the values of a type; there is none for tuples -/
def getterFor : ParamType → Option Getter
  | .address => some .address
  | .fixedBytes _ => some .fixedBytes
  | .bytes => some .bytes
  | .int _ => some .int
  | .uint _ => some .uint
  | .bool => some .bool
  | .string => some .string
  | .fixedArray _ _ => some .fixedArray
  | .array _ => some .array
  | .tuple _ => none

end Ethabi.Spec

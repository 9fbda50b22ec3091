import Verif.Spec.Abi
/-!
# What printed values leave open

A value is printed without quotes, and an empty byte string as nothing at all.
-/
namespace Ethabi.Printed

mutual
/-- types without `string` -/
def stringFree : ParamType → Bool
  | .string => false
  | .array t => stringFree t
  | .fixedArray t _ => stringFree t
  | .tuple ts => stringFreeAll ts
  | _ => true
def stringFreeAll : List ParamType → Bool
  | [] => true
  | t :: ts => stringFree t && stringFreeAll ts
end

/-- a list of one empty byte string, `bytes` or `bytes0` -/
def oneEmpty (ts : List Token) : Bool := ts == [.bytes []] || ts == [.fixedBytes []]

mutual
/-- the value in which every array `T[]` that holds just one empty byte string is replaced by the empty array -/
def blur : Token → Token
  | .array ts => if oneEmpty ts then .array [] else .array (blurAll ts)
  | .fixedArray ts => .fixedArray (blurAll ts)
  | .tuple ts => .tuple (blurAll ts)
  | t => t
def blurAll : List Token → List Token
  | [] => []
  | t :: ts => blur t :: blurAll ts
end

mutual
/-- types whose values have no such array: no `bytes[]` and `bytes0[]` -/
def sharp : ParamType → Bool
  | .array .bytes => false
  | .array (.fixedBytes 0) => false
  | .array t => sharp t
  | .fixedArray t _ => sharp t
  | .tuple ts => sharpAll ts
  | _ => true
def sharpAll : List ParamType → Bool
  | [] => true
  | t :: ts => sharp t && sharpAll ts
end

end Ethabi.Printed

import Verif.Spec.Abi
/-!
# How much memory a decoded value takes

`weight`: one for every token and one for every byte of `bytes`, `bytesN` and `string` values.  `maxWeight t l`: what a value of
type `t` found in `l` bytes of data can weigh at most.
-/
namespace Ethabi.Spec

mutual
def weight : Token → Nat
  | .fixedBytes b => 1 + b.length
  | .bytes b => 1 + b.length
  | .string s => 1 + (s.flatMap String.utf8EncodeChar).length
  | .array ts => 1 + weightAll ts
  | .fixedArray ts => 1 + weightAll ts
  | .tuple ts => 1 + weightAll ts
  | .address _ => 1
  | .int _ => 1
  | .uint _ => 1
  | .bool _ => 1
def weightAll : List Token → Nat
  | [] => 0
  | t :: ts => weight t + weightAll ts
end

mutual
/-- a `bytes` value cannot be longer than the data, a `string` (an invalid byte becomes a three-byte character) not longer than
three times the data, a `T[]` cannot have more elements than the data have words -/
def maxWeight (l : Nat) : ParamType → Nat
  | .fixedBytes n => 1 + n
  | .bytes => 1 + l
  | .string => 1 + 3 * l
  | .array t => 1 + l / 32 * maxWeight l t
  | .fixedArray t k => 1 + k * maxWeight l t
  | .tuple ts => 1 + maxWeightAll l ts
  | .address => 1
  | .int _ => 1
  | .uint _ => 1
  | .bool => 1
def maxWeightAll (l : Nat) : List ParamType → Nat
  | [] => 0
  | t :: ts => maxWeight l t + maxWeightAll l ts
end

mutual
/-- how many dynamic layers a type has: `uint8` none, `bytes` and `uint8[]` one, `bytes[]` and `uint8[][]` two -/
def layers : ParamType → Nat
  | .bytes => 1
  | .string => 1
  | .array t => 1 + layers t
  | .fixedArray t _ => layers t
  | .tuple ts => layersAll ts
  | .address => 0
  | .int _ => 0
  | .uint _ => 0
  | .bool => 0
  | .fixedBytes _ => 0
def layersAll : List ParamType → Nat
  | [] => 0
  | t :: ts => max (layers t) (layersAll ts)
end

mutual
/-- the weight of the static skeleton of a type -/
def skeleton : ParamType → Nat
  | .fixedBytes n => 1 + n
  | .bytes => 1
  | .string => 3
  | .array t => skeleton t
  | .fixedArray t k => 1 + k * skeleton t
  | .tuple ts => 1 + skeletonAll ts
  | .address => 1
  | .int _ => 1
  | .uint _ => 1
  | .bool => 1
def skeletonAll : List ParamType → Nat
  | [] => 0
  | t :: ts => skeleton t + skeletonAll ts
end

end Ethabi.Spec

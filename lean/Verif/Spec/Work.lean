import Verif.Spec.Weight
import Verif.Spec.TypeSize
/-!
# How much work decoding can take

`maxWork l t`: a bound for the work on one value of type `t` in `l` bytes of data, read or refused.
-/
namespace Ethabi.Spec

mutual
/-- an array can have one element for every word of the data, the last one incomplete, and one that is refused -/
def maxWork (l : Nat) : ParamType → Nat
  | .fixedBytes n => 1 + n
  | .bytes => 1 + l
  | .string => 1 + 2 * l
  | .array t => 1 + (l / 32 + 2) * maxWork l t
  | .fixedArray t k => 2 + nodes t + k * maxWork l t
  | .tuple ts => 2 + nodesAll ts + maxWorkAll l ts
  | .address => 1
  | .int _ => 1
  | .uint _ => 1
  | .bool => 1
def maxWorkAll (l : Nat) : List ParamType → Nat
  | [] => 0
  | t :: ts => maxWork l t + maxWorkAll l ts
end

mutual
/-- the work for the static part of a type -/
def basicWork : ParamType → Nat
  | .fixedBytes n => 1 + n
  | .bytes => 1
  | .string => 2
  | .array t => 1 + 2 * basicWork t
  | .fixedArray t k => 2 + nodes t + k * basicWork t
  | .tuple ts => 2 + nodesAll ts + basicWorkAll ts
  | .address => 1
  | .int _ => 1
  | .uint _ => 1
  | .bool => 1
def basicWorkAll : List ParamType → Nat
  | [] => 0
  | t :: ts => basicWork t + basicWorkAll ts
end

end Ethabi.Spec

import Verif.Model.Types
/-!
# How deeply a type is nested
-/
namespace Ethabi.Spec

mutual
/-- how many arrays and tuples lie inside one another -/
def nesting : ParamType → Nat
  | .array t => 1 + nesting t
  | .fixedArray t _ => 1 + nesting t
  | .tuple ts => 1 + nestingAll ts
  | .address => 0
  | .bytes => 0
  | .int _ => 0
  | .uint _ => 0
  | .bool => 0
  | .string => 0
  | .fixedBytes _ => 0
def nestingAll : List ParamType → Nat
  | [] => 0
  | t :: ts => max (nesting t) (nestingAll ts)
end

/-- `string[]…[]` with `k` pairs of brackets -/
def stringArrays : Nat → ParamType
  | 0 => .string
  | k + 1 => .array (stringArrays k)

/-- `[[…[x]…]]` with `k` pairs of brackets -/
def inBrackets : Nat → List Char
  | 0 => ['x']
  | k + 1 => '[' :: inBrackets k ++ [']']

/-- the value: `x` in `k` arrays -/
def inArrays : Nat → Token
  | 0 => .string ['x']
  | k + 1 => .array [inArrays k]

end Ethabi.Spec

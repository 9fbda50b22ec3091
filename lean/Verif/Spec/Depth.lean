import Verif.Model.Reader
/-! The type reader with room on the stack for so many calls only. -/
namespace Ethabi.Spec

/-- `Reader::read` where at most `n` calls of it can be under way at a time: what would be one call more yields
`beyond` instead of being made -/
def readWithin (beyond : Res ParamType) : Nat → Str → Res ParamType
  | 0, _ => beyond
  | n + 1, s => readStep (readWithin beyond n) s

/-- a text of a type whose arrays are nested `k` deep: `bool[][]…[]` -/
def boolArrays : Nat → Str
  | 0 => "bool".toList
  | k + 1 => boolArrays k ++ "[]".toList

end Ethabi.Spec

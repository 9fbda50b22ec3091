import Verif.Spec.CallDepth
/-! How many array brackets follow the innermost type of a type text in which tuples are just `tuple`. -/
namespace Ethabi.Spec

/-- 1 for a type that is not an array, one more for every pair of brackets -/
def brackets : ParamType → Nat
  | .array t => brackets t + 1
  | .fixedArray t _ => brackets t + 1
  | _ => 1

end Ethabi.Spec

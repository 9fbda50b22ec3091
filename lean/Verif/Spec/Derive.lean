import Verif.Spec.Abi
/-!
# Specification: what the code generator supports
-/
namespace Ethabi.Spec

/-- output and event parameter types for which valid Rust is generated: no tuples, no `T[k]`; `[u8; n]` must fit in memory -/
def generated : ParamType → Bool
  | .array t => generated t
  | .fixedArray _ _ => false
  | .tuple _ => false
  | .fixedBytes n => decide (n < 2 ^ 62)
  | _ => true

/-- input types for which valid Rust is generated: also `T[k]` at the top -/
def generatedInput : ParamType → Bool
  | .fixedArray t _ => generated t
  | t => generated t

end Ethabi.Spec

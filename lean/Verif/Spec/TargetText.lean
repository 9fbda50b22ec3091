import Verif.Spec.TypeText
/-!
# Numbers in type texts on other targets
-/
namespace Ethabi.Spec

mutual
/-- the sizes in a type are below `2^bits` -/
def sizesBelow (bits : Nat) : ParamType → Prop
  | .int n => n < 2 ^ bits
  | .uint n => n < 2 ^ bits
  | .fixedBytes n => n < 2 ^ bits
  | .fixedArray t n => n < 2 ^ bits ∧ sizesBelow bits t
  | .array t => sizesBelow bits t
  | .tuple ts => sizesBelowAll bits ts
  | _ => True
def sizesBelowAll (bits : Nat) : List ParamType → Prop
  | [] => True
  | t :: ts => sizesBelow bits t ∧ sizesBelowAll bits ts
end

/-- every number in the text is below `2^bits` -/
def numbersBelow (bits : Nat) (s : Str) : Prop := ∀ d n, d <:+: s → numberText d n → n < 2 ^ bits

end Ethabi.Spec

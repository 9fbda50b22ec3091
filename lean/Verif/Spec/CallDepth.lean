import Verif.Model.Types
/-! How deep types and values are nested. -/
namespace Ethabi.Spec

mutual
/-- how deep types are nested: 1 for an elementary type -/
def storeys : ParamType → Nat
  | .array t => storeys t + 1
  | .fixedArray t _ => storeys t + 1
  | .tuple ts => storeysAll ts + 1
  | _ => 1
def storeysAll : List ParamType → Nat
  | [] => 0
  | t :: ts => max (storeys t) (storeysAll ts)
end

mutual
/-- how deep a value is nested -/
def tokenDepth : Token → Nat
  | .array ts => tokenDepthAll ts + 1
  | .fixedArray ts => tokenDepthAll ts + 1
  | .tuple ts => tokenDepthAll ts + 1
  | _ => 1
def tokenDepthAll : List Token → Nat
  | [] => 0
  | t :: ts => max (tokenDepth t) (tokenDepthAll ts)
end

/-- tuples of one member in one another -/
def tupleIn : Nat → ParamType
  | 0 => .bool
  | k + 1 => .tuple [tupleIn k]
def valueIn : Nat → Token
  | 0 => .bool true
  | k + 1 => .tuple [valueIn k]

end Ethabi.Spec

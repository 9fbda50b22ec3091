import Verif.Model.Types
/-!
# How large a type is
-/
namespace Ethabi.Spec

mutual
/-- number of types in the type, itself included -/
def nodes : ParamType → Nat
  | .array t => 1 + nodes t
  | .fixedArray t _ => 1 + nodes t
  | .tuple ts => 1 + nodesAll ts
  | _ => 1
def nodesAll : List ParamType → Nat
  | [] => 0
  | t :: ts => nodes t + nodesAll ts
end

mutual
/-- how deeply tuples with members are nested -/
def levels : ParamType → Nat
  | .array t => levels t
  | .fixedArray t _ => levels t
  | .tuple ts => if ts.isEmpty then 0 else 1 + levelsAll ts
  | _ => 0
def levelsAll : List ParamType → Nat
  | [] => 0
  | t :: ts => max (levels t) (levelsAll ts)
end

end Ethabi.Spec

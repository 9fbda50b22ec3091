import Verif.Model.Contract
/-!
# What the order of the operations of an ABI decides
-/
namespace Ethabi

/-- the last constructor of a list of operations -/
def lastConstructor : List Operation → Option Constructor
  | [] => none
  | op :: ops =>
    match lastConstructor ops, op with
    | some k, _ => some k
    | none, .constructor k => some k
    | none, _ => none

/-- two operations of which it matters which one is declared first: overloads of one function, overloads of one event,
constructors -/
def Competes : Operation → Operation → Prop
  | .function f, .function g => f.name = g.name
  | .event d, .event e => d.name = e.name
  | .constructor _, .constructor _ => True
  | _, _ => False

end Ethabi

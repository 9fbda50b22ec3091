import Verif.Model.Event
/-!
# Types up to the widths of their integers
-/
namespace Ethabi.Spec

mutual
/-- the type with every `intN` and `uintN` in it replaced by `int` and `uint` -/
def noWidths : ParamType → ParamType
  | .int _ => .int 256
  | .uint _ => .uint 256
  | .array t => .array (noWidths t)
  | .fixedArray t n => .fixedArray (noWidths t) n
  | .tuple ts => .tuple (noWidthsAll ts)
  | .address => .address
  | .bytes => .bytes
  | .bool => .bool
  | .string => .string
  | .fixedBytes n => .fixedBytes n
def noWidthsAll : List ParamType → List ParamType
  | [] => []
  | t :: ts => noWidths t :: noWidthsAll ts
end

/-- the types differ at most in the widths of integers -/
def sameShape (ts us : List ParamType) : Prop := noWidthsAll ts = noWidthsAll us

instance (ts us : List ParamType) : Decidable (sameShape ts us) := inferInstanceAs (Decidable (_ = _))

/-- the parameters, with the integers in their types as `int` and `uint` -/
def plainParams (ps : List EventParam) : List EventParam := ps.map fun p => { p with kind := noWidths p.kind }

/-- the events agree in their parameters up to the widths of integers, and both or neither are anonymous; names of events
may differ -/
def sameEvents (e e' : Event) : Prop := plainParams e.inputs = plainParams e'.inputs ∧ e.anonymous = e'.anonymous

end Ethabi.Spec

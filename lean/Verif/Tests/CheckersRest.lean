import Verif.Tests.CheckersMore
import Verif.Tests.CheckersCalls
import Verif.Spec.TargetText
import Verif.Spec.Targets
import Verif.Spec.Depth
import Verif.Spec.Work
/-! Checkers as in `Tests/Checkers.lean`: further statements about contracts, targets and work (tests). -/
namespace Ethabi.Checkers
open Ethabi.Spec

def lastConstructor : List Operation → Option Constructor
  | [] => none
  | .constructor k :: ops => some ((lastConstructor ops).getD k)
  | _ :: ops => lastConstructor ops

/-- C30_constructor_flags -/
def c30c (js : List Json) : Bool :=
  match operations js with
  | none => true
  | some ops => match deContract (.arr js) with
    | .ok c => decide (c.constructor = lastConstructor ops)
    | _ => false

/-- C41_conversions -/
def c41c (a : Nat) (o : Option Nat) (l : List Nat) : Bool :=
  decide (Topic.ofOption (some a) = Topic.ofValue a) && decide (Topic.ofOption (none : Option Nat) = Topic.default) &&
  decide ((Topic.ofOption o).toVec = o.toList) && decide ((Topic.ofValue a).toVec = [a]) && decide ((Topic.ofVec l).toVec = l) &&
  decide ((Topic.default : Topic Nat).toVec = [])

/-- C87_decodes_exactly -/
def c87v (p : Profile) (ts : List ParamType) (data : Bytes) : Bool :=
  !(narrow32All ts && decide (data.length < 2 ^ 31)) ||
    match decode p ts data with | .ok toks => decide (decodeOn 32 p ts data = .ok toks) | _ => true

/-- C87_counterexample_length, C87_counterexample_offset -/
def c87x : Bool :=
  decide (decodeOn 32 .release [.bytes] (word 32 ++ word (2 ^ 32 - 1)) = .panic) &&
  decide (decodeOn 32 .debug [.bytes] (word 32 ++ word (2 ^ 32 - 1)) = .panic) &&
  decide (decodeOn 32 .release [.bool, .array .bool] (word 1 ++ word (2 ^ 32 - 8)) = .panic) &&
  decide (decodeOn 32 .debug [.bool, .array .bool] (word 1 ++ word (2 ^ 32 - 8)) = .panic)

mutual
def sizesFit (bits : Nat) : ParamType → Bool
  | .int n => decide (n < 2 ^ bits)
  | .uint n => decide (n < 2 ^ bits)
  | .fixedBytes n => decide (n < 2 ^ bits)
  | .fixedArray t n => decide (n < 2 ^ bits) && sizesFit bits t
  | .array t => sizesFit bits t
  | .tuple ts => allSizesFit bits ts
  | _ => true
def allSizesFit (bits : Nat) : List ParamType → Bool
  | [] => true
  | t :: ts => sizesFit bits t && allSizesFit bits ts
end

/-- C94_accepted, C94_too_large -/
def c94x (s : Str) : Bool :=
  (match readOn 32 s with | .ok t => decide (read s = .ok t) && sizesFit 32 t | _ => true) &&
  (match read s with | .ok t => sizesFit 32 t || decide (readOn 32 s = .err .parseInt) | _ => true) &&
  (decide (')' ∈ s) || match read s with | .ok t => !sizesFit 32 t || decide (readOn 32 s = .ok t) | _ => true)

/-- C103_function, C103_constructor -/
def c103f (hash : Bytes → Word) (p : Profile) (f : Function) (c : Constructor) (code : Bytes) (toks : List Token) : Bool :=
  !decide (sizeAll toks < 2 ^ 26) || (decide (f.encodeInputOn 32 hash p toks = f.encodeInput hash p toks) &&
    decide (c.encodeInputOn 32 p code toks = c.encodeInput p code toks))

/-- C107_reached, C107_linear -/
def c107r (k : Nat) : Bool := decide ((readFuelCount ⟨.panic, 0⟩ (k + 1) (boolArrays k)).work = (k + 1) * (k + 5))
def c107l (s : Str) : Bool := !ascii s || decide (']' ∈ s) || decide ((readFuelCount ⟨.panic, 0⟩ 3 s).work ≤ 9 * (s.length + 1))

/-- C109_work, C109_at_least -/
def c109w (p : Profile) (ts : List ParamType) (data : Bytes) : Bool :=
  (!(decide (data.length < 2 ^ 63) && noZeroWidthArrays ts) ||
    decide ((decodeCount p ts data).work ≤ ts.length + maxWorkAll data.length ts)) &&
  match decode p ts data with | .ok toks => decide (weightAll toks ≤ 2 * (decodeCount p ts data).work) | _ => true

end Ethabi.Checkers

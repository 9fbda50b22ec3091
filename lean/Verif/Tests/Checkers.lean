import Verif.Model.Decoder
import Verif.Model.Encoder
import Verif.Model.Function
import Verif.Spec.Abi
import Verif.Spec.Outcomes
import Verif.Spec.Text
/-!
# Concrete instances of property theorems (tests)

Each checker is a property theorem at given inputs, as a Boolean: hypotheses false, or conclusion true.
`Tests/CheckersSound.lean` derives from the theorems that they are true everywhere.  `tools/witness.py` evaluates them on edited models,
where this file is built without any proof: a `false` there is a counterexample to the statement of the theorem.
-/
namespace Ethabi.Checkers
open Ethabi.Spec

def fits (ts : List ParamType) (toks : List Token) : Bool :=
  haveTypes toks ts && solidityAll ts && decide ((encodeArgs toks ts).length < 2 ^ 32)

def c01 (pe pd : Profile) (ts : List ParamType) (toks : List Token) : Bool :=
  !fits ts toks || (match encode pe toks with | .ok bs => decide (decode pd ts bs = .ok toks) | _ => false)

def c02 (p : Profile) (ts : List ParamType) (toks : List Token) : Bool :=
  !fits ts toks || decide (encode p toks = .ok (encodeArgs toks ts))

def c03 (p : Profile) (toks : List Token) : Bool :=
  match encode p toks with | .ok bs => bs.length % 32 == 0 | _ => true

/-- no `T[]` with elements that take up no bytes: `C10` for `T[]` of elementary `T` at top level -/
def c10 (p : Profile) (t : ParamType) (data : Bytes) : Bool :=
  match decode p [.array t] data with
  | .ok [.array l] => !(ParamType.usizeOkAll [.array t] && noZeroWidthArrays [.array t] && decide (data.length < 2 ^ 63)) ||
      decide (l.length ≤ data.length / 32)
  | _ => true

def c05 (p : Profile) (ts : List ParamType) (data : Bytes) : Bool :=
  match decode p ts data with
  | .ok toks => !(ParamType.usizeOkAll ts && decide (data.length < 2 ^ 63)) ||
      (haveTypes toks ts && decide (Token.typesCheck toks ts = .ok true))
  | _ => true

def c07 (p : Profile) (ts : List ParamType) (data extra : Bytes) : Bool :=
  match decode p ts data with
  | .ok toks => decide (decode p ts (data ++ extra) = .ok toks)
  | _ => true

def c12 (p : Profile) (n : Nat) : Bool :=
  !decide (n < 2 ^ 256) || decide (decode p [.bool] (word n) =
    if n = 1 then .ok [.bool true] else if n < 256 then .ok [.bool false] else .err .invalidData)

def c13 (p : Profile) (data : Bytes) : Bool := decide (decode p [] data = .ok [])

def c17 (toks : List Token) (ts : List ParamType) : Bool :=
  decide (Token.typesCheck toks ts = .ok true) == (decide (toks.length = ts.length) && shortOfs toks ts)

def c19 (p : Profile) (f : Function) (data : Bytes) : Bool :=
  decide (f.decodeOutput p data = decode p (f.outputs.map (·.kind)) data) &&
    decide (f.decodeInput p data = decode p (f.inputs.map (·.kind)) data)

def noBytes : ParamType → Bool
  | .fixedBytes 0 => true
  | .fixedArray _ 0 => true
  | _ => false

def c13e (p : Profile) (ts : List ParamType) : Bool :=
  ts.all noBytes ||
    (match decode p ts [] with | .err (.invalidName _) => true | _ => false)

/-- `C17_counterexample_long_tuple` -/
def c17p : Bool := decide (Token.typesCheck [.tuple [.bool true, .bool true]] [.tuple [.bool]] = .panic)

/-- `C17_refuses_exactly`: a surplus member behind an ill-typed argument is not looked at -/
def c17w : Bool :=
  decide (Token.typesCheck [.bool true, .tuple [.bool true, .bool true]] [.uint 8, .tuple [.bool]] = .ok false)

/-- `C17_values_accepted` and `C17_refuses_exactly` where no tuple occurs -/
def c17f (toks : List Token) (ts : List ParamType) : Bool :=
  !ts.all tupleFree || decide (Token.typesCheck toks ts = .ok (valuesOf toks ts))

def c19s (hash : Bytes → Word) (p : Profile) (f : Function) (toks : List Token) : Bool :=
  match f.encodeInput hash p toks, encode p toks with
  | .ok bs, .ok e => decide (bs = (hash ((signature (String.ofList f.name) (f.inputs.map (·.kind))).toList.flatMap
      String.utf8EncodeChar)).1.take 4 ++ e)
  | .ok _, _ => false
  | _, _ => true

end Ethabi.Checkers

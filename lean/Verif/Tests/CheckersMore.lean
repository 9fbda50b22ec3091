import Verif.Tests.Checkers
import Verif.Model.Tokenizer
import Verif.Model.DecoderOn
import Verif.Model.EncoderOn
import Verif.Model.ReaderOn
import Verif.Model.ReaderCount
import Verif.Model.DecoderCount
import Verif.Spec.Capacity
import Verif.Spec.TypeSize
/-! Checkers as in `Tests/Checkers.lean`, for builds, targets, tokenizers and work (tests). -/
namespace Ethabi.Checkers
open Ethabi.Spec

def ascii (s : Str) : Bool := s.all (fun c => decide (c.toNat < 128))

def c46 (p : ParamType) (s : Str) : Bool :=
  match tokenize .strict p s with | .ok t => decide (tokenize .lenient p s = .ok t) | _ => true

def c47 (m : Tokenizer) (p : ParamType) (s : Str) : Bool :=
  match tokenize m p s with | .ok t => decide (t.typeCheck p = .ok true) | _ => true

def c66 (ts : List ParamType) (toks : List Token) (data : Bytes) : Bool :=
  (decide (encode .debug toks = .panic) || decide (encode .release toks = encode .debug toks)) &&
    (decide (decode .debug ts data = .panic) || decide (decode .release ts data = decode .debug ts data))

def c75 (p : Profile) (ts us : List ParamType) (data : Bytes) : Bool :=
  match decode p (ts ++ us) data with
  | .ok toks => decide (decode p ts data = .ok (toks.take ts.length))
  | _ => true

def c87 (p : Profile) (ts : List ParamType) (data : Bytes) : Bool := decide (decodeOn 64 p ts data = decode p ts data)

def c94 (s : Str) : Bool :=
  decide (readOn 64 s = read s) && (match readOn 32 s with | .ok t => decide (read s = .ok t) | _ => true) &&
    (decide (readOn 32 s = read s) || decide (readOn 32 s = .err .parseInt))

def c95 (s : Str) : Bool :=
  !ascii s || (match read s with | .ok t => decide (nodes t ≤ s.length) && decide (levels t ≤ 3) | _ => true)

def c103 (p : Profile) (toks : List Token) : Bool :=
  decide (encodeOn 64 p toks = encode p toks) && (!decide (sizeAll toks < 2 ^ 32) ||
    decide (encodeOn 32 p toks = if 2 ^ 26 ≤ headBytes toks ∨ 2 ^ 26 ≤ tailBytes toks then .panic else encode p toks))

def c107 (s : Str) : Bool :=
  let r := readFuelCount ⟨.panic, 0⟩ (s.count ']' + 3) s
  !ascii s || (decide (r.res = read s) && decide (r.work ≤ 3 * (s.count ']' + 3) * (s.length + 1)))

def c109 (p : Profile) (ts : List ParamType) (data : Bytes) : Bool :=
  decide ((decodeCount p ts data).res = decode p ts data)

def c116 (pe pd : Profile) (ts : List ParamType) (data : Bytes) : Bool :=
  match decode pd ts data with
  | .ok toks => !(ParamType.usizeOkAll ts && codableAll ts && decide (data.length < 2 ^ 32)) ||
      (decide (encode pe toks = .ok data) == decide (encodeArgs toks ts = data))
  | _ => true

end Ethabi.Checkers

import Verif.Tests.CheckersMore
import Verif.Spec.Canonical
import Verif.Spec.CallDepthEncode
import Verif.Model.CallDepth
import Verif.Model.CallDepthEncode
/-! Tests, not proofs: statements about padding and call depth on given inputs (see Tests/Checkers.lean). -/
namespace Ethabi.Checkers
open Spec

mutual
/-- `padded` as a test -/
def isPadded : ParamType → Nat → Bytes → Bool
  | .address, off, a => decide ((a.drop off).take 12 = List.replicate 12 0)
  | .bool, off, a => decide (a[off + 31]? = some 0) || decide (a[off + 31]? = some 1)
  | .fixedBytes n, off, a => decide ((a.drop (off + n)).take (32 - n) = List.replicate (32 - n) 0)
  | .fixedArray t k, off, a => (List.range k).all fun i => isPadded t (off + i * staticSize t) a
  | .tuple ts, off, a => arePadded ts off a
  | _, _, _ => true
def arePadded : List ParamType → Nat → Bytes → Bool
  | [], _, _ => true
  | t :: ts, off, a => isPadded t off a && arePadded ts (off + staticSize t) a
end

/-- C116_static -/
def c116s (pe pd : Profile) (ts : List ParamType) (data : Bytes) : Bool :=
  match decode pd ts data with
  | .ok toks => !(ParamType.usizeOkAll ts && codableAll ts && !dynamicAny ts && decide (staticSizeAll ts < 2 ^ 32) &&
        decide (data.length < 2 ^ 63)) ||
      (decide (encode pe toks = .ok data) == (decide (data.length = staticSizeAll ts) && arePadded ts 0 data))
  | _ => true

/-- a call too many ends the run -/
def ends : ∀ α, Res α := fun _ => .panic
/-- a call too many is an error -/
def fails : ∀ α, Res α := fun _ => .err .other

/-- C115_decode -/
def c115 (p : Profile) (ts : List ParamType) (data : Bytes) : Bool :=
  decide (decodeAllWithin p (.err .other) (storeysAll ts) ts data = decode p ts data)

/-- C115_decode_exactly -/
def c115x (p : Profile) (ts : List ParamType) (data : Bytes) : Bool :=
  match decode p ts data with
  | .ok toks => decide (decodeAllWithin p .panic (tokenDepthAll toks) ts data = .ok toks) &&
      (decide (tokenDepthAll toks = 0) || decide (decodeAllWithin p .panic (tokenDepthAll toks - 1) ts data = .panic))
  | _ => true

/-- C115_tokenize -/
def c115t (m : Tokenizer) (t : ParamType) (v : Str) : Bool :=
  decide (tokenizeWithin m .panic (storeys t) t v = tokenize m t v)

/-- C117_encode, C117_encode_exactly -/
def c117 (p : Profile) (toks : List Token) : Bool :=
  decide (encodeWithin p fails (tokenDepthAll toks) toks = encode p toks) &&
    (decide (tokenDepthAll toks = 0) || decide (encodeWithin p ends (tokenDepthAll toks - 1) toks = .panic))

/-- C117_type_check, C117_type_check_exactly -/
def c117c (t : Token) (ty : ParamType) : Bool :=
  decide (typeCheckWithin fails (tokenDepth t) t ty = Token.typeCheck t ty) &&
  decide (typeCheckWithin fails (storeys ty) t ty = Token.typeCheck t ty) &&
  (decide (Token.typeCheck t ty ≠ .ok true) || decide (typeCheckWithin ends (tokenDepth t - 1) t ty = .panic))

/-- C117_display -/
def c117d (t : Token) : Bool :=
  decide (displayWithin fails (tokenDepth t) t = .ok t.display) && decide (displayWithin ends (tokenDepth t - 1) t = .panic)

/-- C117_write, C117_write_for_abi -/
def c117w (t : ParamType) : Bool :=
  decide (writeWithin fails true (storeys t) t = .ok (write t)) && decide (writeWithin ends true (storeys t - 1) t = .panic) &&
  decide (writeWithin fails false (brackets t) t = .ok (writeForAbi false t)) &&
  decide (writeWithin ends false (brackets t - 1) t = .panic)

end Ethabi.Checkers

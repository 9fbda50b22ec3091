import Verif.Spec.Abi
import Verif.Model.Utf8
/-!
# Reading data without a decoder

`reads t data off tok`: the data hold the value `tok` of type `t` at position `off`, in the sense of the decoder: offsets
and lengths below 2^32, otherwise anywhere (overlapping, backwards, unaligned).  `overruns t data off`: on the way one
meets a dynamic `T[k]` whose offset points behind the end of the data.
-/
namespace Ethabi.Spec

/-- the 32 bytes at `off` are the number `n` -/
def numberAt (data : Bytes) (off n : Nat) : Prop := n < 2 ^ 256 ∧ (data.drop off).take 32 = word n

/-- an offset or a length -/
def smallAt (data : Bytes) (off n : Nat) : Prop := n < 2 ^ 32 ∧ (data.drop off).take 32 = word n

/-- a length at `o` and so many bytes behind it -/
def payloadAt (data : Bytes) (o : Nat) (b : Bytes) : Prop :=
  smallAt data o b.length ∧ (data.drop (o + 32)).take b.length = b

/-- values at `off`, `off + w`, `off + 2 w`, … -/
def spaced (p : Nat → Token → Prop) (w off : Nat) (toks : List Token) : Prop :=
  ∀ i tok, toks[i]? = some tok → p (off + i * w) tok

mutual
def reads : ParamType → Bytes → Nat → Token → Prop
  | .address, data, off, tok => ∃ (pad : Bytes) (a : Address), pad.length = 12 ∧ (data.drop off).take 32 = pad ++ a.1 ∧
      tok = .address a
  | .int _, data, off, tok => ∃ n, numberAt data off n ∧ tok = .int (BitVec.ofNat 256 n)
  | .uint _, data, off, tok => ∃ n, numberAt data off n ∧ tok = .uint (BitVec.ofNat 256 n)
  | .bool, data, off, tok => ∃ n, n < 256 ∧ numberAt data off n ∧ tok = .bool (decide (n = 1))
  | .fixedBytes n, data, off, tok => off + n ≤ data.length ∧ tok = .fixedBytes ((data.drop off).take n)
  | .bytes, data, off, tok => ∃ o b, smallAt data off o ∧ payloadAt data o b ∧ tok = .bytes b
  | .string, data, off, tok => ∃ o b, smallAt data off o ∧ payloadAt data o b ∧ tok = .string (fromUtf8Lossy b)
  | .array t, data, off, tok => ∃ o toks, smallAt data off o ∧ smallAt data o toks.length ∧
      spaced (reads t (data.drop (o + 32))) (headWidth t) 0 toks ∧ tok = .array toks
  | .fixedArray t k, data, off, tok =>
      if dynamic t then ∃ o toks, smallAt data off o ∧ o ≤ data.length ∧ toks.length = k ∧
        spaced (reads t (data.drop o)) (headWidth t) 0 toks ∧ tok = .fixedArray toks
      else ∃ toks, toks.length = k ∧ spaced (reads t data) (headWidth t) off toks ∧ tok = .fixedArray toks
  | .tuple ts, data, off, tok =>
      if dynamicAny ts then ∃ o toks, smallAt data off o ∧ o ≤ data.length ∧ readsAll ts (data.drop o) 0 toks ∧
        tok = .tuple toks
      else ∃ toks, readsAll ts data off toks ∧ tok = .tuple toks
/-- values one behind the other -/
def readsAll : List ParamType → Bytes → Nat → List Token → Prop
  | [], _, _, toks => toks = []
  | t :: ts, data, off, toks => ∃ tok rest, reads t data off tok ∧ readsAll ts data (off + headWidth t) rest ∧
      toks = tok :: rest
end

/-- the first of `k` elements that does not read meets an overrun -/
def spacedOverrun (p : Nat → Token → Prop) (q : Nat → Prop) (w off k : Nat) : Prop :=
  ∃ toks : List Token, toks.length < k ∧ spaced p w off toks ∧ q (off + toks.length * w)

mutual
def overruns : ParamType → Bytes → Nat → Prop
  | .array t, data, off => ∃ o k, smallAt data off o ∧ smallAt data o k ∧
      spacedOverrun (reads t (data.drop (o + 32))) (overruns t (data.drop (o + 32))) (headWidth t) 0 k
  | .fixedArray t k, data, off =>
      if dynamic t then ∃ o, smallAt data off o ∧ (data.length < o ∨
        spacedOverrun (reads t (data.drop o)) (overruns t (data.drop o)) (headWidth t) 0 k)
      else spacedOverrun (reads t data) (overruns t data) (headWidth t) off k
  | .tuple ts, data, off =>
      if dynamicAny ts then ∃ o, smallAt data off o ∧ o ≤ data.length ∧ overrunsAny ts (data.drop o) 0
      else overrunsAny ts data off
  | _, _, _ => False
def overrunsAny : List ParamType → Bytes → Nat → Prop
  | [], _, _ => False
  | t :: ts, data, off => overruns t data off ∨ ∃ tok, reads t data off tok ∧ overrunsAny ts data (off + headWidth t)
end

/-- types for which `decode` accepts empty data -/
def zeroTypes (ts : List ParamType) : Prop := ∀ t ∈ ts, t = .fixedBytes 0 ∨ ∃ u, t = .fixedArray u 0

end Ethabi.Spec

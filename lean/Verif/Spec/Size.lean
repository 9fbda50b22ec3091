import Verif.Model.Types
/-!
# Specification: sizes of encodings

How many bytes the encoding of a token takes, for any token, well-typed or not.  Independent of the encoder.
-/
namespace Ethabi.Spec

mutual
/-- Is the value placed in the tail, behind an offset word? -/
def tailed : Token → Bool
  | .bytes _ => true
  | .string _ => true
  | .array _ => true
  | .fixedArray ts => tailedAny ts
  | .tuple ts => tailedAny ts
  | .address _ => false
  | .fixedBytes _ => false
  | .int _ => false
  | .uint _ => false
  | .bool _ => false
def tailedAny : List Token → Bool
  | [] => false
  | t :: ts => tailed t || tailedAny ts
end

/-- `n` rounded up to a multiple of 32 -/
def roundUp (n : Nat) : Nat := (n + 31) / 32 * 32

mutual
/-- Bytes of the encoding of one value, without the offset word that may point to it. -/
def size : Token → Nat
  | .address _ => 32
  | .int _ => 32
  | .uint _ => 32
  | .bool _ => 32
  | .fixedBytes b => roundUp b.length
  | .bytes b => 32 + roundUp b.length
  | .string s => 32 + roundUp (s.flatMap String.utf8EncodeChar).length
  | .array ts => 32 + sizeAll ts
  | .fixedArray ts => sizeAll ts
  | .tuple ts => sizeAll ts
/-- Bytes of the encoding of a list of values: their encodings and the offset words. -/
def sizeAll : List Token → Nat
  | [] => 0
  | t :: ts => (if tailed t then 32 else 0) + size t + sizeAll ts
end

mutual
/-- every byte string and text in the token takes less than `n` bytes -/
def payloadsBelow (n : Nat) : Token → Bool
  | .fixedBytes b => decide (b.length < n)
  | .bytes b => decide (b.length < n)
  | .string s => decide ((s.flatMap String.utf8EncodeChar).length < n)
  | .array ts => payloadsBelowAll n ts
  | .fixedArray ts => payloadsBelowAll n ts
  | .tuple ts => payloadsBelowAll n ts
  | .address _ => true
  | .int _ => true
  | .uint _ => true
  | .bool _ => true
def payloadsBelowAll (n : Nat) : List Token → Bool
  | [] => true
  | t :: ts => payloadsBelow n t && payloadsBelowAll n ts
end

end Ethabi.Spec

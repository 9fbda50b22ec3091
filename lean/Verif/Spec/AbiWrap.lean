import Verif.Spec.Abi
/-!
# Specification: the ABI layout with another representation of lengths and offsets

The layout of `Spec.Abi` in which every length word and every offset word `n` is written as `w n` (32 bytes).  With
`w = word` it is the layout of the Solidity ABI (`encodeArgsWith_word`, Proofs/EncodeWrap.lean).  `lowWord` keeps the low 32 bits of
`n`.  None of the model's functions is used.
-/
namespace Ethabi.Spec

/-- the word for `n mod 2^32` -/
def lowWord (n : Nat) : Bytes := word (n % 2 ^ 32)

def headsWith (w : Nat → Bytes) : List Part → (off : Nat) → Bytes
  | [], _ => []
  | (true, b) :: ps, off => w off ++ headsWith w ps (off + b.length)
  | (false, b) :: ps, off => b ++ headsWith w ps off

def layoutWith (w : Nat → Bytes) (ps : List Part) : Bytes := headsWith w ps (headSize ps) ++ tails ps

mutual
def encWith (w : Nat → Bytes) : Token → ParamType → Bytes
  | .address a, .address => List.replicate 12 0 ++ a.1
  | .uint v, .uint _ => word v.toNat
  | .int v, .int _ => word v.toNat
  | .bool b, .bool => word (if b then 1 else 0)
  | .fixedBytes b, .fixedBytes _ => padRight b
  | .bytes b, .bytes => w b.length ++ padRight b
  | .string s, .string =>
      w (s.flatMap String.utf8EncodeChar).length ++ padRight (s.flatMap String.utf8EncodeChar)
  | .array ts, .array t => w ts.length ++ layoutWith w (encAllWith w ts t)
  | .fixedArray ts, .fixedArray t _ => layoutWith w (encAllWith w ts t)
  | .tuple ts, .tuple ps => layoutWith w (encZipWith w ts ps)
  | _, _ => []
def encAllWith (w : Nat → Bytes) : List Token → ParamType → List Part
  | [], _ => []
  | tok :: toks, t => (dynamic t, encWith w tok t) :: encAllWith w toks t
def encZipWith (w : Nat → Bytes) : List Token → List ParamType → List Part
  | tok :: toks, t :: ts => (dynamic t, encWith w tok t) :: encZipWith w toks ts
  | _, _ => []
end

def encodeArgsWith (w : Nat → Bytes) (toks : List Token) (ts : List ParamType) : Bytes := layoutWith w (encZipWith w toks ts)

/-! ### the numbers written into an encoding -/

/-- the offsets written into the heads -/
def offsets : List Part → (off : Nat) → List Nat
  | [], _ => []
  | (true, b) :: ps, off => off :: offsets ps (off + b.length)
  | (false, _) :: ps, off => offsets ps off

mutual
/-- all lengths and offsets in the encoding of a value -/
def numbers : Token → ParamType → List Nat
  | .bytes b, .bytes => [b.length]
  | .string s, .string => [(s.flatMap String.utf8EncodeChar).length]
  | .array ts, .array t => ts.length :: (offsets (encAll ts t) (headSize (encAll ts t)) ++ numbersAll ts t)
  | .fixedArray ts, .fixedArray t _ => offsets (encAll ts t) (headSize (encAll ts t)) ++ numbersAll ts t
  | .tuple ts, .tuple ps => offsets (encZip ts ps) (headSize (encZip ts ps)) ++ numbersZip ts ps
  | _, _ => []
def numbersAll : List Token → ParamType → List Nat
  | [], _ => []
  | tok :: toks, t => numbers tok t ++ numbersAll toks t
def numbersZip : List Token → List ParamType → List Nat
  | tok :: toks, t :: ts => numbers tok t ++ numbersZip toks ts
  | _, _ => []
end

/-- all lengths and offsets in the encoding of an argument list -/
def numbersOf (toks : List Token) (ts : List ParamType) : List Nat :=
  offsets (encZip toks ts) (headSize (encZip toks ts)) ++ numbersZip toks ts

end Ethabi.Spec

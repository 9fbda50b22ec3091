import Verif.Model.Types
/-!
# Specification: Solidity contract ABI

Written from the Solidity documentation ("Formal Specification of the Encoding"), not from the
Rust code.  It uses only the data types `ParamType` and `Token`; none of the model's functions.
-/
namespace Ethabi.Spec

/-- The 32-byte big-endian representation of `n` (mod 2^256). -/
def word (n : Nat) : Bytes := (List.range 32).map fun i => UInt8.ofNat (n / 256 ^ (31 - i))

/-- Right-pad with zero bytes to a multiple of 32. -/
def padRight (b : Bytes) : Bytes := b ++ List.replicate ((32 - b.length % 32) % 32) 0

mutual
/-- Dynamic types: `bytes`, `string`, `T[]` for any `T`, `T[k]` for any dynamic `T` and any
`k ≥ 0`, tuples with a dynamic member. -/
def dynamic : ParamType → Bool
  | .bytes => true
  | .string => true
  | .array _ => true
  | .fixedArray t _ => dynamic t
  | .tuple ts => dynamicAny ts
  | .address => false
  | .int _ => false
  | .uint _ => false
  | .bool => false
  | .fixedBytes _ => false
def dynamicAny : List ParamType → Bool
  | [] => false
  | t :: ts => dynamic t || dynamicAny ts
end

/-- One component of a tuple or array body: is its type dynamic, and its encoding. -/
abbrev Part := Bool × Bytes

/-- Total size of the heads: 32 for a dynamic component, the encoding itself for a static one. -/
def headSize : List Part → Nat
  | [] => 0
  | (true, _) :: ps => 32 + headSize ps
  | (false, b) :: ps => b.length + headSize ps

/-- The heads: a static component in place, for a dynamic one the offset of its tail, measured
from the start of this body; `off` is where the next tail goes. -/
def heads : List Part → (off : Nat) → Bytes
  | [], _ => []
  | (true, b) :: ps, off => word off ++ heads ps (off + b.length)
  | (false, b) :: ps, off => b ++ heads ps off

/-- The tails: encodings of the dynamic components, in order. -/
def tails : List Part → Bytes
  | [] => []
  | (true, b) :: ps => b ++ tails ps
  | (false, _) :: ps => tails ps

/-- `enc((X1,...,Xn)) = head(X1) ... head(Xn) tail(X1) ... tail(Xn)`. -/
def layout (ps : List Part) : Bytes := heads ps (headSize ps) ++ tails ps

mutual
/-- `enc(X)` for a value `X` of a type.  Ill-typed combinations get `[]`; they are excluded by
`HasType` in every statement. -/
def enc : Token → ParamType → Bytes
  | .address a, .address => List.replicate 12 0 ++ a.1
  | .uint v, .uint _ => word v.toNat
  | .int v, .int _ => word v.toNat
  | .bool b, .bool => word (if b then 1 else 0)
  | .fixedBytes b, .fixedBytes _ => padRight b
  | .bytes b, .bytes => word b.length ++ padRight b
  | .string s, .string =>
      word (s.flatMap String.utf8EncodeChar).length ++ padRight (s.flatMap String.utf8EncodeChar)
  | .array ts, .array t => word ts.length ++ layout (encAll ts t)
  | .fixedArray ts, .fixedArray t _ => layout (encAll ts t)
  | .tuple ts, .tuple ps => layout (encZip ts ps)
  | _, _ => []
/-- elements of an array -/
def encAll : List Token → ParamType → List Part
  | [], _ => []
  | tok :: toks, t => (dynamic t, enc tok t) :: encAll toks t
/-- members of a tuple -/
def encZip : List Token → List ParamType → List Part
  | tok :: toks, t :: ts => (dynamic t, enc tok t) :: encZip toks ts
  | _, _ => []
end

/-- Encoding of an argument list: the body of a tuple. -/
def encodeArgs (toks : List Token) (ts : List ParamType) : Bytes := layout (encZip toks ts)

mutual
/-- `tok` is a value of type `t`: same kind, exactly `N` bytes for `bytesN`, exactly `k` elements for
`T[k]`, exactly the declared members for a tuple. -/
def hasType : Token → ParamType → Bool
  | .address _, .address => true
  | .uint _, .uint _ => true
  | .int _, .int _ => true
  | .bool _, .bool => true
  | .fixedBytes b, .fixedBytes n => b.length == n
  | .bytes _, .bytes => true
  | .string _, .string => true
  | .array ts, .array t => allHaveType ts t
  | .fixedArray ts, .fixedArray t n => ts.length == n && allHaveType ts t
  | .tuple ts, .tuple ps => haveTypes ts ps
  | _, _ => false
def allHaveType : List Token → ParamType → Bool
  | [], _ => true
  | tok :: toks, t => hasType tok t && allHaveType toks t
def haveTypes : List Token → List ParamType → Bool
  | [], [] => true
  | tok :: toks, t :: ts => hasType tok t && haveTypes toks ts
  | _, _ => false
end

mutual
/-- Types the ABI can carry: `bytesN` has `1 ≤ N ≤ 32`, and there is no zero-length fixed array of a
dynamic type (Solidity has no zero-length fixed arrays at all; `T[0]` of a static `T` is allowed here). -/
def codable : ParamType → Bool
  | .fixedBytes n => decide (1 ≤ n ∧ n ≤ 32)
  | .array t => codable t
  | .fixedArray t n => codable t && (n != 0 || !dynamic t)
  | .tuple ts => codableAll ts
  | .address => true
  | .bytes => true
  | .int _ => true
  | .uint _ => true
  | .bool => true
  | .string => true
def codableAll : List ParamType → Bool
  | [] => true
  | t :: ts => codable t && codableAll ts
end

mutual
/-- Does a value of the type occupy at least one word?  (Only empty tuples and `T[0]` and nestings
of these do not.) -/
def nonzeroWidth : ParamType → Bool
  | .fixedBytes n => n != 0
  | .fixedArray t n => dynamic t || (nonzeroWidth t && n != 0)
  | .tuple ts => nonzeroWidthAny ts
  | .array _ => true
  | .address => true
  | .bytes => true
  | .int _ => true
  | .uint _ => true
  | .bool => true
  | .string => true
def nonzeroWidthAny : List ParamType → Bool
  | [] => false
  | t :: ts => nonzeroWidth t || nonzeroWidthAny ts
end

mutual
/-- no `T[]` with zero-width `T` occurs in the type -/
def noZeroWidthArray : ParamType → Bool
  | .array t => nonzeroWidth t && noZeroWidthArray t
  | .fixedArray t _ => noZeroWidthArray t
  | .tuple ts => noZeroWidthArrays ts
  | .address => true
  | .bytes => true
  | .int _ => true
  | .uint _ => true
  | .bool => true
  | .string => true
  | .fixedBytes _ => true
def noZeroWidthArrays : List ParamType → Bool
  | [] => true
  | t :: ts => noZeroWidthArray t && noZeroWidthArrays ts
end

/-- every dynamic array occurring in the token (at any depth) has at most `n` elements -/
inductive arraysAtMost (n : Nat) : Token → Prop where
  | address (a) : arraysAtMost n (.address a)
  | bytes (b) : arraysAtMost n (.bytes b)
  | fixedBytes (b) : arraysAtMost n (.fixedBytes b)
  | int (i) : arraysAtMost n (.int i)
  | uint (i) : arraysAtMost n (.uint i)
  | bool (b) : arraysAtMost n (.bool b)
  | string (s) : arraysAtMost n (.string s)
  | array (l : List Token) (hl : l.length ≤ n) (h : ∀ tok ∈ l, arraysAtMost n tok) : arraysAtMost n (.array l)
  | fixedArray (l : List Token) (h : ∀ tok ∈ l, arraysAtMost n tok) : arraysAtMost n (.fixedArray l)
  | tuple (l : List Token) (h : ∀ tok ∈ l, arraysAtMost n tok) : arraysAtMost n (.tuple l)

mutual
/-- Every `T[]` inside the token has fewer than `2^32` elements.  (Follows from the size bound unless the
elements have zero width.) -/
def countsFit : Token → Bool
  | .array ts => decide (ts.length < 2 ^ 32) && countsFitAll ts
  | .fixedArray ts => countsFitAll ts
  | .tuple ts => countsFitAll ts
  | _ => true
def countsFitAll : List Token → Bool
  | [] => true
  | t :: ts => countsFit t && countsFitAll ts
end

mutual
/-- Size in bytes of every encoding of a static type. -/
def staticSize : ParamType → Nat
  | .fixedArray t n => n * staticSize t
  | .tuple ts => staticSizeAll ts
  | _ => 32
def staticSizeAll : List ParamType → Nat
  | [] => 0
  | t :: ts => staticSize t + staticSizeAll ts
end

/-- Bytes a value of the type takes in the head of the enclosing body. -/
def headWidth (t : ParamType) : Nat := if dynamic t then 32 else staticSize t

/-- Head position of the type following `ts` in an argument list. -/
def headPos (ts : List ParamType) : Nat := (ts.map headWidth).sum

mutual
/-- Types that exist in Solidity: `uintM`/`intM` with `M` a multiple of 8 in 8..256, `bytesN` with
`N` in 1..32, no zero-length arrays, no empty structs. -/
def solidity : ParamType → Bool
  | .int m => decide (m % 8 = 0 ∧ 8 ≤ m ∧ m ≤ 256)
  | .uint m => decide (m % 8 = 0 ∧ 8 ≤ m ∧ m ≤ 256)
  | .fixedBytes n => decide (1 ≤ n ∧ n ≤ 32)
  | .array t => solidity t
  | .fixedArray t n => solidity t && n != 0
  | .tuple ts => !ts.isEmpty && solidityAll ts
  | .address => true
  | .bytes => true
  | .bool => true
  | .string => true
def solidityAll : List ParamType → Bool
  | [] => true
  | t :: ts => solidity t && solidityAll ts
end

mutual
/-- Like `hasType`, but a `bytesN` value may be shorter than `N` bytes. -/
def valueOf : Token → ParamType → Bool
  | .address _, .address => true
  | .uint _, .uint _ => true
  | .int _, .int _ => true
  | .bool _, .bool => true
  | .fixedBytes b, .fixedBytes n => decide (b.length ≤ n)
  | .bytes _, .bytes => true
  | .string _, .string => true
  | .array ts, .array t => valueOfAll ts t
  | .fixedArray ts, .fixedArray t n => ts.length == n && valueOfAll ts t
  | .tuple ts, .tuple ps => valuesOf ts ps
  | _, _ => false
def valueOfAll : List Token → ParamType → Bool
  | [], _ => true
  | tok :: toks, t => valueOf tok t && valueOfAll toks t
def valuesOf : List Token → List ParamType → Bool
  | [], [] => true
  | tok :: toks, t :: ts => valueOf tok t && valuesOf toks ts
  | _, _ => false
end

mutual
/-- Wherever a tuple token meets a tuple type the member counts agree. -/
def arityMatch : Token → ParamType → Bool
  | .array ts, .array t => arityMatchAll ts t
  | .fixedArray ts, .fixedArray t _ => arityMatchAll ts t
  | .tuple ts, .tuple ps => arityMatches ts ps
  | _, _ => true
def arityMatchAll : List Token → ParamType → Bool
  | [], _ => true
  | tok :: toks, t => arityMatch tok t && arityMatchAll toks t
def arityMatches : List Token → List ParamType → Bool
  | [], [] => true
  | tok :: toks, t :: ts => arityMatch tok t && arityMatches toks ts
  | _, _ => false
end

/-- arities agree at every position both lists have -/
def arityMatchZip : List Token → List ParamType → Bool
  | tok :: toks, t :: ts => arityMatch tok t && arityMatchZip toks ts
  | _, _ => true

/-- No tuple type anywhere. -/
def tupleFree : ParamType → Bool
  | .array t => tupleFree t
  | .fixedArray t _ => tupleFree t
  | .tuple _ => false
  | _ => true

mutual
/-- No empty `FixedBytes` value anywhere. -/
def nonemptyFixed : Token → Bool
  | .fixedBytes b => !b.isEmpty
  | .array ts => nonemptyFixedAll ts
  | .fixedArray ts => nonemptyFixedAll ts
  | .tuple ts => nonemptyFixedAll ts
  | _ => true
def nonemptyFixedAll : List Token → Bool
  | [] => true
  | t :: ts => nonemptyFixed t && nonemptyFixedAll ts
end

mutual
/-- Fill every `bytesN` value up with zero bytes to exactly `N` bytes. -/
def zeroExtend : Token → ParamType → Token
  | .fixedBytes b, .fixedBytes n => .fixedBytes (b ++ List.replicate (n - b.length) 0)
  | .array ts, .array t => .array (zeroExtendAll ts t)
  | .fixedArray ts, .fixedArray t _ => .fixedArray (zeroExtendAll ts t)
  | .tuple ts, .tuple ps => .tuple (zeroExtends ts ps)
  | tok, _ => tok
def zeroExtendAll : List Token → ParamType → List Token
  | [], _ => []
  | tok :: toks, t => zeroExtend tok t :: zeroExtendAll toks t
def zeroExtends : List Token → List ParamType → List Token
  | tok :: toks, t :: ts => zeroExtend tok t :: zeroExtends toks ts
  | toks, _ => toks
end

mutual
/-- `bytesN` widths below 2^62 -/
def narrow : ParamType → Bool
  | .fixedBytes n => decide (n < 2 ^ 62)
  | .fixedArray t _ => narrow t
  | .array t => narrow t
  | .tuple ts => narrowAll ts
  | _ => true
def narrowAll : List ParamType → Bool
  | [] => true
  | t :: ts => narrow t && narrowAll ts
end

mutual
/-- no fixed array of a dynamic type anywhere, `bytesN` widths below 2^62 -/
def noDynFixedArray : ParamType → Bool
  | .fixedArray t _ => !dynamic t && noDynFixedArray t
  | .fixedBytes n => decide (n < 2 ^ 62)
  | .array t => noDynFixedArray t
  | .tuple ts => noDynFixedArrayAll ts
  | _ => true
def noDynFixedArrayAll : List ParamType → Bool
  | [] => true
  | t :: ts => noDynFixedArray t && noDynFixedArrayAll ts
end

end Ethabi.Spec

import Verif.Spec.Abi
/-!
# Specification: values written as text

Independent description of element texts, numerals and of the values whose text can be read back.
-/
namespace Ethabi.Spec

/-- Text of one element of a list written with brackets `o`, `c`: brackets are balanced, quotes are closed and every
comma is inside brackets or quotes.  `d` brackets are open; `q`: inside quotes. -/
def elementText (o c : Char) (d : Nat) (q : Bool) : List Char → Bool
  | [] => d == 0 && !q
  | ch :: cs =>
      if ch = '"' then elementText o c d (!q) cs
      else if q then elementText o c d q cs
      else if ch = o then elementText o c (d + 1) q cs
      else if ch = c then d != 0 && elementText o c (d - 1) q cs
      else if ch = ',' then d != 0 && elementText o c d q cs
      else elementText o c d q cs

/-- `o`, the pieces with commas between them, `c` -/
def listText (o c : Char) (pieces : List (List Char)) : List Char := o :: ([','].intercalate pieces ++ [c])

/-- only ASCII characters -/
def isAscii (s : List Char) : Bool := s.all fun c => decide (c.toNat < 128)

/-- value of a numeral in a base, given the digits' values; `none` when a character is not a digit -/
def numeral (base : Nat) (digit : Char → Option Nat) : List Char → Option Nat
  | [] => some 0
  | c :: cs => match digit c, numeral base digit cs with
      | some d, some n => some (d * base ^ cs.length + n)
      | _, _ => none

def decDigit (c : Char) : Option Nat := ['0', '1', '2', '3', '4', '5', '6', '7', '8', '9'].idxOf? c

def hexDigitAny (c : Char) : Option Nat :=
  match ['0', '1', '2', '3', '4', '5', '6', '7', '8', '9', 'a', 'b', 'c', 'd', 'e', 'f'].idxOf? c with
  | some n => some n
  | none => ['0', '1', '2', '3', '4', '5', '6', '7', '8', '9', 'A', 'B', 'C', 'D', 'E', 'F'].idxOf? c

/-- value of a decimal numeral; the empty text counts as zero -/
def decimal : List Char → Option Nat := numeral 10 decDigit

/-- value of a hexadecimal numeral -/
def hexadecimal : List Char → Option Nat := numeral 16 hexDigitAny

/-- value of a decimal numeral with optional leading minus signs (one or more mean "negative") -/
def signedDecimal (s : List Char) : Option Int :=
  match s with
  | '-' :: _ => match decimal (s.dropWhile (· == '-')) with
      | some n => some (-Int.ofNat n)
      | none => none
  | _ => match decimal s with
      | some n => some (Int.ofNat n)
      | none => none

/-- exactly 64 hexadecimal digits -/
def isFullHex (s : List Char) : Bool := s.length == 64 && (hexadecimal s).isSome

mutual
/-- Values of a type built from addresses, byte strings, bools and arrays of these.  Left out: the one-element array
whose element is an empty byte string (its text is that of the empty array). -/
def arrayShown : Token → ParamType → Bool
  | .address _, .address => true
  | .bool _, .bool => true
  | .bytes _, .bytes => true
  | .fixedBytes b, .fixedBytes n => b.length == n
  | .array ts, .array t => ts != [.bytes []] && ts != [.fixedBytes []] && allArrayShown ts t
  | .fixedArray ts, .fixedArray t n =>
      ts != [.bytes []] && ts != [.fixedBytes []] && ts.length == n && allArrayShown ts t
  | _, _ => false
def allArrayShown : List Token → ParamType → Bool
  | [], _ => true
  | tok :: toks, t => arrayShown tok t && allArrayShown toks t
end

mutual
/-- Values of a type built from addresses, byte strings, bools and tuples of these, except the one-member tuple of an
empty byte string. -/
def tupleShown : Token → ParamType → Bool
  | .address _, .address => true
  | .bool _, .bool => true
  | .bytes _, .bytes => true
  | .fixedBytes b, .fixedBytes n => b.length == n
  | .tuple ts, .tuple ps => ts != [.bytes []] && ts != [.fixedBytes []] && membersShown ts ps
  | _, _ => false
def membersShown : List Token → List ParamType → Bool
  | [], [] => true
  | tok :: toks, t :: ts => tupleShown tok t && membersShown toks ts
  | _, _ => false
end

mutual
/-- The token's shape when a tuple may have too few members: same kind, exact `bytesN` and `T[k]` lengths. -/
def prefixType : Token → ParamType → Bool
  | .address _, .address => true
  | .uint _, .uint _ => true
  | .int _, .int _ => true
  | .bool _, .bool => true
  | .fixedBytes b, .fixedBytes n => b.length == n
  | .bytes _, .bytes => true
  | .string _, .string => true
  | .array ts, .array t => allPrefixType ts t
  | .fixedArray ts, .fixedArray t n => ts.length == n && allPrefixType ts t
  | .tuple ts, .tuple ps => prefixTypes ts ps
  | _, _ => false
def allPrefixType : List Token → ParamType → Bool
  | [], _ => true
  | tok :: toks, t => prefixType tok t && allPrefixType toks t
def prefixTypes : List Token → List ParamType → Bool
  | [], _ => true
  | tok :: toks, t :: ts => prefixType tok t && prefixTypes toks ts
  | _, _ => false
end

end Ethabi.Spec

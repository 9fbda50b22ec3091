import Verif.Model.Utf8
/-!
# String primitives of Rust's standard library

Rust strings are modelled as lists of Unicode scalar values; operations that index by *byte* position are
modelled with the UTF-8 width of each character and panic when a position is out of range or not on a
character boundary.  (Rust standard library semantics; no repo lines.)
-/
namespace Ethabi

/-- string literal -/
abbrev lit (s : String) : Str := s.toList

/-- `format!("{}", n)` for an unsigned integer -/
def natText (n : Nat) : Str := Nat.toDigits 10 n

/-- `str::len`: number of bytes -/
def byteLen : Str → Nat
  | [] => 0
  | c :: cs => (utf8Char c).length + byteLen cs

/-- split a string at a byte position; `none` when out of range or inside a character -/
def splitAtByte : Str → Nat → Option (Str × Str)
  | s, 0 => some ([], s)
  | [], _ + 1 => none
  | c :: cs, n + 1 =>
      if (utf8Char c).length ≤ n + 1 then
        (splitAtByte cs (n + 1 - (utf8Char c).length)).map fun p => (c :: p.1, p.2)
      else none

/-- `&s[a..b]` -/
def strSlice (s : Str) (a b : Nat) : Res Str :=
  if a ≤ b then
    match splitAtByte s b with
    | none => .panic
    | some (pre, _) =>
        match splitAtByte pre a with
        | none => .panic
        | some (_, r) => .ok r
  else .panic

/-- `x - y` on `usize` used as a slice bound: an underflow panics in debug builds; in release builds it
wraps to at least `2^64 - y`, which as a string index is out of range and panics as well. -/
def indexSub (x y : Nat) : Res Nat := if y ≤ x then .ok (x - y) else .panic

/-- `c.is_ascii_digit()` -/
def isDigit (c : Char) : Bool := decide ('0'.toNat ≤ c.toNat) && decide (c.toNat ≤ '9'.toNat)

/-- value of a string of decimal digits -/
def digitsVal (s : Str) : Nat := s.foldl (fun acc c => acc * 10 + (c.toNat - '0'.toNat)) 0

/-- a leading `+` is accepted by integer parsing -/
def stripPlus : Str → Str
  | '+' :: r => r
  | s => s

/-- `str::parse::<usize>()` (64-bit): optional `+`, at least one digit, value below `2^64`. -/
def parseUsize (s : Str) : Res Nat :=
  let ds := stripPlus s
  if ds ≠ [] ∧ ds.all isDigit ∧ digitsVal ds < 2 ^ 64 then .ok (digitsVal ds) else .err .parseInt

/-- `s.starts_with(p)` -/
def startsWith (p s : Str) : Bool := p.isPrefixOf s

/-- `parts.join(sep)` -/
def join (sep : Str) : List Str → Str
  | [] => []
  | [s] => s
  | s :: ss => s ++ sep ++ join sep ss

/-- `str::to_string`/`as_bytes` -/
def strBytes (s : Str) : Bytes := utf8 s

end Ethabi

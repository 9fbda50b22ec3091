import Verif.Model.Text
/-!
# Hexadecimal text

The `hex` crate (`hex::encode`, `hex::decode`) and the `{:x}` formatting of `ethereum-types`.
Dependency behaviour, modelled from the crates' documentation; no repo lines.
-/
namespace Ethabi

/-- lower-case hexadecimal digit of a number below 16 -/
def hexDigit (n : Nat) : Char := if n < 10 then Char.ofNat (48 + n) else Char.ofNat (87 + n)

/-- `format!("{:02x}", b)` -/
def hexByte (b : UInt8) : Str := [hexDigit (b.toNat / 16), hexDigit (b.toNat % 16)]

/-- `hex::encode`; also `{:x}` of `H160`/`H256`, which print every byte with two digits -/
def hexEncode (b : Bytes) : Str := b.flatMap hexByte

/-- value of a hexadecimal digit, either case -/
def hexVal (c : Char) : Option Nat :=
  let n := c.toNat
  if 48 ≤ n ∧ n ≤ 57 then some (n - 48)
  else if 97 ≤ n ∧ n ≤ 102 then some (n - 87)
  else if 65 ≤ n ∧ n ≤ 70 then some (n - 55)
  else none

/-- `hex::decode`: an odd number of digits and any other character are errors.  (For a text with non-ASCII
characters the crate reports one error or the other; both are `Error::Hex`.) -/
def hexDecode : Str → Res Bytes
  | [] => .ok []
  | [_] => .err .hex
  | a :: b :: cs =>
      match hexVal a, hexVal b with
      | some x, some y => do
          let rest ← hexDecode cs
          .ok (UInt8.ofNat (x * 16 + y) :: rest)
      | _, _ => .err .hex

/-- `{:x}` of `U256`: no leading zeros, `0` for zero -/
def hexNat (n : Nat) : Str := Nat.toDigits 16 n

end Ethabi

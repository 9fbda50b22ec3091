import Verif.Model.Basic
/-!
# UTF-8 (Rust standard library behaviour used by the crate)

`str::as_bytes` and `String::from_utf8_lossy`.  These are std functions, not repo code; they are
modelled concretely because decoder.rs:136 and encoder.rs:138 depend on them.
-/
namespace Ethabi

/-- UTF-8 encoding of one scalar value (std `char::encode_utf8`), in arithmetic form. -/
def utf8Char (c : Char) : Bytes :=
  let n := c.toNat
  if n < 0x80 then [UInt8.ofNat n]
  else if n < 0x800 then [UInt8.ofNat (0xC0 + n / 64), UInt8.ofNat (0x80 + n % 64)]
  else if n < 0x10000 then
    [UInt8.ofNat (0xE0 + n / 4096), UInt8.ofNat (0x80 + n / 64 % 64), UInt8.ofNat (0x80 + n % 64)]
  else
    [UInt8.ofNat (0xF0 + n / 262144), UInt8.ofNat (0x80 + n / 4096 % 64),
     UInt8.ofNat (0x80 + n / 64 % 64), UInt8.ofNat (0x80 + n % 64)]

/-- `s.as_bytes()`, used at ethabi/src/encoder.rs:138. -/
def utf8 (s : Str) : Bytes := s.flatMap utf8Char

/-- U+FFFD, what `from_utf8_lossy` substitutes. -/
def replacementChar : Char := Char.ofNat 0xFFFD

/-- continuation byte test `b & 192 == 128` (std `Utf8Chunks::next`) -/
def isCont (b : UInt8) : Bool := decide (0x80 ≤ b.toNat ∧ b.toNat ≤ 0xBF)

/-- std `utf8_char_width` table -/
def utf8CharWidth (b : UInt8) : Nat :=
  let n := b.toNat
  if n < 0x80 then 1
  else if n < 0xC2 then 0
  else if n < 0xE0 then 2
  else if n < 0xF0 then 3
  else if n < 0xF5 then 4
  else 0

/-- admissible second byte of a three-byte sequence (std `Utf8Chunks::next`) -/
def second3 (b c : UInt8) : Bool :=
  let n := c.toNat
  if b.toNat = 0xE0 then decide (0xA0 ≤ n ∧ n ≤ 0xBF)
  else if b.toNat = 0xED then decide (0x80 ≤ n ∧ n ≤ 0x9F)
  else isCont c

/-- admissible second byte of a four-byte sequence (std `Utf8Chunks::next`) -/
def second4 (b c : UInt8) : Bool :=
  let n := c.toNat
  if b.toNat = 0xF0 then decide (0x90 ≤ n ∧ n ≤ 0xBF)
  else if b.toNat = 0xF4 then decide (0x80 ≤ n ∧ n ≤ 0x8F)
  else isCont c

/-- std `String::from_utf8_lossy` (via `Utf8Chunks`), used at ethabi/src/decoder.rs:136:
valid sequences decode, every maximal invalid chunk becomes one U+FFFD. -/
def fromUtf8Lossy : Bytes → Str
  | [] => []
  | b :: rest =>
    let n := b.toNat
    if utf8CharWidth b = 1 then Char.ofNat n :: fromUtf8Lossy rest
    else if utf8CharWidth b = 2 then
      match rest with
      | c :: rest' =>
        if isCont c then Char.ofNat (n % 32 * 64 + c.toNat % 64) :: fromUtf8Lossy rest'
        else replacementChar :: fromUtf8Lossy (c :: rest')
      | [] => [replacementChar]
    else if utf8CharWidth b = 3 then
      match rest with
      | c :: d :: rest' =>
        if second3 b c then
          if isCont d then
            Char.ofNat (n % 16 * 4096 + c.toNat % 64 * 64 + d.toNat % 64) :: fromUtf8Lossy rest'
          else replacementChar :: fromUtf8Lossy (d :: rest')
        else replacementChar :: fromUtf8Lossy (c :: d :: rest')
      | [c] => if second3 b c then [replacementChar] else replacementChar :: fromUtf8Lossy [c]
      | [] => [replacementChar]
    else if utf8CharWidth b = 4 then
      match rest with
      | c :: d :: e :: rest' =>
        if second4 b c then
          if isCont d then
            if isCont e then
              Char.ofNat (n % 8 * 262144 + c.toNat % 64 * 4096 + d.toNat % 64 * 64 + e.toNat % 64)
                :: fromUtf8Lossy rest'
            else replacementChar :: fromUtf8Lossy (e :: rest')
          else replacementChar :: fromUtf8Lossy (d :: e :: rest')
        else replacementChar :: fromUtf8Lossy (c :: d :: e :: rest')
      | [c, d] =>
        if second4 b c then
          if isCont d then [replacementChar] else replacementChar :: fromUtf8Lossy [d]
        else replacementChar :: fromUtf8Lossy [c, d]
      | [c] => if second4 b c then [replacementChar] else replacementChar :: fromUtf8Lossy [c]
      | [] => [replacementChar]
    else replacementChar :: fromUtf8Lossy rest

end Ethabi

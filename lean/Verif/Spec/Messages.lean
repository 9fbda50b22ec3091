import Verif.Spec.Errors
import Verif.Model.Messages
/-!
# Why a text is refused, in detail

`failsFor m p s r`: the text `s` is refused as a value of type `p` for the reason `r`.  Of the model only the data types are used.
-/
namespace Ethabi.Spec

/-- a hexadecimal digit of either case -/
def isHexDigit (c : Char) : Bool := c ∈ "0123456789abcdefABCDEF".toList

/-- why the text is not hexadecimal: an odd number of bytes, or else the first character that is no digit, of which the first
byte is reported -/
def hexFails (s : Str) (r : HexReason) : Prop :=
  bytesIn s % 2 = 1 ∧ r = .odd ∨
  bytesIn s % 2 = 0 ∧ ∃ before c after b, s = before ++ c :: after ∧ (∀ x ∈ before, isHexDigit x = true) ∧ isHexDigit c = false ∧
    (String.utf8EncodeChar c).head? = some b ∧ r = .character b before.length

/-- not hexadecimal, or not of this many bytes -/
def hexFailsAt (n : Nat) (s : Str) (r : Reason) : Prop :=
  (∃ h, hexFails s h ∧ r = .hex h) ∨ r = .invalidData ∧ hexOfOtherLength s n

/-- not a decimal numeral, or not below 2^256 -/
def decFails (s : Str) (r : Reason) : Prop :=
  decimal s = none ∧ r = .decCharacter ∨ (∃ n, decimal s = some n ∧ 2 ^ 256 ≤ n) ∧ r = .decLength

/-- the same behind leading minus signs, or out of the range of int256 -/
def intFails (s : Str) (r : Reason) : Prop :=
  decFails (s.dropWhile (· == '-')) r ∨
  ∃ n, decimal (s.dropWhile (· == '-')) = some n ∧ n < 2 ^ 256 ∧
    (s.head? = some '-' ∧ 2 ^ 255 < n ∧ r = .underflow ∨ s.head? ≠ some '-' ∧ 2 ^ 255 ≤ n ∧ r = .overflow)

mutual
def failsFor (m : Tokenizer) : ParamType → Str → Reason → Prop
  | .address, s, r => hexFailsAt 20 s r
  | .bytes, s, r => ∃ h, hexFails s h ∧ r = .hex h
  | .fixedBytes n, s, r => hexFailsAt n s r
  | .string, _, _ => False
  | .bool, s, r => r = .invalidData ∧ s ∉ [lit "true", lit "1", lit "false", lit "0"]
  | .uint _, s, r => m = .strict ∧ hexFailsAt 32 s r ∨ m = .lenient ∧ isFullHex s = false ∧ decFails s r
  | .int _, s, r => m = .strict ∧ hexFailsAt 32 s r ∨ m = .lenient ∧ isFullHex s = false ∧ intFails s r
  | .array p, s, r => r = .invalidData ∧ ¬ bracketed '[' ']' s ∨
      (∃ us ts u, partsThen '[' ']' s us (some u) ∧ List.Forall₂ (fun u t => denotes m p u t) us ts ∧ failsFor m p u r) ∨
      r = .invalidData ∧ ∃ us ts, unmatched '[' ']' s us ∧ List.Forall₂ (fun u t => denotes m p u t) us ts
  | .fixedArray p n, s, r => r = .invalidData ∧ ¬ bracketed '[' ']' s ∨
      (∃ us ts u, partsThen '[' ']' s us (some u) ∧ List.Forall₂ (fun u t => denotes m p u t) us ts ∧ failsFor m p u r) ∨
      r = .invalidData ∧ ∃ us ts, (unmatched '[' ']' s us ∨ listOf '[' ']' s us ∧ us.length ≠ n) ∧
        List.Forall₂ (fun u t => denotes m p u t) us ts
  | .tuple ps, s, r => r = .invalidData ∧ ¬ bracketed '(' ')' s ∨
      (∃ us ts u, partsThen '(' ')' s us (some u) ∧ denotesEach m ps us ts ∧ failsForAt m ps us.length u r) ∨
      r = .invalidData ∧ ∃ us ts, unmatched '(' ')' s us ∧ denotesEach m ps us ts
/-- the part is refused as a value of the type at this place, or there is no such type -/
def failsForAt (m : Tokenizer) : List ParamType → Nat → Str → Reason → Prop
  | [], _, _, r => r = .invalidData
  | p :: _, 0, u, r => failsFor m p u r
  | _ :: ps, i + 1, u, r => failsForAt m ps i u r
end

/-- the first value that is refused, and why; the values before it are fine -/
def firstRefused (m : Tokenizer) (params : List (ParamType × Str)) (r : Reason) : Prop :=
  ∃ before p s after, params = before ++ (p, s) :: after ∧ (∀ x ∈ before, ∃ t, denotes m x.1 x.2 t) ∧ failsFor m p s r

end Ethabi.Spec

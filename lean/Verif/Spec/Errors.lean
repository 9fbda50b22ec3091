import Verif.Spec.TokenText
/-!
# Why a text is refused

`fails m p s e`: the text `s` is refused as a value of type `p` with the error `e`.  Of the model only the data types are
used.  Lists are read part by part: the first part that is refused gives the error; brackets that are closed too often and
quotes that are not closed are only noticed after the parts in front of them.
-/
namespace Ethabi.Spec

/-- the text is no hexadecimal text -/
def notHex (s : Str) : Prop := ∀ b, ¬ hexText s b

/-- hexadecimal, but not of this many bytes -/
def hexOfOtherLength (s : Str) (n : Nat) : Prop := ∃ b, hexText s b ∧ b.length ≠ n

/-- a bracketed text with the parts `us`, whose brackets or quotes do not match -/
def unmatched (o c : Char) (s : Str) (us : List Str) : Prop :=
  bracketed o c s ∧ s.length ≠ 2 ∧ List.Forall₂ (fun ab u => partOf s ab.1 ab.2 u) (spans 1 (cuts o c s)) us ∧
    (sound o c s s.length = false ∨ quoted s = true)

mutual
def fails (m : Tokenizer) : ParamType → Str → Err → Prop
  | .address, s, e => e = .hex ∧ notHex s ∨ e = .invalidData ∧ hexOfOtherLength s 20
  | .bytes, s, e => e = .hex ∧ notHex s
  | .fixedBytes n, s, e => e = .hex ∧ notHex s ∨ e = .invalidData ∧ hexOfOtherLength s n
  | .string, _, _ => False
  | .bool, s, e => e = .invalidData ∧ s ∉ [lit "true", lit "1", lit "false", lit "0"]
  | .uint _, s, e => m = .strict ∧ (e = .hex ∧ notHex s ∨ e = .invalidData ∧ hexOfOtherLength s 32) ∨
      m = .lenient ∧ e = .other ∧ isFullHex s = false ∧ ∀ n, decimal s = some n → 2 ^ 256 ≤ n
  | .int _, s, e => m = .strict ∧ (e = .hex ∧ notHex s ∨ e = .invalidData ∧ hexOfOtherLength s 32) ∨
      m = .lenient ∧ e = .other ∧ isFullHex s = false ∧ ∀ i, signedDecimal s = some i → ¬ (-2 ^ 255 ≤ i ∧ i < 2 ^ 255)
  | .array p, s, e => e = .invalidData ∧ ¬ bracketed '[' ']' s ∨
      (∃ us ts u, partsThen '[' ']' s us (some u) ∧ List.Forall₂ (fun u t => denotes m p u t) us ts ∧ fails m p u e) ∨
      e = .invalidData ∧ ∃ us ts, unmatched '[' ']' s us ∧ List.Forall₂ (fun u t => denotes m p u t) us ts
  | .fixedArray p n, s, e => e = .invalidData ∧ ¬ bracketed '[' ']' s ∨
      (∃ us ts u, partsThen '[' ']' s us (some u) ∧ List.Forall₂ (fun u t => denotes m p u t) us ts ∧ fails m p u e) ∨
      e = .invalidData ∧ ∃ us ts, (unmatched '[' ']' s us ∨ listOf '[' ']' s us ∧ us.length ≠ n) ∧
        List.Forall₂ (fun u t => denotes m p u t) us ts
  | .tuple ps, s, e => e = .invalidData ∧ ¬ bracketed '(' ')' s ∨
      (∃ us ts u, partsThen '(' ')' s us (some u) ∧ denotesEach m ps us ts ∧ failsAt m ps us.length u e) ∨
      e = .invalidData ∧ ∃ us ts, unmatched '(' ')' s us ∧ denotesEach m ps us ts
/-- the part is refused as a value of the type at this place, or there is no such type -/
def failsAt (m : Tokenizer) : List ParamType → Nat → Str → Err → Prop
  | [], _, _, e => e = .invalidData
  | p :: _, 0, u, e => fails m p u e
  | _ :: ps, i + 1, u, e => failsAt m ps i u e
end

end Ethabi.Spec

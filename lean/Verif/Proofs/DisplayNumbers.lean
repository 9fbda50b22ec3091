import Verif.Proofs.TokenizeNumbers
/-! The hexadecimal text of a displayed integer, read as hexadecimal and as decimal. -/
namespace Ethabi
open Spec

theorem numeral_concat (base : Nat) (digit : Char → Option Nat) (c : Char) : ∀ s : List Char,
    numeral base digit (s ++ [c]) = match numeral base digit s, digit c with
      | some n, some d => some (n * base + d)
      | _, _ => none
  | [] => by simp only [List.nil_append, numeral]; cases digit c <;> simp
  | x :: s => by
      simp only [List.cons_append, numeral, numeral_concat base digit c s, List.length_append, List.length_cons,
        List.length_nil, Nat.zero_add]
      cases digit x <;> cases numeral base digit s <;> cases digit c <;> simp
      rw [Nat.pow_succ, Nat.add_mul, Nat.mul_assoc, Nat.add_assoc]

theorem hexDigitAny_digitChar : ∀ n : Fin 16, hexDigitAny (Nat.digitChar n.1) = some n.1 := by decide +kernel
theorem decDigit_digitChar : ∀ n : Fin 16, decDigit (Nat.digitChar n.1) = if n.1 < 10 then some n.1 else none := by decide +kernel

theorem hexadecimal_text (n : Nat) : hexadecimal (hexNat n) = some n := by
  induction n using Nat.strongRecOn with
  | _ n ih =>
    unfold hexNat
    by_cases h : n < 16
    · rw [Nat.toDigits_of_lt_base h]
      have := hexDigitAny_digitChar ⟨n, h⟩
      simp only at this
      simp [hexadecimal, numeral, this]
    · rw [Nat.toDigits_of_base_le (by decide) (by omega), hexadecimal, numeral_concat]
      have h1 := ih (n / 16) (by omega)
      have h2 := hexDigitAny_digitChar ⟨n % 16, by omega⟩
      simp only [hexadecimal, hexNat] at h1 h2
      rw [h1, h2]
      simp only [Option.some.injEq]; omega

/-- a displayed integer read as decimal is smaller, except for a single digit -/
theorem decimal_hexText (n : Nat) : ∀ d, decimal (hexNat n) = some d → d ≤ n ∧ (d = n ↔ n < 10) := by
  induction n using Nat.strongRecOn with
  | _ n ih =>
    intro d hd
    unfold hexNat at hd
    by_cases h : n < 16
    · rw [Nat.toDigits_of_lt_base h] at hd
      have := decDigit_digitChar ⟨n, h⟩
      simp only at this
      simp only [decimal, numeral, this] at hd
      split at hd
      · rename_i d' _ h1 h2
        split at h1
        · cases h1; cases h2; cases hd; simp; omega
        · cases h1
      · cases hd
    · rw [Nat.toDigits_of_base_le (by decide) (by omega), decimal, numeral_concat] at hd
      have h2 := decDigit_digitChar ⟨n % 16, by omega⟩
      simp only at h2
      rw [h2] at hd
      split at hd
      · rename_i d' c h1 h3
        split at h3
        · cases h3
          have h4 := (ih (n / 16) (by omega) d' h1).1
          cases hd
          omega
        · cases h3
      · cases hd

theorem decimal_hexText_small {n : Nat} (h : n < 10) : decimal (hexNat n) = some n := by
  unfold hexNat
  rw [Nat.toDigits_of_lt_base (by omega)]
  have := decDigit_digitChar ⟨n, by omega⟩
  simp only [h, if_true] at this
  simp [decimal, numeral, this]

theorem decimal_hexText_iff (n : Nat) : decimal (hexNat n) = some n ↔ n < 10 :=
  ⟨fun h => (decimal_hexText n n h).2.1 rfl, decimal_hexText_small⟩

theorem length_hexNat (n : Nat) (hn : n < 2 ^ 256) : (hexNat n).length = 64 ↔ 16 ^ 63 ≤ n := by
  have h1 := Nat.length_toDigits_le_iff (b := 16) (n := n) (k := 63) (by decide) (by decide)
  have h2 := Nat.length_toDigits_le_iff (b := 16) (n := n) (k := 64) (by decide) (by decide)
  have e : (16 : Nat) ^ 64 = 2 ^ 256 := by norm_num
  unfold hexNat
  omega

theorem hexNat_not_full {n : Nat} (hn : n < 2 ^ 256) (h : n < 16 ^ 63) : isFullHex (hexNat n) = false := by
  have : (hexNat n).length ≠ 64 := fun e => by have := (length_hexNat n hn).1 e; omega
  rw [isFullHex, beq_eq_false_iff_ne.2 this, Bool.false_and]

theorem hexNat_ne_minus (n : Nat) (c : Char) (s : Str) (h : hexNat n = c :: s) : c ≠ '-' := by
  rintro rfl
  have := hexadecimal_text n
  rw [h] at this
  have e : hexDigitAny '-' = none := by decide
  simp [hexadecimal, numeral, e] at this

theorem signedDecimal_hexText (n : Nat) : signedDecimal (hexNat n) = (decimal (hexNat n)).map Int.ofNat := by
  unfold signedDecimal
  split
  · rename_i s h
    exact absurd rfl (hexNat_ne_minus n _ _ h)
  · cases decimal (hexNat n) <;> rfl

end Ethabi

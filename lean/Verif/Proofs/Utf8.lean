import Verif.Proofs.Bytes
/-! UTF-8: agreement with Lean core, and lossy decoding inverts encoding. -/
namespace Ethabi

theorem char_valid (c : Char) : c.toNat < 55296 ∨ 57343 < c.toNat ∧ c.toNat < 1114112 := c.valid

theorem utf8Char_eq_core (c : Char) : utf8Char c = String.utf8EncodeChar c := by
  simp only [utf8Char, String.utf8EncodeChar]
  have hv := char_valid c
  have h0 : c.val.toNat = c.toNat := rfl
  rw [h0]
  generalize c.toNat = n at *
  by_cases h1 : n < 128
  · rw [if_pos h1, if_pos (show n ≤ 127 by omega)]
  · rw [if_neg h1, if_neg (show ¬ n ≤ 127 by omega)]
    by_cases h2 : n < 2048
    · rw [if_pos h2, if_pos (show n ≤ 2047 by omega), show n / 64 % 32 + 192 = 192 + n / 64 by omega,
        Nat.add_comm (n % 64)]
    · rw [if_neg h2, if_neg (show ¬ n ≤ 2047 by omega)]
      by_cases h3 : n < 65536
      · rw [if_pos h3, if_pos (show n ≤ 65535 by omega), show n / 4096 % 16 + 224 = 224 + n / 4096 by omega,
          Nat.add_comm (n % 64), Nat.add_comm (n / 64 % 64)]
      · rw [if_neg h3, if_neg (show ¬ n ≤ 65535 by omega), show n / 262144 % 8 + 240 = 240 + n / 262144 by omega,
          Nat.add_comm (n % 64), Nat.add_comm (n / 64 % 64), Nat.add_comm (n / 4096 % 64)]

theorem utf8_eq_core (s : Str) : utf8 s = s.flatMap String.utf8EncodeChar := by
  simp only [utf8]
  congr 1
  funext c
  exact utf8Char_eq_core c

theorem toNat_ofNat_lt (n : Nat) (h : n < 256) : (UInt8.ofNat n).toNat = n := by
  simp; omega

theorem lossy_char (c : Char) (rest : Bytes) :
    fromUtf8Lossy (utf8Char c ++ rest) = c :: fromUtf8Lossy rest := by
  have hv := char_valid c
  have hc := Char.ofNat_toNat c
  simp only [utf8Char]
  generalize hn : c.toNat = n at *
  split
  · have h1 := toNat_ofNat_lt n (by omega)
    simp only [List.cons_append, List.nil_append]
    conv_lhs => rw [fromUtf8Lossy.eq_def]
    simp only [utf8CharWidth, h1]
    rw [if_pos (by rw [if_pos (by omega)]), hc]
  · split
    · have h1 := toNat_ofNat_lt (192 + n / 64) (by omega)
      have h2 := toNat_ofNat_lt (128 + n % 64) (by omega)
      simp only [List.cons_append, List.nil_append]
      rw [fromUtf8Lossy]
      have w : utf8CharWidth (UInt8.ofNat (192 + n / 64)) = 2 := by
        simp only [utf8CharWidth, h1]
        rw [if_neg (by omega), if_neg (by omega), if_pos (by omega)]
      have c2 : isCont (UInt8.ofNat (128 + n % 64)) = true := by
        simp only [isCont, h2, decide_eq_true_eq]; omega
      simp only [w, c2, h1, h2]
      simp only [reduceIte, show ¬ (2 = 1) by decide]
      rw [show (192 + n / 64) % 32 * 64 + (128 + n % 64) % 64 = n by omega, hc]
    · split
      · have h1 := toNat_ofNat_lt (224 + n / 4096) (by omega)
        have h2 := toNat_ofNat_lt (128 + n / 64 % 64) (by omega)
        have h3 := toNat_ofNat_lt (128 + n % 64) (by omega)
        simp only [List.cons_append, List.nil_append]
        rw [fromUtf8Lossy]
        have w : utf8CharWidth (UInt8.ofNat (224 + n / 4096)) = 3 := by
          simp only [utf8CharWidth, h1]
          rw [if_neg (by omega), if_neg (by omega), if_neg (by omega), if_pos (by omega)]
        have s2 : second3 (UInt8.ofNat (224 + n / 4096)) (UInt8.ofNat (128 + n / 64 % 64)) = true := by
          simp only [second3, isCont, h1, h2]
          split
          · simp only [decide_eq_true_eq]; omega
          · split
            · simp only [decide_eq_true_eq]; omega
            · simp only [decide_eq_true_eq]; omega
        have c3 : isCont (UInt8.ofNat (128 + n % 64)) = true := by
          simp only [isCont, h3, decide_eq_true_eq]; omega
        simp only [w, s2, c3, h1, h2, h3]
        simp only [reduceIte, show ¬ (3 = 1) by decide, show ¬ (3 = 2) by decide]
        rw [show (224 + n / 4096) % 16 * 4096 + (128 + n / 64 % 64) % 64 * 64 + (128 + n % 64) % 64 = n
          by omega, hc]
      · have h1 := toNat_ofNat_lt (240 + n / 262144) (by omega)
        have h2 := toNat_ofNat_lt (128 + n / 4096 % 64) (by omega)
        have h3 := toNat_ofNat_lt (128 + n / 64 % 64) (by omega)
        have h4 := toNat_ofNat_lt (128 + n % 64) (by omega)
        simp only [List.cons_append, List.nil_append]
        rw [fromUtf8Lossy]
        have w : utf8CharWidth (UInt8.ofNat (240 + n / 262144)) = 4 := by
          simp only [utf8CharWidth, h1]
          rw [if_neg (by omega), if_neg (by omega), if_neg (by omega), if_neg (by omega), if_pos (by omega)]
        have s2 : second4 (UInt8.ofNat (240 + n / 262144)) (UInt8.ofNat (128 + n / 4096 % 64)) = true := by
          simp only [second4, isCont, h1, h2]
          split
          · simp only [decide_eq_true_eq]; omega
          · split
            · simp only [decide_eq_true_eq]; omega
            · simp only [decide_eq_true_eq]; omega
        have c3 : isCont (UInt8.ofNat (128 + n / 64 % 64)) = true := by
          simp only [isCont, h3, decide_eq_true_eq]; omega
        have c4 : isCont (UInt8.ofNat (128 + n % 64)) = true := by
          simp only [isCont, h4, decide_eq_true_eq]; omega
        simp only [w, s2, c3, c4, h1, h2, h3, h4]
        simp only [reduceIte, show ¬ (4 = 1) by decide, show ¬ (4 = 2) by decide, show ¬ (4 = 3) by decide]
        rw [show (240 + n / 262144) % 8 * 262144 + (128 + n / 4096 % 64) % 64 * 4096
          + (128 + n / 64 % 64) % 64 * 64 + (128 + n % 64) % 64 = n by omega, hc]

theorem lossy_utf8 (s : Str) : fromUtf8Lossy (utf8 s) = s := by
  induction s with
  | nil => simp [utf8, fromUtf8Lossy]
  | cons c s ih =>
    have : utf8 (c :: s) = utf8Char c ++ utf8 s := rfl
    rw [this, lossy_char, ih]

end Ethabi

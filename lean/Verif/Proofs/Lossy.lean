import Verif.Proofs.Utf8
/-! Lossy UTF-8 decoding either is exact or shows U+FFFD. -/
namespace Ethabi

theorem toNat_ofNat_valid {n : Nat} (h : n < 55296 ∨ 57343 < n ∧ n < 1114112) : (Char.ofNat n).toNat = n := by
  have : n.isValidChar := h
  unfold Char.ofNat
  rw [dif_pos this]
  rfl

theorem byte_eq_ofNat {b : UInt8} {n : Nat} (h : n = b.toNat) : UInt8.ofNat n = b := by
  subst h; simp

theorem width_cases (b : UInt8) :
    (utf8CharWidth b = 1 → b.toNat < 0x80) ∧ (utf8CharWidth b = 2 → 0xC2 ≤ b.toNat ∧ b.toNat < 0xE0)
    ∧ (utf8CharWidth b = 3 → 0xE0 ≤ b.toNat ∧ b.toNat < 0xF0)
    ∧ (utf8CharWidth b = 4 → 0xF0 ≤ b.toNat ∧ b.toNat < 0xF5) := by
  simp only [utf8CharWidth]
  refine ⟨?_, ?_, ?_, ?_⟩ <;> intro h <;> (repeat' split at h) <;> omega

theorem utf8_cons_eq {c : Char} {s : Str} {bs rest : Bytes} (h : utf8Char c = bs)
    (ih : utf8 s = rest ∨ replacementChar ∈ s) :
    utf8 (c :: s) = bs ++ rest ∨ replacementChar ∈ c :: s := by
  rcases ih with ih | ih
  · left; rw [← h, ← ih]; rfl
  · right; exact List.mem_cons_of_mem _ ih

theorem utf8Char2 (n c : Nat) (h1 : 0xC2 ≤ n ∧ n < 0xE0) (h2 : 0x80 ≤ c ∧ c ≤ 0xBF) :
    utf8Char (Char.ofNat (n % 32 * 64 + c % 64)) = [UInt8.ofNat n, UInt8.ofNat c] := by
  simp only [utf8Char]
  rw [toNat_ofNat_valid (by omega), if_neg (by omega), if_pos (by omega),
    show 192 + (n % 32 * 64 + c % 64) / 64 = n by omega, show 128 + (n % 32 * 64 + c % 64) % 64 = c by omega]

theorem utf8Char3 (n c d : Nat) (h1 : 0xE0 ≤ n ∧ n < 0xF0) (h2 : 0x80 ≤ c ∧ c ≤ 0xBF)
    (h2a : n = 0xE0 → 0xA0 ≤ c) (h2b : n = 0xED → c ≤ 0x9F) (h3 : 0x80 ≤ d ∧ d ≤ 0xBF) :
    utf8Char (Char.ofNat (n % 16 * 4096 + c % 64 * 64 + d % 64))
      = [UInt8.ofNat n, UInt8.ofNat c, UInt8.ofNat d] := by
  simp only [utf8Char]
  rw [toNat_ofNat_valid (by omega), if_neg (by omega), if_neg (by omega), if_pos (by omega),
    show 224 + (n % 16 * 4096 + c % 64 * 64 + d % 64) / 4096 = n by omega,
    show 128 + (n % 16 * 4096 + c % 64 * 64 + d % 64) / 64 % 64 = c by omega,
    show 128 + (n % 16 * 4096 + c % 64 * 64 + d % 64) % 64 = d by omega]

theorem utf8Char4 (n c d e : Nat) (h1 : 0xF0 ≤ n ∧ n < 0xF5) (h2 : 0x80 ≤ c ∧ c ≤ 0xBF)
    (h2a : n = 0xF0 → 0x90 ≤ c) (h2b : n = 0xF4 → c ≤ 0x8F) (h3 : 0x80 ≤ d ∧ d ≤ 0xBF)
    (h4 : 0x80 ≤ e ∧ e ≤ 0xBF) :
    utf8Char (Char.ofNat (n % 8 * 262144 + c % 64 * 4096 + d % 64 * 64 + e % 64))
      = [UInt8.ofNat n, UInt8.ofNat c, UInt8.ofNat d, UInt8.ofNat e] := by
  simp only [utf8Char]
  rw [toNat_ofNat_valid (by omega), if_neg (by omega), if_neg (by omega), if_neg (by omega),
    show 240 + (n % 8 * 262144 + c % 64 * 4096 + d % 64 * 64 + e % 64) / 262144 = n by omega,
    show 128 + (n % 8 * 262144 + c % 64 * 4096 + d % 64 * 64 + e % 64) / 4096 % 64 = c by omega,
    show 128 + (n % 8 * 262144 + c % 64 * 4096 + d % 64 * 64 + e % 64) / 64 % 64 = d by omega,
    show 128 + (n % 8 * 262144 + c % 64 * 4096 + d % 64 * 64 + e % 64) % 64 = e by omega]

theorem isCont_iff {b : UInt8} : isCont b = true ↔ 0x80 ≤ b.toNat ∧ b.toNat ≤ 0xBF := by simp [isCont]

theorem second3_iff {b c : UInt8} (h : second3 b c = true) : (0x80 ≤ c.toNat ∧ c.toNat ≤ 0xBF) ∧
    (b.toNat = 0xE0 → 0xA0 ≤ c.toNat) ∧ (b.toNat = 0xED → c.toNat ≤ 0x9F) := by
  simp only [second3] at h
  split at h
  · simp only [decide_eq_true_eq] at h; omega
  · split at h
    · simp only [decide_eq_true_eq] at h; omega
    · rw [isCont_iff] at h; omega

theorem second4_iff {b c : UInt8} (h : second4 b c = true) : (0x80 ≤ c.toNat ∧ c.toNat ≤ 0xBF) ∧
    (b.toNat = 0xF0 → 0x90 ≤ c.toNat) ∧ (b.toNat = 0xF4 → c.toNat ≤ 0x8F) := by
  simp only [second4] at h
  split at h
  · simp only [decide_eq_true_eq] at h; omega
  · split at h
    · simp only [decide_eq_true_eq] at h; omega
    · rw [isCont_iff] at h; omega

theorem utf8_lossy (b : Bytes) : utf8 (fromUtf8Lossy b) = b ∨ replacementChar ∈ fromUtf8Lossy b := by
  fun_induction fromUtf8Lossy b
  case case1 => exact Or.inl rfl
  case case2 b rest n hw ih =>
    have h := (width_cases b).1 hw
    refine utf8_cons_eq (bs := [b]) ?_ ih
    simp only [utf8Char]
    rw [toNat_ofNat_valid (by omega), if_pos (by omega), byte_eq_ofNat rfl]
  case case3 b n _ hw c rest hc ih =>
    have h := (width_cases b).2.1 hw
    refine utf8_cons_eq (bs := [b, c]) ?_ ih
    rw [utf8Char2 _ _ h (isCont_iff.1 hc), byte_eq_ofNat rfl, byte_eq_ofNat rfl]
  case case6 b n _ _ hw c d rest hc hd ih =>
    have h := (width_cases b).2.2.1 hw
    have h2 := second3_iff hc
    refine utf8_cons_eq (bs := [b, c, d]) ?_ ih
    rw [utf8Char3 _ _ _ h h2.1 h2.2.1 h2.2.2 (isCont_iff.1 hd), byte_eq_ofNat rfl, byte_eq_ofNat rfl,
      byte_eq_ofNat rfl]
  case case12 b n _ _ _ hw c d e rest hc hd he ih =>
    have h := (width_cases b).2.2.2 hw
    have h2 := second4_iff hc
    refine utf8_cons_eq (bs := [b, c, d, e]) ?_ ih
    rw [utf8Char4 _ _ _ _ h h2.1 h2.2.1 h2.2.2 (isCont_iff.1 hd) (isCont_iff.1 he), byte_eq_ofNat rfl,
      byte_eq_ofNat rfl, byte_eq_ofNat rfl, byte_eq_ofNat rfl]
  all_goals (right; simp; done)

end Ethabi

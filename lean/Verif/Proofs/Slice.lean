import Verif.Model.Text
/-! Byte-indexed string slicing. -/
namespace Ethabi

theorem utf8Char_length_pos (c : Char) : 1 ≤ (utf8Char c).length := by
  unfold utf8Char
  simp only []
  repeat' split
  all_goals simp

/-- ASCII characters -/
def ascii (s : Str) : Prop := ∀ c ∈ s, c.toNat < 128

theorem utf8Char_ascii {c : Char} (h : c.toNat < 128) : (utf8Char c).length = 1 := by
  unfold utf8Char
  simp only []
  rw [if_pos (by omega)]; rfl

theorem byteLen_append (a b : Str) : byteLen (a ++ b) = byteLen a + byteLen b := by
  induction a with
  | nil => simp [byteLen]
  | cons c a ih => simp [byteLen, ih]; omega

theorem length_le_byteLen (s : Str) : s.length ≤ byteLen s := by
  induction s with
  | nil => simp [byteLen]
  | cons c s ih => have := utf8Char_length_pos c; simp [byteLen]; omega

theorem byteLen_ascii {s : Str} (h : ascii s) : byteLen s = s.length := by
  induction s with
  | nil => rfl
  | cons c s ih =>
    have := ih (fun d hd => h d (by simp [hd]))
    simp [byteLen, utf8Char_ascii (h c (by simp)), this]; omega

theorem splitAtByte_some {s a b : Str} {n : Nat} (h : splitAtByte s n = some (a, b)) :
    s = a ++ b ∧ byteLen a = n := by
  induction s generalizing n a b with
  | nil =>
    cases n with
    | zero => simp [splitAtByte] at h; simp [h, byteLen]
    | succ n => simp [splitAtByte] at h
  | cons c s ih =>
    cases n with
    | zero => simp [splitAtByte] at h; obtain ⟨rfl, rfl⟩ := h; simp [byteLen]
    | succ n =>
      simp only [splitAtByte] at h
      split at h
      · simp only [Option.map_eq_some_iff, Prod.exists, Prod.mk.injEq] at h
        obtain ⟨a', b', h1, rfl, rfl⟩ := h
        obtain ⟨rfl, h2⟩ := ih h1
        refine ⟨rfl, ?_⟩
        simp only [byteLen]; omega
      · cases h

theorem strSlice_ok {s r : Str} {a b : Nat} (h : strSlice s a b = .ok r) :
    byteLen r = b - a ∧ a ≤ b ∧ b ≤ byteLen s ∧ ∃ x y, s = x ++ r ++ y := by
  unfold strSlice at h
  split at h
  · split at h
    · cases h
    · rename_i hab _ pre _ h1
      split at h
      · cases h
      · rename_i _ _ _ _ h2
        cases h
        obtain ⟨rfl, h3⟩ := splitAtByte_some h1
        obtain ⟨rfl, h4⟩ := splitAtByte_some h2
        rw [byteLen_append] at h3
        refine ⟨by omega, hab, by rw [byteLen_append, byteLen_append]; omega, _, _, rfl⟩
  · cases h

theorem splitAtByte_ascii {s : Str} (hs : ascii s) {n : Nat} (h : n ≤ s.length) :
    splitAtByte s n = some (s.take n, s.drop n) := by
  induction s generalizing n with
  | nil => simp at h; subst h; simp [splitAtByte]
  | cons c s ih =>
    cases n with
    | zero => simp [splitAtByte]
    | succ n =>
      have := ih (fun d hd => hs d (by simp [hd])) (n := n) (by simpa using h)
      simp [splitAtByte, utf8Char_ascii (hs c (by simp)), this]

theorem ascii_take {s : Str} (h : ascii s) (n : Nat) : ascii (s.take n) := fun c hc => h c (List.mem_of_mem_take hc)
theorem ascii_drop {s : Str} (h : ascii s) (n : Nat) : ascii (s.drop n) := fun c hc => h c (List.mem_of_mem_drop hc)
theorem ascii_append {a b : Str} (ha : ascii a) (hb : ascii b) : ascii (a ++ b) := by
  intro c hc
  rcases List.mem_append.1 hc with h | h
  · exact ha c h
  · exact hb c h

theorem strSlice_ascii {s : Str} (hs : ascii s) {a b : Nat} (hab : a ≤ b) (hb : b ≤ s.length) :
    strSlice s a b = .ok ((s.take b).drop a) := by
  rw [strSlice, if_pos hab, splitAtByte_ascii hs hb]
  simp only []
  rw [splitAtByte_ascii (ascii_take hs b) (by simp; omega)]

/-- slicing out the middle part -/
theorem strSlice_mid {x r y : Str} {a b : Nat} (hs : ascii (x ++ r ++ y)) (ha : a = x.length)
    (hb : b = x.length + r.length) : strSlice (x ++ r ++ y) a b = .ok r := by
  subst ha hb
  rw [strSlice_ascii hs (by omega) (by simp)]
  have : (x ++ r ++ y).take (x.length + r.length) = x ++ r := by
    rw [← List.length_append]; exact List.take_left
  rw [this, List.drop_left]

theorem digitsVal_eq (s : Str) : digitsVal s = Nat.ofDigitChars 10 s 0 := by
  rw [Nat.ofDigitChars_eq_foldl, digitsVal]
  congr 1
  funext a c
  rw [Nat.mul_comm]

theorem isDigit_eq (c : Char) : isDigit c = c.isDigit := by
  rw [Bool.eq_iff_iff, Char.isDigit_iff_toNat]
  simp [isDigit]

theorem parseUsize_natText {n : Nat} (h : n < 2 ^ 64) : parseUsize (natText n) = .ok n := by
  have h1 : natText n ≠ [] := Nat.toDigits_ne_nil
  have h2 : ∀ c ∈ natText n, c.isDigit = true := fun c hc => Nat.isDigit_of_mem_toDigits (by decide) (by decide) hc
  have h3 : digitsVal (natText n) = n := by rw [digitsVal_eq]; exact Nat.ofDigitChars_ten_toDigits
  have h4 : stripPlus (natText n) = natText n := by
    unfold stripPlus
    split
    · rename_i r e
      have := h2 '+' (by simp [e])
      simp at this
    · rfl
  unfold parseUsize
  simp only [h4, h3]
  rw [if_pos]
  refine ⟨h1, ?_, h⟩
  rw [List.all_eq_true]
  intro c hc
  rw [isDigit_eq]; exact h2 c hc

end Ethabi

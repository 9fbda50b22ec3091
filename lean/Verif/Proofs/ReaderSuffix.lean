import Verif.Proofs.Reader
import Verif.Proofs.Utf8
/-!
# Array suffixes behind any text

`Reader::read` cuts the suffix at a byte position that it counts in characters.
-/
namespace Ethabi

theorem byteLen_eq (s : Str) : byteLen s = (s.flatMap String.utf8EncodeChar).length := by
  rw [← utf8_eq_core]
  induction s with
  | nil => rfl
  | cons c s ih =>
    rw [byteLen, ih]
    simp [utf8]

theorem splitAtByte_append (p q : Str) : splitAtByte (p ++ q) (byteLen p) = some (p, q) := by
  induction p with
  | nil => simp [byteLen, splitAtByte]
  | cons c p ih =>
    have hpos := utf8Char_length_pos c
    obtain ⟨m, hm⟩ : ∃ m, byteLen (c :: p) = m + 1 := ⟨byteLen (c :: p) - 1, by simp only [byteLen]; omega⟩
    rw [hm, List.cons_append, splitAtByte, if_pos (by simp only [byteLen] at hm; omega)]
    rw [show m + 1 - (utf8Char c).length = byteLen p by simp only [byteLen] at hm; omega, ih]
    rfl

theorem strSlice_prefix (p q : Str) : strSlice (p ++ q) 0 (byteLen p) = .ok p := by
  rw [strSlice, if_pos (by omega), splitAtByte_append]
  simp only []
  have : splitAtByte p 0 = some ([], p) := by cases p <;> rfl
  rw [this]

theorem strSlice_inside {s r : Str} {n : Nat} (hn : n ≤ byteLen s) (h : ∀ p q, s = p ++ q → byteLen p ≠ n) :
    strSlice (s ++ r) 0 n = .panic := by
  rw [strSlice, if_pos (by omega)]
  cases hs : splitAtByte (s ++ r) n with
  | none => rfl
  | some x =>
    exfalso
    obtain ⟨a, b⟩ := x
    obtain ⟨h1, h2⟩ := splitAtByte_some hs
    rcases List.append_eq_append_iff.1 h1 with ⟨c, hc, -⟩ | ⟨c, hc, -⟩
    · have : byteLen c = 0 := by
        have := congrArg byteLen hc
        rw [byteLen_append] at this
        omega
      have hc0 : c = [] := by
        cases c with
        | nil => rfl
        | cons x c => have := utf8Char_length_pos x; simp only [byteLen] at *; omega
      subst hc0
      exact h s [] (by simp) (by simp at hc; rw [← hc, h2])
    · exact h a c hc h2

theorem suffix_last (s num : Str) : (s ++ '[' :: (num ++ [']'])).getLast? = some ']' := by
  rw [show s ++ '[' :: (num ++ [']']) = (s ++ '[' :: num) ++ [']'] by simp]
  exact List.getLast?_concat ..

theorem read_array_any (s : Str) : read (s ++ lit "[]") =
    (strSlice (s ++ lit "[]") 0 s.length >>= fun sub => read sub >>= fun t => .ok (.array t)) := by
  have e : s ++ lit "[]" = s ++ '[' :: ([] ++ [']']) := by simp [lit]
  have hlast := suffix_last s []
  rw [e, read_eq, readStep, if_neg (by rw [hlast]; simp), if_pos hlast]
  simp only [arrayNum_append s [] (by simp)]
  rw [if_pos trivial, indexSub, if_pos (by simp)]
  simp only [Res.ok_bind]
  rw [show (s ++ '[' :: ([] ++ [']'])).length - 2 = s.length by simp]

theorem read_fixedArray_any (s : Str) {k : Nat} (hk : k < 2 ^ 64) : read (s ++ '[' :: (natText k ++ [']'])) =
    (strSlice (s ++ '[' :: (natText k ++ [']'])) 0 s.length >>= fun sub => read sub >>= fun t => .ok (.fixedArray t k)) := by
  have hlast := suffix_last s (natText k)
  rw [read_eq, readStep, if_neg (by rw [hlast]; simp), if_pos hlast]
  simp only [arrayNum_append s (natText k) (fun h => natText_ne h (by decide) rfl)]
  rw [if_neg (natText_ne_nil k), parseUsize_natText hk, Res.ok_bind, byteLen_ascii (ascii_natText k), indexSub,
    if_pos (by simp; omega), Res.ok_bind, indexSub, if_pos (by simp; omega), Res.ok_bind]
  rw [show (s ++ '[' :: (natText k ++ [']'])).length - (natText k).length - 2 = s.length by simp; omega]

end Ethabi

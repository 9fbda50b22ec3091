import Verif.Proofs.JsonLoad
import Verif.Proofs.Slice
import Verif.Model.JsonWrite
/-!
# What is written is a text of the value
-/
namespace Ethabi.JsonText
open JsonGrammar

/-! ## Depth -/

mutual
theorem value_mono {fits : Str → Bool} : ∀ {d : Nat} {j : Json} {v : Str}, Value fits d j v → ∀ {e : Nat}, d ≤ e → Value fits e j v
  | _, _, _, .null _, _, _ => .null _
  | _, _, _, .true _, _, _ => .true _
  | _, _, _, .false _, _, _ => .false _
  | _, _, _, .number h hf, _, _ => .number h hf
  | _, _, _, .string h, _, _ => .string h
  | _, _, _, .noItems h, e, he => by obtain ⟨e, rfl⟩ : ∃ m, e = m + 1 := ⟨e - 1, by omega⟩; exact .noItems h
  | _, _, _, .noEntries h, e, he => by obtain ⟨e, rfl⟩ : ∃ m, e = m + 1 := ⟨e - 1, by omega⟩; exact .noEntries h
  | _, _, _, .array h, e, he => by
      obtain ⟨e, rfl⟩ : ∃ m, e = m + 1 := ⟨e - 1, by omega⟩
      exact .array (items_mono h (by omega))
  | _, _, _, .object h, e, he => by
      obtain ⟨e, rfl⟩ : ∃ m, e = m + 1 := ⟨e - 1, by omega⟩
      exact .object (entries_mono h (by omega))
theorem items_mono {fits : Str → Bool} : ∀ {d : Nat} {xs : List Json} {s : Str}, Items fits d xs s →
    ∀ {e : Nat}, d ≤ e → Items fits e xs s
  | _, _, _, .one ha h hb, _, he => .one ha (value_mono h he) hb
  | _, _, _, .more ha h hb ht, _, he => .more ha (value_mono h he) hb (items_mono ht he)
theorem entries_mono {fits : Str → Bool} : ∀ {d : Nat} {fs : List (Str × Json)} {s : Str}, Entries fits d fs s →
    ∀ {e : Nat}, d ≤ e → Entries fits e fs s
  | _, _, _, .one ha hk hb hc h he, _, hl => .one ha hk hb hc (value_mono h hl) he
  | _, _, _, .more ha hk hb hc h he ht, _, hl => .more ha hk hb hc (value_mono h hl) he (entries_mono ht hl)
end

mutual
theorem value_nest {fits : Str → Bool} : ∀ {d : Nat} {j : Json} {v : Str}, Value fits d j v → nest j ≤ d
  | _, _, _, .null _ => Nat.zero_le _
  | _, _, _, .true _ => Nat.zero_le _
  | _, _, _, .false _ => Nat.zero_le _
  | _, _, _, .number _ _ => Nat.zero_le _
  | _, _, _, .string _ => Nat.zero_le _
  | _, _, _, .noItems _ => by rw [nest, nestItems]; omega
  | _, _, _, .noEntries _ => by rw [nest, nestEntries]; omega
  | _, _, _, .array h => by rw [nest]; have := items_nest h; omega
  | _, _, _, .object h => by rw [nest]; have := entries_nest h; omega
theorem items_nest {fits : Str → Bool} : ∀ {d : Nat} {xs : List Json} {s : Str}, Items fits d xs s → nestItems xs ≤ d
  | _, _, _, .one _ h _ => by rw [nestItems, nestItems]; have := value_nest h; omega
  | _, _, _, .more _ h _ ht => by rw [nestItems]; have := value_nest h; have := items_nest ht; omega
theorem entries_nest {fits : Str → Bool} : ∀ {d : Nat} {fs : List (Str × Json)} {s : Str}, Entries fits d fs s → nestEntries fs ≤ d
  | _, _, _, .one _ _ _ _ h _ => by rw [nestEntries, nestEntries]; have := value_nest h; omega
  | _, _, _, .more _ _ _ _ h _ ht => by rw [nestEntries]; have := value_nest h; have := entries_nest ht; omega
end

/-- one value, whatever the depth allowed -/
theorem value_unique {fits : Str → Bool} {d e : Nat} {j k : Json} {a b v w r q : Str} (ha : Blank a) (hb : Blank b)
    (h : Value fits d j v) (h' : Value fits e k w) (hr : Stops r ∨ ∀ m, j ≠ .num m) (hq : Stops q ∨ ∀ m, k ≠ .num m)
    (heq : a ++ (v ++ r) = b ++ (w ++ q)) : j = k ∧ r = q := by
  have h1 := value_complete (value_mono h (Nat.le_max_left d e)) (2 * v.length + 2 * w.length) a r ha hr (by omega)
  have h2 := value_complete (value_mono h' (Nat.le_max_right d e)) (2 * v.length + 2 * w.length) b q hb hq (by omega)
  rw [heq, h2] at h1
  cases h1
  exact ⟨rfl, rfl⟩

theorem text_unique {fits : Str → Bool} {j k : Json} {s : Str} (h : Text fits j s) (h' : Text fits k s) : j = k := by
  have h1 := (parse_iff fits s j).2 h
  rw [(parse_iff fits s k).2 h'] at h1
  cases h1; rfl

/-! ## Writing -/

theorem hexDigit_ok : ∀ n < 16, HexDigit (hexDigit n) n := by
  intro n hn
  have : ∀ n < 16, "0123456789abcdef".toList[n]? = some (hexDigit n) := by decide
  exact .inl (this n hn)

theorem escaped_writeChar (c : Char) : Escaped c (writeChar c) := by
  unfold writeChar
  have hc : ∀ n, c.toNat = n → c = Char.ofNat n := fun n h => by rw [← h, Char.ofNat_toNat]
  split
  · rename_i h; subst h; exact .short (by decide)
  split
  · rename_i h; subst h; exact .short (by decide)
  split
  · rename_i h; rw [hc _ h]; exact .short (by decide)
  split
  · rename_i h; rw [hc _ h]; exact .short (by decide)
  split
  · rename_i h; rw [hc _ h]; exact .short (by decide)
  split
  · rename_i h; rw [hc _ h]; exact .short (by decide)
  split
  · rename_i h; rw [hc _ h]; exact .short (by decide)
  split
  · rename_i h
    have h0 : HexDigit '0' 0 := .inl rfl
    have := Escaped.code (Hex4.mk h0 h0 (hexDigit_ok (c.toNat / 16) (by omega)) (hexDigit_ok (c.toNat % 16) (by omega))) (by omega)
    have e : 4096 * 0 + 256 * 0 + 16 * (c.toNat / 16) + c.toNat % 16 = c.toNat := by omega
    rw [e, Char.ofNat_toNat] at this
    exact this
  · rename_i h1 h2 _ _ _ _ _ h3
    exact .plain h1 h2 (by omega)

theorem chars_write : ∀ s : Str, Chars s (s.flatMap writeChar)
  | [] => .nil
  | c :: s => by rw [List.flatMap_cons]; exact .cons (escaped_writeChar c) (chars_write s)

theorem natText_zero_head : ∀ n : Nat, 0 < n → (natText n).head? ≠ some '0' := by
  intro n
  induction n using Nat.strongRecOn with
  | ind n ih =>
    intro hn
    unfold natText at ih ⊢
    rw [Nat.toDigits_eq_if (by decide)]
    split
    · rename_i h
      have : ∀ n < 10, 0 < n → [Nat.digitChar n].head? ≠ some '0' := by decide
      exact this n h hn
    · rename_i h
      have h1 := ih (n / 10) (by omega) (by omega)
      rw [List.head?_append]
      cases hd : (Nat.toDigits 10 (n / 10)).head? with
      | none => exact absurd (List.head?_eq_none_iff.1 hd) Nat.toDigits_ne_nil
      | some x => rw [hd] at h1; exact h1

theorem natText_digits (n : Nat) : Digits (natText n) := by
  refine ⟨Nat.toDigits_ne_nil, fun c hc => ?_⟩
  have h1 : c.isDigit = true := Nat.isDigit_of_mem_toDigits (by decide) (by decide) hc
  simp only [Char.isDigit, Bool.and_eq_true, decide_eq_true_eq] at h1
  have h2 : 48 ≤ c.toNat ∧ c.toNat ≤ 57 := h1
  have key : ∀ n, 48 ≤ n → n ≤ 57 → Char.ofNat n ∈ "0123456789".toList := by
    intro n h1 h2
    have : ∀ k < 10, Char.ofNat (48 + k) ∈ "0123456789".toList := by decide
    have := this (n - 48) (by omega)
    rwa [show 48 + (n - 48) = n by omega] at this
  have := key c.toNat h2.1 h2.2
  rwa [Char.ofNat_toNat] at this

theorem natText_whole (n : Nat) : Whole (natText n) := by
  rcases Nat.eq_zero_or_pos n with rfl | h
  · exact .inl rfl
  · exact .inr ⟨natText_digits n, natText_zero_head n h⟩

theorem natText_val (n : Nat) : digitsVal (natText n) = n := by
  rw [digitsVal_eq]; exact Nat.ofDigitChars_toDigits (by decide) (by decide)

theorem number_write : ∀ n : Int, Number n (writeInt n)
  | .ofNat n => by
      have := Number.plus (natText_whole n) (f := []) (e := []) (.inl rfl) (.inl rfl)
      rw [natText_val, List.append_nil, List.append_nil] at this
      exact this
  | .negSucc n => by
      have := Number.minus (natText_whole (n + 1)) (f := []) (e := []) (.inl rfl) (.inl rfl)
      rw [natText_val, List.append_nil, List.append_nil] at this
      exact this

theorem blank_nil : Blank [] := fun _ h => by cases h

mutual
theorem value_write {fits : Str → Bool} : ∀ j : Json, NumbersAre (fun n => fits (writeInt n) = true) j → Value fits (nest j) j (write j)
  | .null, _ => .null _
  | .bool true, _ => .true _
  | .bool false, _ => .false _
  | .num n, h => .number (number_write n) h
  | .str s, _ => .string (chars_write s)
  | .arr xs, h => by
      rcases items_write xs h with rfl | hi
      · exact .noItems blank_nil
      · exact .array hi
  | .obj fs, h => by
      rcases entries_write fs h with rfl | hi
      · exact .noEntries blank_nil
      · exact .object hi
theorem items_write {fits : Str → Bool} : ∀ xs : List Json, NumbersAreItems (fun n => fits (writeInt n) = true) xs →
    xs = [] ∨ Items fits (nestItems xs) xs (writeItems xs)
  | [], _ => .inl rfl
  | [x], h => .inr <| by
      have hx := value_write x h.1
      have := Items.one blank_nil (value_mono hx (Nat.le_max_left _ (nestItems []))) blank_nil
      rw [List.nil_append, List.append_nil] at this
      exact this
  | x :: y :: ys, h => .inr <| by
      have hx := value_write x h.1
      have ht := (items_write (y :: ys) h.2).resolve_left (by simp)
      have := Items.more blank_nil (value_mono hx (Nat.le_max_left _ (nestItems (y :: ys)))) blank_nil
        (items_mono ht (Nat.le_max_right _ _))
      rw [List.nil_append, List.nil_append] at this
      exact this
theorem entries_write {fits : Str → Bool} : ∀ fs : List (Str × Json), NumbersAreEntries (fun n => fits (writeInt n) = true) fs →
    fs = [] ∨ Entries fits (nestEntries fs) fs (writeEntries fs)
  | [], _ => .inl rfl
  | [(k, x)], h => .inr <| by
      have hx := value_write x h.1
      have := Entries.one blank_nil (chars_write k) blank_nil blank_nil
        (value_mono hx (Nat.le_max_left _ (nestEntries []))) blank_nil
      rw [List.nil_append, List.nil_append, List.nil_append, List.append_nil] at this
      have e : writeEntries [(k, x)] = '"' :: (k.flatMap writeChar ++ '"' :: (':' :: write x)) := by
        rw [writeEntries, writeStr]; simp
      rw [e]; exact this
  | (k, x) :: (l, y) :: fs, h => .inr <| by
      have hx := value_write x h.1
      have ht := (entries_write ((l, y) :: fs) h.2).resolve_left (by simp)
      have := Entries.more blank_nil (chars_write k) blank_nil blank_nil
        (value_mono hx (Nat.le_max_left _ (nestEntries ((l, y) :: fs)))) blank_nil
        (entries_mono ht (Nat.le_max_right _ _))
      rw [List.nil_append, List.nil_append, List.nil_append, List.nil_append] at this
      have e : writeEntries ((k, x) :: (l, y) :: fs) =
          '"' :: (k.flatMap writeChar ++ '"' :: (':' :: (write x ++ ',' :: writeEntries ((l, y) :: fs)))) := by
        rw [writeEntries, writeStr]; simp
      rw [e]; exact this
end

end Ethabi.JsonText

import Verif.Proofs.TokenizeTypes
import Verif.Proofs.Bytes
/-! Numerals accepted by the tokenizers. -/
namespace Ethabi
open Spec

/-! ### digits -/

theorem char_eq_of_lt {c : Char} (h : c.toNat < 128) : ∃ n : Fin 128, c = Char.ofNat n.1 :=
  ⟨⟨c.toNat, h⟩, (Char.ofNat_toNat c).symm⟩

theorem idxOf?_none {l : List Char} {c : Char} (hl : ∀ x ∈ l, x.toNat < 128) (hc : ¬ c.toNat < 128) :
    l.idxOf? c = none := by
  rw [List.idxOf?_eq_none_iff]
  intro h
  exact hc (hl c h)

theorem hexVal_eq (c : Char) : hexVal c = hexDigitAny c := by
  by_cases h : c.toNat < 128
  · obtain ⟨n, rfl⟩ := char_eq_of_lt h
    revert n; decide +kernel
  · have h1 : hexVal c = none := by
      unfold hexVal; simp only []
      rw [if_neg (by omega), if_neg (by omega), if_neg (by omega)]
    rw [h1, hexDigitAny, idxOf?_none (by decide) h, idxOf?_none (by decide) h]

theorem decDigit_eq (c : Char) : decDigit c = if isDigit c then some (c.toNat - '0'.toNat) else none := by
  by_cases h : c.toNat < 128
  · obtain ⟨n, rfl⟩ := char_eq_of_lt h
    revert n; decide +kernel
  · have h1 : isDigit c = false := by
      have : '9'.toNat = 57 := rfl
      simp only [isDigit, this, Bool.and_eq_false_iff, decide_eq_false_iff_not]
      omega
    rw [decDigit, idxOf?_none (by decide) h, h1]; rfl

theorem hexVal_lt {c : Char} {n : Nat} (h : hexVal c = some n) : n < 16 := by
  unfold hexVal at h; simp only [] at h
  split at h
  · have := Option.some.inj h; omega
  · split at h
    · have := Option.some.inj h; omega
    · split at h
      · have := Option.some.inj h; omega
      · cases h

/-! ### hexadecimal -/

theorem beNat_cons (x : UInt8) (b : Bytes) : beNat (x :: b) = x.toNat * 256 ^ b.length + beNat b := by
  have := beNat_append [x] b
  simpa [beNat] using this

theorem hexDecode_of_hexadecimal : ∀ (s : Str) (k v : Nat), hexadecimal s = some v → s.length = 2 * k →
    ∃ b, hexDecode s = .ok b ∧ b.length = k ∧ beNat b = v
  | [], k, v, h, hk => by
      simp only [hexadecimal, numeral, Option.some.injEq] at h
      simp at hk
      exact ⟨[], rfl, hk.symm, h⟩
  | [_], k, v, h, hk => by simp at hk; omega
  | a :: c :: s, k, v, h, hk => by
      have hk' : s.length = 2 * (k - 1) := by simp at hk; omega
      simp only [hexadecimal, numeral] at h
      cases ha : hexDigitAny a with
      | none => simp [ha] at h
      | some x =>
        cases hc : hexDigitAny c with
        | none => simp [ha, hc] at h
        | some y =>
          cases hs : numeral 16 hexDigitAny s with
          | none => simp [ha, hc, hs] at h
          | some w =>
            simp only [ha, hc, hs, Option.some.injEq] at h
            obtain ⟨b, h1, h2, h3⟩ := hexDecode_of_hexadecimal s (k - 1) w hs hk'
            rw [← hexVal_eq] at ha hc
            have hx := hexVal_lt ha
            have hy := hexVal_lt hc
            refine ⟨UInt8.ofNat (x * 16 + y) :: b, ?_, by simp [h2] ; simp at hk; omega, ?_⟩
            · rw [hexDecode, ha, hc, h1]; rfl
            · rw [beNat_cons, h3, ← h]
              have : (UInt8.ofNat (x * 16 + y)).toNat = x * 16 + y := by
                rw [UInt8.toNat_ofNat']; exact Nat.mod_eq_of_lt (by omega)
              rw [this, h2, List.length_cons, hk']
              have e : (256 : Nat) ^ (k - 1) = 16 ^ (2 * (k - 1)) := by rw [Nat.pow_mul]
              rw [e, Nat.pow_succ, Nat.add_mul, Nat.mul_assoc x 16, Nat.mul_comm 16]
              omega

theorem hexadecimal_of_hexDecode : ∀ (s : Str) (b : Bytes), hexDecode s = .ok b →
    (hexadecimal s).isSome = true ∧ s.length = 2 * b.length
  | [], b, h => by rw [hexDecode] at h; rw [← Res.ok.inj h]; exact ⟨rfl, rfl⟩
  | [_], _, h => by cases h
  | a :: c :: s, b, h => by
      rw [hexDecode] at h
      split at h
      · rename_i x y hx hy
        obtain ⟨r, hr, h⟩ := Res.bind_eq_ok.1 h
        obtain ⟨h1, h2⟩ := hexadecimal_of_hexDecode s r hr
        rw [← Res.ok.inj h]
        refine ⟨?_, by simp [h2]; omega⟩
        obtain ⟨v, hv⟩ := Option.isSome_iff_exists.1 h1
        have hv : numeral 16 hexDigitAny s = some v := hv
        rw [hexVal_eq] at hx hy
        simp [hexadecimal, numeral, hx, hy, hv]
      · cases h

theorem strictUint_hex {s : Str} {v : Nat} (hl : s.length = 64) (hv : hexadecimal s = some v) :
    ∃ w, strictUint s = .ok w ∧ beNat w.1 = v := by
  obtain ⟨b, h1, h2, h3⟩ := hexDecode_of_hexadecimal s 32 v hv hl
  refine ⟨⟨b, h2⟩, ?_, h3⟩
  rw [strictUint, h1, Res.ok_bind, dif_pos h2]

theorem strictUint_not_hex {s : Str} (h : isFullHex s = false) : ∃ e, strictUint s = .err e := by
  cases hs : strictUint s with
  | err e => exact ⟨e, rfl⟩
  | panic => exact absurd hs (strictUint_noPanic s)
  | ok w =>
    rw [strictUint] at hs
    obtain ⟨b, hb, hs⟩ := Res.bind_eq_ok.1 hs
    split at hs
    · rename_i hl
      obtain ⟨h1, h2⟩ := hexadecimal_of_hexDecode s b hb
      rw [hl] at h2
      simp [isFullHex, h1, h2] at h
    · cases hs

/-! ### decimal -/

theorem digitsFold (s : Str) (acc : Nat) :
    s.foldl (fun acc c => acc * 10 + (c.toNat - '0'.toNat)) acc = acc * 10 ^ s.length + digitsVal s := by
  induction s generalizing acc with
  | nil => simp [digitsVal]
  | cons c s ih =>
    rw [digitsVal, List.foldl_cons, List.foldl_cons, ih, ih, List.length_cons, Nat.pow_succ, Nat.add_mul, Nat.add_mul,
      Nat.zero_mul, Nat.mul_assoc, Nat.mul_comm 10]
    omega

theorem digitsVal_cons (c : Char) (s : Str) :
    digitsVal (c :: s) = (c.toNat - '0'.toNat) * 10 ^ s.length + digitsVal s := by
  rw [digitsVal, List.foldl_cons, digitsFold, Nat.zero_mul, Nat.zero_add]

theorem decimal_eq (s : Str) : decimal s = if s.all isDigit then some (digitsVal s) else none := by
  induction s with
  | nil => rfl
  | cons c s ih =>
    rw [decimal] at ih
    rw [decimal, numeral, ih, decDigit_eq, digitsVal_cons, List.all_cons]
    by_cases h1 : isDigit c = true
    · by_cases h2 : s.all isDigit = true
      · rw [if_pos h1, if_pos h2, if_pos (by rw [h1, h2]; rfl)]
      · rw [if_pos h1, if_neg h2, if_neg (by rw [h1]; simpa using h2)]
    · have h1' : isDigit c = false := by simpa using h1
      rw [h1', Bool.false_and]; rfl

theorem decLoop_eq (s : Str) (acc : Nat) (ha : acc < 2 ^ 256) :
    decLoop s acc = if acc * 10 ^ s.length + digitsVal s < 2 ^ 256 then .ok (acc * 10 ^ s.length + digitsVal s)
      else .err .other := by
  induction s generalizing acc with
  | nil => simp only [decLoop, List.length_nil, Nat.pow_zero, Nat.mul_one, digitsVal, List.foldl_nil, Nat.add_zero, if_pos ha]
  | cons c s ih =>
    rw [decLoop]
    have e : (acc * 10 + (c.toNat - '0'.toNat)) * 10 ^ s.length + digitsVal s =
        acc * 10 ^ (c :: s).length + digitsVal (c :: s) := by
      rw [digitsVal_cons, List.length_cons, Nat.pow_succ, Nat.add_mul, Nat.mul_assoc, Nat.mul_comm 10]; omega
    by_cases h : acc * 10 + (c.toNat - '0'.toNat) < 2 ^ 256
    · rw [if_pos h, ih _ h, e]
    · rw [if_neg h, ← e, if_neg]
      have : 1 ≤ 10 ^ s.length := Nat.one_le_pow _ _ (by decide)
      have := Nat.mul_le_mul_left (acc * 10 + (c.toNat - '0'.toNat)) this
      omega

theorem fromDecStr_eq (s : Str) : fromDecStr s = match decimal s with
    | some v => if v < 2 ^ 256 then .ok (BitVec.ofNat 256 v) else .err .other
    | none => .err .other := by
  rw [fromDecStr, decimal_eq]
  by_cases h : s.all isDigit = true
  · rw [if_pos h, if_pos h, decLoop_eq s 0 (by decide), Nat.zero_mul, Nat.zero_add]
    simp only []
    by_cases h2 : digitsVal s < 2 ^ 256
    · rw [if_pos h2, if_pos h2]; rfl
    · rw [if_neg h2, if_neg h2]; rfl
  · rw [if_neg h, if_neg h]

theorem ofWord_toWord (v : U256) : U256.ofWord (U256.toWord v) = v := by
  rw [U256.ofWord, U256.toWord, beNat_beBytes]
  have : v.toNat < 256 ^ 32 := v.isLt
  rw [Nat.mod_eq_of_lt this, BitVec.ofNat_toNat, BitVec.setWidth_eq]

theorem int256Max_toNat : int256Max.toNat = 2 ^ 255 - 1 := by decide +kernel

theorem int256Max_succ_toNat : (int256Max + 1#256).toNat = 2 ^ 255 := by decide +kernel

/-- every case of `LenientTokenizer::tokenize_uint` -/
theorem tokenize_lenient_uint (bits : Nat) (s : Str) (h : isFullHex s = false) :
    tokenize .lenient (.uint bits) s = match decimal s with
      | some v => if v < 2 ^ 256 then .ok (.uint (BitVec.ofNat 256 v)) else .err .other
      | none => .err .other := by
  obtain ⟨e, he⟩ := strictUint_not_hex h
  rw [tokenize, tokenizeUint, lenientUint, he]
  simp only [fromDecStr_eq]
  cases decimal s with
  | none => rfl
  | some v =>
    simp only []
    by_cases hv : v < 2 ^ 256
    · rw [if_pos hv, if_pos hv]; simp only [Res.ok_bind, Res.map_ok, ofWord_toWord]
    · rw [if_neg hv, if_neg hv]; rfl

theorem tokenize_hex_uint (m : Tokenizer) (bits : Nat) (s : Str) (v : Nat) (hl : s.length = 64)
    (hv : hexadecimal s = some v) : tokenize m (.uint bits) s = .ok (.uint (BitVec.ofNat 256 v)) := by
  obtain ⟨w, hw, hv⟩ := strictUint_hex hl hv
  have : tokenizeUint m s = .ok w := by
    cases m
    · exact hw
    · exact lenientUint_of_strict hw
  rw [tokenize, this, Res.map_ok, U256.ofWord, hv]

theorem tokenize_hex_int (m : Tokenizer) (bits : Nat) (s : Str) (v : Nat) (hl : s.length = 64)
    (hv : hexadecimal s = some v) : tokenize m (.int bits) s = .ok (.int (BitVec.ofNat 256 v)) := by
  obtain ⟨w, hw, hv⟩ := strictUint_hex hl hv
  have : tokenizeInt m s = .ok w := by
    cases m
    · exact hw
    · exact lenientInt_of_strict hw
  rw [tokenize, this, Res.map_ok, U256.ofWord, hv]

theorem startsWith_minus (c : Char) (s : Str) : startsWith (lit "-") (c :: s) = decide (c = '-') := by
  have : lit "-" = ['-'] := by decide
  rw [this, startsWith]
  by_cases h : c = '-'
  · subst h; rfl
  · simp only [List.isPrefixOf, Bool.and_true, h, decide_false, beq_eq_false_iff_ne]
    exact fun e => h e.symm

theorem dropWhile_minus {s : Str} (h : startsWith (lit "-") s = false) : s.dropWhile (· == '-') = s := by
  cases s with
  | nil => rfl
  | cons c s =>
    have : (c == '-') = false := by
      rw [beq_eq_false_iff_ne]
      rintro rfl
      exact absurd h (by rw [startsWith_minus]; decide)
    rw [List.dropWhile_cons, this]; rfl

/-- every case of `LenientTokenizer::tokenize_int` -/
theorem tokenize_lenient_int (bits : Nat) (s : Str) (h : isFullHex s = false) :
    tokenize .lenient (.int bits) s = match signedDecimal s with
      | some z => if -2 ^ 255 ≤ z ∧ z < 2 ^ 255 then .ok (.int (BitVec.ofInt 256 z)) else .err .other
      | none => .err .other := by
  obtain ⟨e, he⟩ := strictUint_not_hex h
  have he : strictInt s = .err e := he
  rw [tokenize, tokenizeInt, lenientInt, he]
  simp only []
  by_cases hm : startsWith (lit "-") s = true
  · obtain ⟨r, rfl⟩ : ∃ r, s = '-' :: r := by
      cases s with
      | nil => cases hm
      | cons c s =>
        rw [startsWith_minus, decide_eq_true_iff] at hm
        exact ⟨s, by rw [hm]⟩
    rw [signedDecimal, fromDecStr_eq]
    cases decimal (('-' :: r).dropWhile (· == '-')) with
    | none => rfl
    | some v =>
      simp only [Int.ofNat_eq_natCast]
      by_cases hv : v < 2 ^ 256
      · rw [if_pos hv, Res.ok_bind, if_pos hm]
        have ht : (BitVec.ofNat 256 v).toNat = v := by rw [BitVec.toNat_ofNat, Nat.mod_eq_of_lt hv]
        by_cases h0 : v = 0
        · subst h0
          rw [if_pos rfl, if_pos (by omega), Res.map_ok, ofWord_toWord]
          rfl
        · have hne : BitVec.ofNat 256 v ≠ 0#256 := by
            intro e
            have := congrArg BitVec.toNat e
            rw [ht] at this
            exact h0 this
          rw [if_neg hne]
          have hgt : (BitVec.ofNat 256 v > int256Max + 1#256) ↔ v > 2 ^ 255 := by
            rw [gt_iff_lt, BitVec.lt_def, ht, int256Max_succ_toNat]
          by_cases hb : v > 2 ^ 255
          · rw [if_pos (hgt.2 hb), if_neg (by omega)]; rfl
          · rw [if_neg (fun e => hb (hgt.1 e)), if_pos (by omega), Res.map_ok, ofWord_toWord]
            rw [← BitVec.neg_eq_not_add]
            congr 2
            rw [BitVec.ofInt_neg, BitVec.ofInt_natCast]
      · rw [if_neg hv, if_neg (by omega)]; rfl
  · have hm' : startsWith (lit "-") s = false := by simpa using hm
    rw [dropWhile_minus hm', fromDecStr_eq]
    have hs : signedDecimal s = (match decimal s with | some n => some (Int.ofNat n) | none => none) := by
      unfold signedDecimal
      split
      · exact absurd hm' (by rw [startsWith_minus]; decide)
      · rfl
    rw [hs]
    cases decimal s with
    | none => rfl
    | some v =>
      simp only [Int.ofNat_eq_natCast]
      by_cases hv : v < 2 ^ 256
      · rw [if_pos hv, Res.ok_bind, if_neg hm]
        have ht : (BitVec.ofNat 256 v).toNat = v := by rw [BitVec.toNat_ofNat, Nat.mod_eq_of_lt hv]
        have hgt : (BitVec.ofNat 256 v > int256Max) ↔ v > 2 ^ 255 - 1 := by
          rw [gt_iff_lt, BitVec.lt_def, ht, int256Max_toNat]
        by_cases hb : v > 2 ^ 255 - 1
        · rw [if_pos (hgt.2 hb), if_neg (by omega)]; rfl
        · rw [if_neg (fun e => hb (hgt.1 e)), if_pos (by omega), Res.map_ok, ofWord_toWord, BitVec.ofInt_natCast]
      · rw [if_neg hv, if_neg (by omega)]; rfl

/-! ### decimal text of numbers -/

theorem decimal_text (n : Nat) : decimal (toString n).toList = some n := by
  have e : (toString n).toList = natText n := Nat.toList_repr
  rw [e, decimal_eq]
  have h2 : (natText n).all isDigit = true := by
    rw [List.all_eq_true]
    intro c hc
    rw [isDigit_eq]
    exact Nat.isDigit_of_mem_toDigits (by decide) (by decide) hc
  have h3 : digitsVal (natText n) = n := by rw [digitsVal_eq]; exact Nat.ofDigitChars_ten_toDigits
  rw [if_pos h2, h3]

theorem text_length (n : Nat) : (toString n).toList.length = 64 ↔ 10 ^ 63 ≤ n ∧ n < 10 ^ 64 := by
  have e : (toString n).toList = Nat.toDigits 10 n := Nat.toList_repr
  rw [e]
  have h1 := Nat.length_toDigits_le_iff (b := 10) (n := n) (k := 63) (by decide) (by decide)
  have h2 := Nat.length_toDigits_le_iff (b := 10) (n := n) (k := 64) (by decide) (by decide)
  omega

theorem text_not_full {n : Nat} (h : ¬ (10 ^ 63 ≤ n ∧ n < 10 ^ 64)) : isFullHex (toString n).toList = false := by
  have : (toString n).toList.length ≠ 64 := fun e => h ((text_length n).1 e)
  rw [isFullHex, beq_eq_false_iff_ne.2 this, Bool.false_and]

theorem minus_not_full (s : Str) : isFullHex ('-' :: s) = false := by
  have : hexDigitAny '-' = none := by decide
  simp [isFullHex, hexadecimal, numeral, this]

end Ethabi

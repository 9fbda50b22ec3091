import Verif.Proofs.DisplayNumbers
/-!
# Property C68: integers shown as text
-/
namespace Ethabi.Props
open Ethabi Spec

theorem strict_not_full {bits : Nat} {s : Str} (h : isFullHex s = false) :
    (∃ e, tokenize .strict (.uint bits) s = .err e) ∧ ∃ e, tokenize .strict (.int bits) s = .err e := by
  obtain ⟨e, he⟩ := strictUint_not_hex h
  have he2 : strictInt s = .err e := he
  exact ⟨⟨e, by rw [tokenize, tokenizeUint, he]; rfl⟩, ⟨e, by rw [tokenize, tokenizeInt, he2]; rfl⟩⟩

/-- **C68, both tokenizers.** An integer of 2^252 or more is displayed with 64 digits and read back. -/
theorem C68_large (m : Tokenizer) (bits : Nat) (v : U256) (h : 2 ^ 252 ≤ v.toNat) :
    tokenize m (.uint bits) (Token.uint v).display = .ok (.uint v) ∧
      tokenize m (.int bits) (Token.int v).display = .ok (.int v) := by
  have hl := (length_hexNat v.toNat v.isLt).2 (by have : (16 : Nat) ^ 63 = 2 ^ 252 := by norm_num
                                                  omega)
  have h1 := tokenize_hex_uint m bits _ _ hl (hexadecimal_text v.toNat)
  have h2 := tokenize_hex_int m bits _ _ hl (hexadecimal_text v.toNat)
  rw [BitVec.ofNat_toNat] at h1 h2
  simpa [Token.display] using And.intro h1 h2

/-- **C68, strict.** The strict tokenizer reads a displayed integer as the same integer or rejects it; it rejects exactly the
integers below 2^252. -/
theorem C68_strict (bits : Nat) (v : U256) :
    (v.toNat < 2 ^ 252 → (∃ e, tokenize .strict (.uint bits) (Token.uint v).display = .err e) ∧
      ∃ e, tokenize .strict (.int bits) (Token.int v).display = .err e) ∧
    (∀ t, tokenize .strict (.uint bits) (Token.uint v).display = .ok t → t = .uint v) ∧
    ∀ t, tokenize .strict (.int bits) (Token.int v).display = .ok t → t = .int v := by
  have h16 : (16 : Nat) ^ 63 = 2 ^ 252 := by norm_num
  have hsmall : v.toNat < 2 ^ 252 → (∃ e, tokenize .strict (.uint bits) (Token.uint v).display = .err e) ∧
      ∃ e, tokenize .strict (.int bits) (Token.int v).display = .err e := fun h =>
    strict_not_full (hexNat_not_full v.isLt (by omega))
  refine ⟨hsmall, ?_, ?_⟩
  · intro t ht
    by_cases h : v.toNat < 2 ^ 252
    · obtain ⟨⟨e, he⟩, -⟩ := hsmall h
      rw [he] at ht; cases ht
    · rw [(C68_large .strict bits v (by omega)).1] at ht
      cases ht; rfl
  · intro t ht
    by_cases h : v.toNat < 2 ^ 252
    · obtain ⟨-, ⟨e, he⟩⟩ := hsmall h
      rw [he] at ht; cases ht
    · rw [(C68_large .strict bits v (by omega)).2] at ht
      cases ht; rfl

/-- **C68, lenient, partial.** The lenient tokenizer reads a displayed integer back exactly if it is below 10 or at least 2^252.
Missing: the integers between, which are rejected or read as a smaller integer (`C68_lenient_misread`). -/
theorem C68_lenient_partial (bits : Nat) (v : U256) :
    (tokenize .lenient (.uint bits) (Token.uint v).display = .ok (.uint v) ↔ v.toNat < 10 ∨ 2 ^ 252 ≤ v.toNat) ∧
      (tokenize .lenient (.int bits) (Token.int v).display = .ok (.int v) ↔ v.toNat < 10 ∨ 2 ^ 252 ≤ v.toNat) := by
  by_cases hb : 2 ^ 252 ≤ v.toNat
  · obtain ⟨h1, h2⟩ := C68_large .lenient bits v hb
    exact ⟨⟨fun _ => .inr hb, fun _ => h1⟩, ⟨fun _ => .inr hb, fun _ => h2⟩⟩
  have h16 : (16 : Nat) ^ 63 = 2 ^ 252 := by norm_num
  have hnf := hexNat_not_full v.isLt (by omega)
  have e1 : (Token.uint v).display = hexNat v.toNat := by simp [Token.display]
  have e2 : (Token.int v).display = hexNat v.toNat := by simp [Token.display]
  have key : (v.toNat < 10 ∨ 2 ^ 252 ≤ v.toNat) ↔ decimal (hexNat v.toNat) = some v.toNat := by
    rw [decimal_hexText_iff]; omega
  rw [key, e1, e2, tokenize_lenient_uint bits _ hnf, tokenize_lenient_int bits _ hnf, signedDecimal_hexText]
  cases hx : decimal (hexNat v.toNat) with
  | none => simp
  | some d =>
    have hd := decimal_hexText v.toNat d hx
    have hlt : d < 2 ^ 255 := by omega
    have hi : -2 ^ 255 ≤ Int.ofNat d ∧ Int.ofNat d < 2 ^ 255 := by simp only [Int.ofNat_eq_natCast]; omega
    simp only [Option.map_some, if_pos hi, if_pos (show d < 2 ^ 256 by omega), Res.ok.injEq, Token.uint.injEq, Token.int.injEq,
      Option.some.injEq]
    have e3 : BitVec.ofInt 256 (Int.ofNat d) = BitVec.ofNat 256 d := rfl
    rw [e3]
    have : BitVec.ofNat 256 d = v ↔ d = v.toNat := by
      constructor
      · intro h
        have := congrArg BitVec.toNat h
        rwa [BitVec.toNat_ofNat, Nat.mod_eq_of_lt (by omega)] at this
      · rintro rfl; exact BitVec.ofNat_toNat 256 v
    exact ⟨this, this⟩

/-- A displayed integer between 10 and 2^252 is either rejected or read as a smaller one. -/
theorem C68_lenient_misread (bits : Nat) (v : U256) (h1 : 10 ≤ v.toNat) (h2 : v.toNat < 2 ^ 252) :
    ((∃ e, tokenize .lenient (.uint bits) (Token.uint v).display = .err e) ∨
      ∃ w : U256, tokenize .lenient (.uint bits) (Token.uint v).display = .ok (.uint w) ∧ w.toNat < v.toNat) ∧
    ((∃ e, tokenize .lenient (.int bits) (Token.int v).display = .err e) ∨
      ∃ w : U256, tokenize .lenient (.int bits) (Token.int v).display = .ok (.int w) ∧ w.toNat < v.toNat) := by
  have h16 : (16 : Nat) ^ 63 = 2 ^ 252 := by norm_num
  have hf := hexNat_not_full v.isLt (by omega)
  have hd : (Token.uint v).display = hexNat v.toNat := by simp [Token.display]
  have hd' : (Token.int v).display = hexNat v.toNat := by simp [Token.display]
  rw [hd, hd', tokenize_lenient_uint bits _ hf, tokenize_lenient_int bits _ hf, signedDecimal_hexText]
  cases hx : decimal (hexNat v.toNat) with
  | none => exact ⟨.inl ⟨_, rfl⟩, .inl ⟨_, rfl⟩⟩
  | some d =>
    have := decimal_hexText v.toNat d hx
    have hi : -2 ^ 255 ≤ Int.ofNat d ∧ Int.ofNat d < 2 ^ 255 := by simp only [Int.ofNat_eq_natCast]; omega
    have e3 : BitVec.ofInt 256 (Int.ofNat d) = BitVec.ofNat 256 d := rfl
    have e4 : (BitVec.ofNat 256 d).toNat < v.toNat := by rw [BitVec.toNat_ofNat, Nat.mod_eq_of_lt (by omega)]; omega
    refine ⟨.inr ⟨BitVec.ofNat 256 d, by simp only [if_pos (show d < 2 ^ 256 by omega)], e4⟩, .inr ⟨BitVec.ofNat 256 d, ?_, e4⟩⟩
    simp only [Option.map_some, if_pos hi, e3]

/-- 16 is displayed as `10` and read as ten -/
theorem C68_counterexample : (Token.uint 16).display = lit "10" ∧
    tokenize .lenient (.uint 256) (Token.uint 16).display = .ok (.uint 10) ∧
    tokenize .lenient (.int 256) (Token.int 16).display = .ok (.int 10) ∧
    (∃ e, tokenize .lenient (.uint 256) (Token.uint 10).display = .err e) := by
  refine ⟨by decide +kernel, by decide +kernel, by decide +kernel, .other, by decide +kernel⟩

end Ethabi.Props

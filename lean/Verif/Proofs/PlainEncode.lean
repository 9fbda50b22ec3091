import Verif.Proofs.Plain
/-! Lemmas for C121: encoding plain values. -/
namespace Ethabi.Plain
open Ethabi.Spec

theorem toWord_number (w : Word) : U256.toWord (BitVec.ofNat 256 (number w.1)) = w := by
  apply Subtype.ext
  rw [toWord_val, number_eq]
  exact word_ofWord w

theorem address_plain (a : Address) : U256.toWord (BitVec.ofNat 256 (number a.1)) = padAddress a := by
  rw [← toWord_number (padAddress a)]
  congr 2

theorem bool_plain (b : Bool) : U256.toWord (if b then 1 else 0) = padBool b := by
  apply Subtype.ext
  rw [toWord_val, padBool_val]
  cases b <;> rfl

theorem fixed_plain (b : Bytes) (h : b.length = 32) : padFixedBytes b = [U256.toWord (BitVec.ofNat 256 (number b))] := by
  have := toWord_number ⟨b, h⟩
  simp only at this
  rw [this]
  simp [padFixedBytes, padChunk, h, List.range_succ]
  rw [List.take_take, List.take_of_length_le (by omega)]

mutual
theorem dynamic_plainValue : ∀ v : Token, (plainValue v).isDynamic = v.isDynamic
  | .address _ | .int _ | .uint _ | .bool _ | .bytes _ | .string _ | .array _ => rfl
  | .fixedBytes b => by rw [plainValue]; split <;> rfl
  | .fixedArray vs => by rw [plainValue, Token.isDynamic, Token.isDynamic]; exact anyDynamic_plainValues vs
  | .tuple vs => by rw [plainValue, Token.isDynamic, Token.isDynamic]; exact anyDynamic_plainValues vs
theorem anyDynamic_plainValues : ∀ vs : List Token, Token.anyDynamic (plainValues vs) = Token.anyDynamic vs
  | [] => rfl
  | v :: vs => by rw [plainValues, Token.anyDynamic, Token.anyDynamic, dynamic_plainValue v, anyDynamic_plainValues vs]
end

mutual
theorem encodeToken_plain (prof : Profile) : ∀ v : Token, encodeToken prof (plainValue v) = encodeToken prof v
  | .address a => by rw [plainValue, encodeToken, encodeToken, address_plain]
  | .int _ => by rw [plainValue, encodeToken, encodeToken]
  | .uint _ => by rw [plainValue]
  | .bool b => by rw [plainValue, encodeToken, encodeToken, bool_plain]
  | .fixedBytes b => by
    rw [plainValue]
    split
    · rename_i h
      rw [encodeToken, encodeToken, fixed_plain b h]
    · rfl
  | .bytes _ => by rw [plainValue]
  | .string s => by rw [plainValue, encodeToken, encodeToken, utf8_eq_core]
  | .array vs => by rw [plainValue, encodeToken, encodeToken, encodeTokens_plain prof vs]
  | .fixedArray vs => by rw [plainValue, encodeToken, encodeToken, encodeTokens_plain prof vs, anyDynamic_plainValues]
  | .tuple vs => by rw [plainValue, encodeToken, encodeToken, encodeTokens_plain prof vs, anyDynamic_plainValues]
theorem encodeTokens_plain (prof : Profile) : ∀ vs : List Token, encodeTokens prof (plainValues vs) = encodeTokens prof vs
  | [] => rfl
  | v :: vs => by rw [plainValues, encodeTokens, encodeTokens, encodeToken_plain prof v, encodeTokens_plain prof vs]
end

theorem word_number {b : Bytes} (h : b.length = 32) : word (BitVec.ofNat 256 (number b)).toNat = b := by
  have := congrArg Subtype.val (toWord_number ⟨b, h⟩)
  rwa [toWord_val] at this

theorem address_back (a : Address) : lastTwenty (BitVec.ofNat 256 (number a.1)) = a := by
  apply Subtype.ext
  have := congrArg Subtype.val (address_plain a)
  rw [toWord_val] at this
  simp only [lastTwenty, this, padAddress]
  simp

mutual
theorem readAs_plain : ∀ (v : Token) (t : ParamType), hasType v t = true → readAs t (plainValue v) = some v
  | .address a, t, h => by cases t <;> simp_all [hasType, plainValue, readAs, address_back]
  | .int _, t, h => by cases t <;> simp_all [hasType, plainValue, readAs]
  | .uint _, t, h => by cases t <;> simp_all [hasType, plainValue, readAs]
  | .bool b, t, h => by
    cases t <;> simp_all [hasType]
    cases b <;> simp [plainValue, readAs]
  | .fixedBytes b, t, h => by
    cases t <;> simp_all [hasType]
    rw [plainValue]
    split
    · rename_i h; rw [readAs, word_number h]
    · rw [readAs]
  | .bytes _, t, h => by cases t <;> simp_all [hasType, plainValue, readAs]
  | .string s, t, h => by
    cases t <;> simp_all [hasType]
    rw [plainValue, readAs, ← utf8_eq_core, lossy_utf8]
  | .array vs, t, h => by
    cases t <;> simp [hasType] at h
    rw [plainValue, readAs, allOf_plain vs _ h]; rfl
  | .fixedArray vs, t, h => by
    cases t <;> simp [hasType] at h
    rw [plainValue, readAs, allOf_plain vs _ h.2]; rfl
  | .tuple vs, t, h => by
    cases t <;> simp [hasType] at h
    rw [plainValue, readAs, readAll_plain vs _ h]; rfl
theorem allOf_plain : ∀ (vs : List Token) (t : ParamType), allHaveType vs t = true → allOf (readAs t) (plainValues vs) = some vs
  | [], _, _ => rfl
  | v :: vs, t, h => by
    simp only [allHaveType, Bool.and_eq_true] at h
    rw [plainValues, allOf_some (readAs_plain v t h.1) (allOf_plain vs t h.2)]
theorem readAll_plain : ∀ (vs : List Token) (ts : List ParamType), haveTypes vs ts = true → readAll ts (plainValues vs) = some vs
  | [], [], _ => by rw [plainValues, readAll]
  | [], _ :: _, h => by simp [haveTypes] at h
  | _ :: _, [], h => by simp [haveTypes] at h
  | v :: vs, t :: ts, h => by
    simp only [haveTypes, Bool.and_eq_true] at h
    rw [plainValues, readAll, readAs_plain v t h.1, readAll_plain vs ts h.2]
end

end Ethabi.Plain

import Verif.Proofs.DecodeWidth
/-! Type checking and short fixed bytes. -/
namespace Ethabi
open Spec

/-! ### `Token::types_check` -/

mutual
theorem typeCheck_eq : ∀ (tok : Token) (t : ParamType), arityMatch tok t = true →
    Token.typeCheck tok t = .ok (valueOf tok t)
  | .address _, t, _ => by cases t <;> simp [Token.typeCheck, valueOf] <;> decide
  | .bytes _, t, _ => by cases t <;> simp [Token.typeCheck, valueOf] <;> decide
  | .int _, t, _ => by cases t <;> simp [Token.typeCheck, valueOf]
  | .uint _, t, _ => by cases t <;> simp [Token.typeCheck, valueOf]
  | .bool _, t, _ => by cases t <;> simp [Token.typeCheck, valueOf] <;> decide
  | .string _, t, _ => by cases t <;> simp [Token.typeCheck, valueOf] <;> decide
  | .fixedBytes _, t, _ => by cases t <;> simp [Token.typeCheck, valueOf]
  | .array ts, t, h => by
      cases t <;> simp only [Token.typeCheck, valueOf]
      simp only [arityMatch] at h
      exact allCheck_eq ts _ h
  | .fixedArray ts, t, h => by
      cases t <;> simp only [Token.typeCheck, valueOf]
      simp only [arityMatch] at h
      rw [allCheck_eq ts _ h]
      rename_i t n
      by_cases hn : n = ts.length
      · subst hn; simp
      · have h1 : (n == ts.length) = false := by simpa using hn
        have h2 : (ts.length == n) = false := by simpa using (Ne.symm hn)
        simp [h1, h2]
  | .tuple ts, t, h => by
      cases t <;> simp only [Token.typeCheck, valueOf]
      simp only [arityMatch] at h
      exact tupleCheck_eq ts _ h
theorem allCheck_eq : ∀ (toks : List Token) (t : ParamType), arityMatchAll toks t = true →
    Token.allCheck toks t = .ok (valueOfAll toks t)
  | [], _, _ => rfl
  | tok :: toks, t, h => by
      simp only [arityMatchAll, Bool.and_eq_true] at h
      simp only [Token.allCheck, valueOfAll]
      rw [typeCheck_eq tok t h.1, Res.ok_bind, allCheck_eq toks t h.2]
      cases valueOf tok t <;> simp
theorem tupleCheck_eq : ∀ (toks : List Token) (ts : List ParamType), arityMatches toks ts = true →
    Token.tupleCheck toks ts = .ok (valuesOf toks ts)
  | [], [], _ => rfl
  | [], _ :: _, h => by simp [arityMatches] at h
  | _ :: _, [], h => by simp [arityMatches] at h
  | tok :: toks, t :: ts, h => by
      simp only [arityMatches, Bool.and_eq_true] at h
      simp only [Token.tupleCheck, valuesOf]
      rw [typeCheck_eq tok t h.1, Res.ok_bind, tupleCheck_eq toks ts h.2]
      cases valueOf tok t <;> simp
end

theorem zipCheck_eq : ∀ (ts : List ParamType) (toks : List Token), arityMatchZip toks ts = true →
    ts.length = toks.length → Token.zipCheck ts toks = .ok (valuesOf toks ts)
  | [], [], _, _ => rfl
  | [], _ :: _, _, h => by simp at h
  | _ :: _, [], _, h => by simp at h
  | t :: ts, tok :: toks, h, hl => by
      simp only [arityMatchZip, Bool.and_eq_true] at h
      simp only [Token.zipCheck, valuesOf]
      rw [typeCheck_eq tok t h.1, Res.ok_bind, zipCheck_eq ts toks h.2 (by simpa using hl)]
      cases valueOf tok t <;> simp

theorem valuesOf_length : ∀ (toks : List Token) (ts : List ParamType), valuesOf toks ts = true →
    ts.length = toks.length
  | [], [], _ => rfl
  | [], _ :: _, h => by simp [valuesOf] at h
  | _ :: _, [], h => by simp [valuesOf] at h
  | tok :: toks, t :: ts, h => by
      simp only [valuesOf, Bool.and_eq_true] at h
      simp [valuesOf_length toks ts h.2]

theorem typesCheck_eq (toks : List Token) (ts : List ParamType) (h : arityMatchZip toks ts = true) :
    Token.typesCheck toks ts = .ok (valuesOf toks ts) := by
  unfold Token.typesCheck
  by_cases hl : ts.length = toks.length
  · rw [if_pos (by simpa using hl), zipCheck_eq ts toks h hl]
  · rw [if_neg (by simpa using hl)]
    congr 1
    cases hv : valuesOf toks ts
    · rfl
    · exact absurd (valuesOf_length _ _ hv) hl

mutual
theorem valueOf_arity : ∀ (tok : Token) (t : ParamType), valueOf tok t = true → arityMatch tok t = true
  | .address _, t, _ => by cases t <;> rfl
  | .bytes _, t, _ => by cases t <;> rfl
  | .int _, t, _ => by cases t <;> rfl
  | .uint _, t, _ => by cases t <;> rfl
  | .bool _, t, _ => by cases t <;> rfl
  | .string _, t, _ => by cases t <;> rfl
  | .fixedBytes _, t, _ => by cases t <;> rfl
  | .array ts, t, h => by
      cases t <;> simp only [valueOf, Bool.false_eq_true] at h
      simp only [arityMatch]; exact valueOfAll_arity ts _ h
  | .fixedArray ts, t, h => by
      cases t <;> simp only [valueOf, Bool.false_eq_true, Bool.and_eq_true] at h
      simp only [arityMatch]; exact valueOfAll_arity ts _ h.2
  | .tuple ts, t, h => by
      cases t <;> simp only [valueOf, Bool.false_eq_true] at h
      simp only [arityMatch]; exact valuesOf_arity ts _ h
theorem valueOfAll_arity : ∀ (toks : List Token) (t : ParamType), valueOfAll toks t = true →
    arityMatchAll toks t = true
  | [], _, _ => rfl
  | tok :: toks, t, h => by
      simp only [valueOfAll, Bool.and_eq_true] at h
      simp only [arityMatchAll, Bool.and_eq_true]
      exact ⟨valueOf_arity tok t h.1, valueOfAll_arity toks t h.2⟩
theorem valuesOf_arity : ∀ (toks : List Token) (ts : List ParamType), valuesOf toks ts = true →
    arityMatches toks ts = true
  | [], [], _ => rfl
  | [], _ :: _, h => by simp [valuesOf] at h
  | _ :: _, [], h => by simp [valuesOf] at h
  | tok :: toks, t :: ts, h => by
      simp only [valuesOf, Bool.and_eq_true] at h
      simp only [arityMatches, Bool.and_eq_true]
      exact ⟨valueOf_arity tok t h.1, valuesOf_arity toks ts h.2⟩
end

theorem arityMatchZip_of_matches : ∀ (toks : List Token) (ts : List ParamType), arityMatches toks ts = true →
    arityMatchZip toks ts = true
  | [], [], _ => rfl
  | [], _ :: _, _ => rfl
  | _ :: _, [], _ => rfl
  | tok :: toks, t :: ts, h => by
      simp only [arityMatches, Bool.and_eq_true] at h
      simp only [arityMatchZip, Bool.and_eq_true]
      exact ⟨h.1, arityMatchZip_of_matches toks ts h.2⟩

theorem typesCheck_of_valuesOf {toks : List Token} {ts : List ParamType} (h : valuesOf toks ts = true) :
    Token.typesCheck toks ts = .ok true := by
  rw [typesCheck_eq toks ts (arityMatchZip_of_matches _ _ (valuesOf_arity _ _ h)), h]

mutual
theorem tupleFree_arity : ∀ (tok : Token) (t : ParamType), tupleFree t = true → arityMatch tok t = true
  | .address _, t, _ => by cases t <;> rfl
  | .bytes _, t, _ => by cases t <;> rfl
  | .int _, t, _ => by cases t <;> rfl
  | .uint _, t, _ => by cases t <;> rfl
  | .bool _, t, _ => by cases t <;> rfl
  | .string _, t, _ => by cases t <;> rfl
  | .fixedBytes _, t, _ => by cases t <;> rfl
  | .array ts, t, h => by
      cases t <;> simp only [tupleFree, Bool.false_eq_true] at h <;> try rfl
      simp only [arityMatch]; exact tupleFree_arityAll ts _ h
  | .fixedArray ts, t, h => by
      cases t <;> simp only [tupleFree, Bool.false_eq_true] at h <;> try rfl
      simp only [arityMatch]; exact tupleFree_arityAll ts _ h
  | .tuple ts, t, h => by
      cases t <;> simp only [tupleFree, Bool.false_eq_true] at h <;> rfl
theorem tupleFree_arityAll : ∀ (toks : List Token) (t : ParamType), tupleFree t = true →
    arityMatchAll toks t = true
  | [], _, _ => rfl
  | tok :: toks, t, h => by
      simp only [arityMatchAll, Bool.and_eq_true]
      exact ⟨tupleFree_arity tok t h, tupleFree_arityAll toks t h⟩
end

theorem tupleFree_arityZip : ∀ (toks : List Token) (ts : List ParamType), ts.all tupleFree = true →
    arityMatchZip toks ts = true
  | [], ts, _ => by cases ts <;> rfl
  | _ :: _, [], _ => rfl
  | tok :: toks, t :: ts, h => by
      simp only [List.all_cons, Bool.and_eq_true] at h
      simp only [arityMatchZip, Bool.and_eq_true]
      exact ⟨tupleFree_arity tok t h.1, tupleFree_arityZip toks ts h.2⟩

/-! ### strictly typed tokens are values -/

mutual
theorem hasType_valueOf : ∀ (tok : Token) (t : ParamType), hasType tok t = true → valueOf tok t = true
  | .address _, t, h => by cases t <;> simp_all [hasType, valueOf]
  | .bytes _, t, h => by cases t <;> simp_all [hasType, valueOf]
  | .int _, t, h => by cases t <;> simp_all [hasType, valueOf]
  | .uint _, t, h => by cases t <;> simp_all [hasType, valueOf]
  | .bool _, t, h => by cases t <;> simp_all [hasType, valueOf]
  | .string _, t, h => by cases t <;> simp_all [hasType, valueOf]
  | .fixedBytes _, t, h => by cases t <;> simp_all [hasType, valueOf]
  | .array ts, t, h => by
      cases t <;> simp only [hasType, Bool.false_eq_true] at h
      simp only [valueOf]; exact allHaveType_valueOf ts _ h
  | .fixedArray ts, t, h => by
      cases t <;> simp only [hasType, Bool.false_eq_true, Bool.and_eq_true] at h
      simp only [valueOf, Bool.and_eq_true]; exact ⟨h.1, allHaveType_valueOf ts _ h.2⟩
  | .tuple ts, t, h => by
      cases t <;> simp only [hasType, Bool.false_eq_true] at h
      simp only [valueOf]; exact haveTypes_valuesOf ts _ h
theorem allHaveType_valueOf : ∀ (toks : List Token) (t : ParamType), allHaveType toks t = true →
    valueOfAll toks t = true
  | [], _, _ => rfl
  | tok :: toks, t, h => by
      simp only [allHaveType, Bool.and_eq_true] at h
      simp only [valueOfAll, Bool.and_eq_true]
      exact ⟨hasType_valueOf tok t h.1, allHaveType_valueOf toks t h.2⟩
theorem haveTypes_valuesOf : ∀ (toks : List Token) (ts : List ParamType), haveTypes toks ts = true →
    valuesOf toks ts = true
  | [], [], _ => rfl
  | [], _ :: _, h => by simp [haveTypes] at h
  | _ :: _, [], h => by simp [haveTypes] at h
  | tok :: toks, t :: ts, h => by
      simp only [haveTypes, Bool.and_eq_true] at h
      simp only [valuesOf, Bool.and_eq_true]
      exact ⟨hasType_valueOf tok t h.1, haveTypes_valuesOf toks ts h.2⟩
end

theorem haveTypes_length : ∀ (toks : List Token) (ts : List ParamType), haveTypes toks ts = true →
    toks.length = ts.length := fun toks ts h => (valuesOf_length _ _ (haveTypes_valuesOf _ _ h)).symm

/-! ### zero extension -/

theorem padFixedBytes_inj_flat {a b : Bytes} (h : padRight a = padRight b) : padFixedBytes a = padFixedBytes b := by
  have key : ∀ (x y : List Word), flattenWords x = flattenWords y → x = y := by
    intro x
    induction x with
    | nil =>
      intro y h
      cases y with
      | nil => rfl
      | cons w ws =>
        have := congrArg List.length h
        simp [w.2] at this
        omega
    | cons v vs ih =>
      intro y h
      cases y with
      | nil =>
        have := congrArg List.length h
        simp [v.2] at this
      | cons w ws =>
        simp only [flattenWords_cons] at h
        obtain ⟨h1, h2⟩ := List.append_inj h (by rw [v.2, w.2])
        rw [Subtype.ext h1, ih ws h2]
  apply key
  rw [flatten_padFixedBytes, flatten_padFixedBytes, h]

theorem padRight_extend (b : Bytes) (n : Nat) (h0 : b ≠ []) (h1 : b.length ≤ n) (h2 : n ≤ 32) :
    padRight (b ++ List.replicate (n - b.length) 0) = padRight b := by
  have hb : 0 < b.length := List.length_pos_iff.2 h0
  simp only [padRight, List.append_assoc, List.length_append, List.length_replicate]
  rw [List.replicate_append_replicate]
  congr 2
  omega

mutual
theorem encodeToken_zeroExtend (prof : Profile) : ∀ (tok : Token) (t : ParamType), valueOf tok t = true →
    nonemptyFixed tok = true → codable t = true →
    encodeToken prof (zeroExtend tok t) = encodeToken prof tok ∧ (zeroExtend tok t).isDynamic = tok.isDynamic
      ∧ hasType (zeroExtend tok t) t = true ∧ countsFit (zeroExtend tok t) = countsFit tok
  | .address _, t, h, _, _ => by cases t <;> simp_all [zeroExtend, valueOf, hasType]
  | .bytes _, t, h, _, _ => by cases t <;> simp_all [zeroExtend, valueOf, hasType]
  | .int _, t, h, _, _ => by cases t <;> simp_all [zeroExtend, valueOf, hasType]
  | .uint _, t, h, _, _ => by cases t <;> simp_all [zeroExtend, valueOf, hasType]
  | .bool _, t, h, _, _ => by cases t <;> simp_all [zeroExtend, valueOf, hasType]
  | .string _, t, h, _, _ => by cases t <;> simp_all [zeroExtend, valueOf, hasType]
  | .fixedBytes b, t, h, h0, hc => by
      cases t <;> simp only [valueOf, Bool.false_eq_true, decide_eq_true_eq] at h
      rename_i n
      simp only [codable, decide_eq_true_eq] at hc
      simp only [nonemptyFixed, Bool.not_eq_true', List.isEmpty_eq_false_iff] at h0
      refine ⟨?_, rfl, ?_, rfl⟩
      · simp only [zeroExtend, encodeToken]
        rw [padFixedBytes_inj_flat (padRight_extend b n h0 h hc.2)]
      · simp [zeroExtend, hasType]; omega
  | .array ts, t, h, h0, hc => by
      cases t <;> simp only [valueOf, Bool.false_eq_true] at h
      simp only [nonemptyFixed] at h0
      simp only [codable] at hc
      obtain ⟨i1, i2, i3, i4, i5⟩ := encodeTokens_zeroExtend prof ts _ h h0 hc
      simp [zeroExtend, encodeToken, i1, Token.isDynamic, hasType, i3, countsFit, i4, i5]
  | .fixedArray ts, t, h, h0, hc => by
      cases t <;> simp only [valueOf, Bool.false_eq_true, Bool.and_eq_true] at h
      simp only [nonemptyFixed] at h0
      simp only [codable, Bool.and_eq_true] at hc
      obtain ⟨i1, i2, i3, i4, i5⟩ := encodeTokens_zeroExtend prof ts _ h.2 h0 hc.1
      simp [zeroExtend, encodeToken, i1, i2, Token.isDynamic, hasType, i3, countsFit, i4, i5]
      simpa using h.1
  | .tuple ts, t, h, h0, hc => by
      cases t <;> simp only [valueOf, Bool.false_eq_true] at h
      simp only [nonemptyFixed] at h0
      simp only [codable] at hc
      obtain ⟨i1, i2, i3, i4⟩ := encodeTokens_zeroExtends prof ts _ h h0 hc
      simp [zeroExtend, encodeToken, i1, i2, Token.isDynamic, hasType, i3, countsFit, i4]
theorem encodeTokens_zeroExtend (prof : Profile) : ∀ (toks : List Token) (t : ParamType), valueOfAll toks t = true →
    nonemptyFixedAll toks = true → codable t = true →
    encodeTokens prof (zeroExtendAll toks t) = encodeTokens prof toks
      ∧ Token.anyDynamic (zeroExtendAll toks t) = Token.anyDynamic toks
      ∧ allHaveType (zeroExtendAll toks t) t = true ∧ countsFitAll (zeroExtendAll toks t) = countsFitAll toks
      ∧ (zeroExtendAll toks t).length = toks.length
  | [], _, _, _, _ => by simp [zeroExtendAll, allHaveType]
  | tok :: toks, t, h, h0, hc => by
      simp only [valueOfAll, Bool.and_eq_true] at h
      simp only [nonemptyFixedAll, Bool.and_eq_true] at h0
      obtain ⟨i1, i2, i3, i4⟩ := encodeToken_zeroExtend prof tok t h.1 h0.1 hc
      obtain ⟨j1, j2, j3, j4, j5⟩ := encodeTokens_zeroExtend prof toks t h.2 h0.2 hc
      simp [zeroExtendAll, encodeTokens, Token.anyDynamic, allHaveType, countsFitAll, *]
theorem encodeTokens_zeroExtends (prof : Profile) : ∀ (toks : List Token) (ts : List ParamType), valuesOf toks ts = true →
    nonemptyFixedAll toks = true → codableAll ts = true →
    encodeTokens prof (zeroExtends toks ts) = encodeTokens prof toks
      ∧ Token.anyDynamic (zeroExtends toks ts) = Token.anyDynamic toks
      ∧ haveTypes (zeroExtends toks ts) ts = true ∧ countsFitAll (zeroExtends toks ts) = countsFitAll toks
  | [], [], _, _, _ => by simp [zeroExtends, haveTypes]
  | [], _ :: _, h, _, _ => by simp [valuesOf] at h
  | _ :: _, [], h, _, _ => by simp [valuesOf] at h
  | tok :: toks, t :: ts, h, h0, hc => by
      simp only [valuesOf, Bool.and_eq_true] at h
      simp only [nonemptyFixedAll, Bool.and_eq_true] at h0
      simp only [codableAll, Bool.and_eq_true] at hc
      obtain ⟨i1, i2, i3, i4⟩ := encodeToken_zeroExtend prof tok t h.1 h0.1 hc.1
      obtain ⟨j1, j2, j3, j4⟩ := encodeTokens_zeroExtends prof toks ts h.2 h0.2 hc.2
      simp [zeroExtends, encodeTokens, Token.anyDynamic, haveTypes, countsFitAll, *]
end

/-! ### static sizes -/

mutual
theorem staticSize_enc : ∀ (tok : Token) (t : ParamType), hasType tok t = true → codable t = true →
    dynamic t = false → (enc tok t).length = staticSize t
  | .address a, t, h, _, _ => by cases t <;> simp_all [hasType, enc, staticSize]; exact a.2
  | .bytes _, t, h, _, hd => by cases t <;> simp_all [hasType, dynamic]
  | .int _, t, h, _, _ => by cases t <;> simp_all [hasType, enc, staticSize]
  | .uint _, t, h, _, _ => by cases t <;> simp_all [hasType, enc, staticSize]
  | .bool _, t, h, _, _ => by cases t <;> simp_all [hasType, enc, staticSize]
  | .string _, t, h, _, hd => by cases t <;> simp_all [hasType, dynamic]
  | .fixedBytes b, t, h, hc, _ => by
      cases t <;> simp only [hasType, Bool.false_eq_true, beq_iff_eq] at h
      simp only [codable, decide_eq_true_eq] at hc
      simp only [enc, staticSize, length_padRight]
      omega
  | .array _, t, h, _, hd => by cases t <;> simp_all [hasType, dynamic]
  | .fixedArray ts, t, h, hc, hd => by
      cases t <;> simp only [hasType, Bool.false_eq_true, Bool.and_eq_true, beq_iff_eq] at h
      simp only [codable, Bool.and_eq_true] at hc
      simp only [dynamic] at hd
      simp only [enc, staticSize]
      rw [staticSize_encAll ts _ h.2 hc.1 hd, h.1]
  | .tuple ts, t, h, hc, hd => by
      cases t <;> simp only [hasType, Bool.false_eq_true] at h
      simp only [codable] at hc
      simp only [dynamic] at hd
      simp only [enc, staticSize]
      exact staticSize_encZip ts _ h hc hd
theorem staticSize_encAll : ∀ (toks : List Token) (t : ParamType), allHaveType toks t = true → codable t = true →
    dynamic t = false → (layout (encAll toks t)).length = toks.length * staticSize t
  | [], _, _, _, _ => by simp [encAll, layout, Spec.heads, Spec.tails]
  | tok :: toks, t, h, hc, hd => by
      simp only [allHaveType, Bool.and_eq_true] at h
      have h1 := staticSize_enc tok t h.1 hc hd
      have h2 := staticSize_encAll toks t h.2 hc hd
      rw [static_layout (allStatic_encAll _ _ hd)] at h2 ⊢
      simp only [encAll, List.flatMap_cons, List.length_append, h1, h2, List.length_cons, Nat.succ_mul]
      omega
theorem staticSize_encZip : ∀ (toks : List Token) (ts : List ParamType), haveTypes toks ts = true →
    codableAll ts = true → dynamicAny ts = false → (layout (encZip toks ts)).length = staticSizeAll ts
  | [], [], _, _, _ => by simp [encZip, layout, Spec.heads, Spec.tails, staticSizeAll]
  | [], _ :: _, h, _, _ => by simp [haveTypes] at h
  | _ :: _, [], h, _, _ => by simp [haveTypes] at h
  | tok :: toks, t :: ts, h, hc, hd => by
      simp only [haveTypes, Bool.and_eq_true] at h
      simp only [codableAll, Bool.and_eq_true] at hc
      have hd' := hd
      simp only [dynamicAny, Bool.or_eq_false_iff] at hd
      have h1 := staticSize_enc tok t h.1 hc.1 hd.1
      have h2 := staticSize_encZip toks ts h.2 hc.2 hd.2
      rw [static_layout (allStatic_encZip _ _ hd.2)] at h2
      rw [static_layout (allStatic_encZip _ _ hd')]
      simp only [encZip, List.flatMap_cons, List.length_append, h1, h2, staticSizeAll]
end

end Ethabi

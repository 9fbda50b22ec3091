import Verif.Proofs.DecodeFacts
/-! How far the decoder advances, and size facts of the specified encoding. -/
namespace Ethabi
open Spec

theorem decodeLoop_off {f : Nat → Res (Token × Nat)} {w : Nat}
    (hf : ∀ o tok o', f o = .ok (tok, o') → o' = o + w) :
    ∀ (n off : Nat) (toks : List Token) (off' : Nat), decodeLoop f n off = .ok (toks, off') →
      off' = off + n * w := by
  intro n
  induction n with
  | zero => intro off toks off' h; simp only [decodeLoop, Res.ok.injEq, Prod.mk.injEq] at h; simp [h.2]
  | succ n ih =>
    intro off toks off' h
    simp only [decodeLoop, Res.bind_eq_ok, Prod.exists, Res.ok.injEq, Prod.mk.injEq] at h
    obtain ⟨tok, o1, h1, toks1, o2, h2, rfl, rfl⟩ := h
    have := ih _ _ _ h2
    have := hf _ _ _ h1
    rw [Nat.succ_mul]; omega

theorem staticSizeAll_headWidth (ts : List ParamType) (h : dynamicAny ts = false) :
    staticSizeAll ts = headPos ts := by
  induction ts with
  | nil => rfl
  | cons t ts ih =>
    simp only [dynamicAny, Bool.or_eq_false_iff] at h
    simp [staticSizeAll, headPos, headWidth, h.1, ih h.2]

mutual
theorem decodeParam_off (prof : Profile) : ∀ (t : ParamType) (data : Bytes) (off : Nat) (tok : Token) (off' : Nat),
    t.usizeOk = true → data.length < 2 ^ 63 → decodeParam prof t data off = .ok (tok, off') →
    off' = off + headWidth t
  | .address, data, off, tok, off', _, hd, h => by
      simp only [decodeParam, Res.bind_eq_ok, Res.ok.injEq, Prod.mk.injEq] at h
      obtain ⟨w, hw, o, ho, -, rfl⟩ := h
      have := (peek32_eq_ok (by omega) hw).1
      rw [usizeAdd_ok (by omega)] at ho; cases ho; rfl
  | .uint _, data, off, tok, off', _, hd, h => by
      simp only [decodeParam, Res.bind_eq_ok, Res.ok.injEq, Prod.mk.injEq] at h
      obtain ⟨w, hw, o, ho, -, rfl⟩ := h
      have := (peek32_eq_ok (by omega) hw).1
      rw [usizeAdd_ok (by omega)] at ho; cases ho; rfl
  | .int _, data, off, tok, off', _, hd, h => by
      simp only [decodeParam, Res.bind_eq_ok, Res.ok.injEq, Prod.mk.injEq] at h
      obtain ⟨w, hw, o, ho, -, rfl⟩ := h
      have := (peek32_eq_ok (by omega) hw).1
      rw [usizeAdd_ok (by omega)] at ho; cases ho; rfl
  | .bool, data, off, tok, off', _, hd, h => by
      simp only [decodeParam, Res.bind_eq_ok, Res.ok.injEq, Prod.mk.injEq] at h
      obtain ⟨w, hw, b, -, o, ho, -, rfl⟩ := h
      have := (peek32_eq_ok (by omega) hw).1
      rw [usizeAdd_ok (by omega)] at ho; cases ho; rfl
  | .fixedBytes n, data, off, tok, off', hu, hd, h => by
      simp only [decodeParam, Res.bind_eq_ok, Res.ok.injEq, Prod.mk.injEq] at h
      simp only [ParamType.usizeOk, decide_eq_true_eq] at hu
      obtain ⟨w, hw, o, ho, -, rfl⟩ := h
      obtain ⟨h1, h2⟩ := takeBytes_eq_ok hu (by omega) hw
      rw [usizeAdd_ok (by omega)] at ho; cases ho; rfl
  | .bytes, data, off, tok, off', _, hd, h => by
      simp only [decodeParam, Res.bind_eq_ok, Res.ok.injEq, Prod.mk.injEq] at h
      obtain ⟨_, hw, _, -, _, -, _, -, _, -, _, -, o, ho, -, rfl⟩ := h
      have := (peek32_eq_ok (by omega) hw).1
      rw [usizeAdd_ok (by omega)] at ho; cases ho; rfl
  | .string, data, off, tok, off', _, hd, h => by
      simp only [decodeParam, Res.bind_eq_ok, Res.ok.injEq, Prod.mk.injEq] at h
      obtain ⟨_, hw, _, -, _, -, _, -, _, -, _, -, o, ho, -, rfl⟩ := h
      have := (peek32_eq_ok (by omega) hw).1
      rw [usizeAdd_ok (by omega)] at ho; cases ho; rfl
  | .array t, data, off, tok, off', hu, hd, h => by
      simp only [decodeParam, Res.bind_eq_ok, Res.ok.injEq, Prod.mk.injEq, Prod.exists] at h
      obtain ⟨_, hw, _, -, _, -, len, -, _, -, tail, -, toks, _, -, o, ho, -, rfl⟩ := h
      have := (peek32_eq_ok (by omega) hw).1
      rw [usizeAdd_ok (by omega)] at ho; cases ho; rfl
  | .fixedArray t n, data, off, tok, off', hu, hd, h => by
      simp only [ParamType.usizeOk, Bool.and_eq_true] at hu
      rw [decodeParam, type_isDynamic_eq] at h
      split at h
      · rename_i hdy
        simp only [Res.bind_eq_ok, Res.ok.injEq, Prod.mk.injEq, Prod.exists] at h
        obtain ⟨_, hw, _, -, tail, -, toks, _, -, o, ho, -, rfl⟩ := h
        have := (peek32_eq_ok (by omega) hw).1
        rw [usizeAdd_ok (by omega)] at ho; cases ho
        simp [headWidth, dynamic, hdy]
      · rename_i hdy
        simp only [Res.bind_eq_ok, Res.ok.injEq, Prod.mk.injEq, Prod.exists] at h
        obtain ⟨toks, o, hl, -, rfl⟩ := h
        have := decodeLoop_off (fun o tok o' h => decodeParam_off prof t _ o tok o' hu.2 hd h) _ _ _ _ hl
        rw [this]
        simp [headWidth, dynamic, hdy, staticSize]
  | .tuple ts, data, off, tok, off', hu, hd, h => by
      simp only [ParamType.usizeOk] at hu
      rw [decodeParam, type_anyDynamic_eq] at h
      split at h
      · rename_i hdy
        simp only [Res.bind_eq_ok] at h
        obtain ⟨_, hw, o, -, h⟩ := h
        have := (peek32_eq_ok (by omega) hw).1
        split at h
        · cases h
        · simp only [Res.bind_eq_ok, Res.ok.injEq, Prod.mk.injEq, Prod.exists] at h
          obtain ⟨tail, -, toks, _, -, o, ho, -, rfl⟩ := h
          rw [usizeAdd_ok (by omega)] at ho; cases ho
          simp [headWidth, dynamic, hdy]
      · rename_i hdy
        simp only [Res.bind_eq_ok, Res.ok.injEq, Prod.mk.injEq, Prod.exists] at h
        obtain ⟨toks, o, hl, -, rfl⟩ := h
        rw [decodeParams_off prof ts _ _ _ _ hu hd hl]
        simp only [Bool.not_eq_true] at hdy
        simp [headWidth, dynamic, hdy, staticSize, staticSizeAll_headWidth]
theorem decodeParams_off (prof : Profile) : ∀ (ts : List ParamType) (data : Bytes) (off : Nat) (toks : List Token)
    (off' : Nat), ParamType.usizeOkAll ts = true → data.length < 2 ^ 63 →
    decodeParams prof ts data off = .ok (toks, off') → off' = off + headPos ts
  | [], data, off, toks, off', _, _, h => by
      simp only [decodeParams, Res.ok.injEq, Prod.mk.injEq] at h
      simp [← h.2, headPos]
  | t :: ts, data, off, toks, off', hu, hd, h => by
      simp only [ParamType.usizeOkAll, Bool.and_eq_true] at hu
      simp only [decodeParams, Res.bind_eq_ok, Prod.exists, Res.ok.injEq, Prod.mk.injEq] at h
      obtain ⟨tok, o1, h1, toks1, o2, h2, rfl, rfl⟩ := h
      have e1 := decodeParam_off prof t _ _ _ _ hu.1 hd h1
      have e2 := decodeParams_off prof ts _ _ _ _ hu.2 hd h2
      simp only [headPos, List.map_cons, List.sum_cons] at *
      omega
end

/-! ### a successfully decoded value of nonzero width starts inside the data -/

theorem headPos_mem_le {t : ParamType} {ts : List ParamType} (h : t ∈ ts) : headWidth t ≤ headPos ts := by
  induction ts with
  | nil => cases h
  | cons u ts ih =>
    simp only [headPos, List.map_cons, List.sum_cons]
    rcases List.mem_cons.1 h with rfl | h
    · omega
    · have := ih h; simp only [headPos] at this; omega

mutual
theorem decodeParam_start (prof : Profile) : ∀ (t : ParamType) (data : Bytes) (off : Nat) (tok : Token) (off' : Nat),
    t.usizeOk = true → nonzeroWidth t = true → data.length < 2 ^ 63 →
    decodeParam prof t data off = .ok (tok, off') → off < data.length ∧ 32 ≤ headWidth t
  | .address, data, off, tok, off', _, _, hd, h => by
      simp only [decodeParam, Res.bind_eq_ok] at h
      obtain ⟨w, hw, -⟩ := h
      have := (peek32_eq_ok (by omega) hw).1
      exact ⟨by omega, by simp [headWidth, dynamic, staticSize]⟩
  | .uint _, data, off, tok, off', _, _, hd, h => by
      simp only [decodeParam, Res.bind_eq_ok] at h
      obtain ⟨w, hw, -⟩ := h
      have := (peek32_eq_ok (by omega) hw).1
      exact ⟨by omega, by simp [headWidth, dynamic, staticSize]⟩
  | .int _, data, off, tok, off', _, _, hd, h => by
      simp only [decodeParam, Res.bind_eq_ok] at h
      obtain ⟨w, hw, -⟩ := h
      have := (peek32_eq_ok (by omega) hw).1
      exact ⟨by omega, by simp [headWidth, dynamic, staticSize]⟩
  | .bool, data, off, tok, off', _, _, hd, h => by
      simp only [decodeParam, Res.bind_eq_ok] at h
      obtain ⟨w, hw, -⟩ := h
      have := (peek32_eq_ok (by omega) hw).1
      exact ⟨by omega, by simp [headWidth, dynamic, staticSize]⟩
  | .fixedBytes n, data, off, tok, off', hu, hz, hd, h => by
      simp only [decodeParam, Res.bind_eq_ok] at h
      simp only [ParamType.usizeOk, decide_eq_true_eq] at hu
      simp only [nonzeroWidth, bne_iff_ne] at hz
      obtain ⟨w, hw, -⟩ := h
      have := (takeBytes_eq_ok hu (by omega) hw).1
      exact ⟨by omega, by simp [headWidth, dynamic, staticSize]⟩
  | .bytes, data, off, tok, off', _, _, hd, h => by
      simp only [decodeParam, Res.bind_eq_ok] at h
      obtain ⟨w, hw, -⟩ := h
      have := (peek32_eq_ok (by omega) hw).1
      exact ⟨by omega, by simp [headWidth, dynamic]⟩
  | .string, data, off, tok, off', _, _, hd, h => by
      simp only [decodeParam, Res.bind_eq_ok] at h
      obtain ⟨w, hw, -⟩ := h
      have := (peek32_eq_ok (by omega) hw).1
      exact ⟨by omega, by simp [headWidth, dynamic]⟩
  | .array t, data, off, tok, off', _, _, hd, h => by
      simp only [decodeParam, Res.bind_eq_ok] at h
      obtain ⟨w, hw, -⟩ := h
      have := (peek32_eq_ok (by omega) hw).1
      exact ⟨by omega, by simp [headWidth, dynamic]⟩
  | .fixedArray t n, data, off, tok, off', hu, hz, hd, h => by
      simp only [ParamType.usizeOk, Bool.and_eq_true] at hu
      rw [decodeParam, type_isDynamic_eq] at h
      split at h
      · rename_i hdy
        simp only [Res.bind_eq_ok] at h
        obtain ⟨_, hw, -⟩ := h
        have := (peek32_eq_ok (by omega) hw).1
        exact ⟨by omega, by simp [headWidth, dynamic, hdy]⟩
      · rename_i hdy
        simp only [Bool.not_eq_true] at hdy
        simp only [nonzeroWidth, hdy, Bool.false_or, Bool.and_eq_true, bne_iff_ne] at hz
        cases n with
        | zero => exact absurd rfl hz.2
        | succ n =>
          simp only [decodeLoop, Res.bind_eq_ok, Prod.exists] at h
          obtain ⟨_, _, ⟨tok1, o1, h1, -⟩, -⟩ := h
          obtain ⟨i1, i2⟩ := decodeParam_start prof t data off tok1 o1 hu.2 hz.1 hd h1
          refine ⟨i1, ?_⟩
          simp only [headWidth, hdy, dynamic, staticSize, Bool.false_eq_true, if_false] at i2 ⊢
          rw [Nat.succ_mul]; omega
  | .tuple ts, data, off, tok, off', hu, hz, hd, h => by
      simp only [ParamType.usizeOk] at hu
      simp only [nonzeroWidth] at hz
      rw [decodeParam, type_anyDynamic_eq] at h
      split at h
      · rename_i hdy
        simp only [Res.bind_eq_ok] at h
        obtain ⟨_, hw, -⟩ := h
        have := (peek32_eq_ok (by omega) hw).1
        exact ⟨by omega, by simp [headWidth, dynamic, hdy]⟩
      · rename_i hdy
        simp only [Bool.not_eq_true] at hdy
        simp only [Res.bind_eq_ok, Prod.exists] at h
        obtain ⟨toks, o, hl, -⟩ := h
        obtain ⟨i1, i2⟩ := decodeParams_start prof ts data off toks o hu hz hd hl
        refine ⟨i1, ?_⟩
        simp only [headWidth, dynamic, hdy, staticSize, Bool.false_eq_true, if_false, staticSizeAll_headWidth]
        exact i2
theorem decodeParams_start (prof : Profile) : ∀ (ts : List ParamType) (data : Bytes) (off : Nat) (toks : List Token)
    (off' : Nat), ParamType.usizeOkAll ts = true → nonzeroWidthAny ts = true → data.length < 2 ^ 63 →
    decodeParams prof ts data off = .ok (toks, off') → off < data.length ∧ 32 ≤ headPos ts
  | [], data, off, toks, off', _, hz, _, h => by simp [nonzeroWidthAny] at hz
  | t :: ts, data, off, toks, off', hu, hz, hd, h => by
      simp only [ParamType.usizeOkAll, Bool.and_eq_true] at hu
      simp only [decodeParams, Res.bind_eq_ok, Prod.exists, Res.ok.injEq, Prod.mk.injEq] at h
      obtain ⟨tok, o1, h1, toks1, o2, h2, rfl, rfl⟩ := h
      have e1 := decodeParam_off prof t _ _ _ _ hu.1 hd h1
      simp only [nonzeroWidthAny, Bool.or_eq_true] at hz
      simp only [headPos, List.map_cons, List.sum_cons]
      rcases hz with hz | hz
      · have := decodeParam_start prof t _ _ _ _ hu.1 hz hd h1; exact ⟨this.1, by omega⟩
      · have := decodeParams_start prof ts _ _ _ _ hu.2 hz hd h2
        simp only [headPos] at this
        exact ⟨by omega, by omega⟩
end

theorem decodeLoop_bound {prof : Profile} {t : ParamType} {data : Bytes} (hu : t.usizeOk = true)
    (hz : nonzeroWidth t = true) (hd : data.length < 2 ^ 63) :
    ∀ (n off : Nat) (toks : List Token) (off' : Nat),
      decodeLoop (fun o => decodeParam prof t data o) n off = .ok (toks, off') → n ≠ 0 →
      off + 32 * n < data.length + 32 := by
  intro n
  induction n with
  | zero => intro off toks off' h hn; exact absurd rfl hn
  | succ n ih =>
    intro off toks off' h _
    simp only [decodeLoop, Res.bind_eq_ok, Prod.exists, Res.ok.injEq, Prod.mk.injEq] at h
    obtain ⟨tok, o1, h1, toks1, o2, h2, rfl, rfl⟩ := h
    have e1 := decodeParam_off prof t _ _ _ _ hu hd h1
    have e2 := decodeParam_start prof t _ _ _ _ hu hz hd h1
    by_cases hn : n = 0
    · subst hn; omega
    · have := ih _ _ _ h2 hn; omega

/-! ### widths of specified encodings -/

theorem layout_eq_nil_iff (ps : List Part) : layout ps = [] → headSize ps = 0 := by
  intro h
  have := length_layout ps
  rw [h] at this
  simp at this
  omega

mutual
theorem width_pos : ∀ (tok : Token) (t : ParamType), hasType tok t = true → nonzeroWidth t = true →
    32 ≤ width (dynamic t, enc tok t)
  | .address a, t, ht, _ => by
      cases t <;> simp only [hasType, Bool.false_eq_true] at ht
      simp [width, dynamic, enc, a.2]
  | .uint v, t, ht, _ => by
      cases t <;> simp only [hasType, Bool.false_eq_true] at ht
      simp [width, dynamic, enc]
  | .int v, t, ht, _ => by
      cases t <;> simp only [hasType, Bool.false_eq_true] at ht
      simp [width, dynamic, enc]
  | .bool b, t, ht, _ => by
      cases t <;> simp only [hasType, Bool.false_eq_true] at ht
      simp [width, dynamic, enc]
  | .fixedBytes b, t, ht, hz => by
      cases t <;> simp only [hasType, Bool.false_eq_true, beq_iff_eq] at ht
      simp only [nonzeroWidth, bne_iff_ne] at hz
      simp only [width, dynamic, enc, length_padRight]
      omega
  | .bytes b, t, ht, _ => by
      cases t <;> simp only [hasType, Bool.false_eq_true] at ht
      simp [width, dynamic]
  | .string b, t, ht, _ => by
      cases t <;> simp only [hasType, Bool.false_eq_true] at ht
      simp [width, dynamic]
  | .array b, t, ht, _ => by
      cases t <;> simp only [hasType, Bool.false_eq_true] at ht
      simp [width, dynamic]
  | .fixedArray toks, t, ht, hz => by
      cases t <;> simp only [hasType, Bool.false_eq_true, Bool.and_eq_true, beq_iff_eq] at ht
      rename_i t n
      cases hdy : dynamic t
      · simp only [nonzeroWidth, hdy, Bool.false_or, Bool.and_eq_true, bne_iff_ne] at hz
        cases toks with
        | nil => simp at ht; omega
        | cons tok toks =>
          simp only [allHaveType, Bool.and_eq_true] at ht
          have := width_pos tok t ht.2.1 hz.1
          simp only [width, hdy] at this
          simp only [width, dynamic, hdy, enc, length_layout, encAll, headSize]
          omega
      · simp [width, dynamic, hdy]
  | .tuple toks, t, ht, hz => by
      cases t <;> simp only [hasType, Bool.false_eq_true] at ht
      rename_i ts
      simp only [nonzeroWidth] at hz
      have := width_pos_zip toks ts ht hz
      cases hdy : dynamicAny ts
      · simp only [width, dynamic, hdy, enc, length_layout]; omega
      · simp [width, dynamic, hdy]
theorem width_pos_zip : ∀ (toks : List Token) (ts : List ParamType), haveTypes toks ts = true →
    nonzeroWidthAny ts = true → 32 ≤ headSize (encZip toks ts)
  | [], [], _, hz => by simp [nonzeroWidthAny] at hz
  | [], _ :: _, ht, _ => by simp [haveTypes] at ht
  | _ :: _, [], ht, _ => by simp [haveTypes] at ht
  | tok :: toks, t :: ts, ht, hz => by
      simp only [haveTypes, Bool.and_eq_true] at ht
      simp only [nonzeroWidthAny, Bool.or_eq_true] at hz
      have e : headSize (encZip (tok :: toks) (t :: ts)) = width (dynamic t, enc tok t) + headSize (encZip toks ts) := by
        simp only [encZip]; cases dynamic t <;> simp [headSize, width]
      rw [e]
      rcases hz with hz | hz
      · have := width_pos tok t ht.1 hz; omega
      · have := width_pos_zip toks ts ht.2 hz; omega
end

theorem encodeArgs_ne_nil (toks : List Token) (ts : List ParamType) (ht : haveTypes toks ts = true)
    (hz : nonzeroWidthAny ts = true) : encodeArgs toks ts ≠ [] := by
  intro h
  have := width_pos_zip toks ts ht hz
  have := layout_eq_nil_iff _ h
  omega

/-! ### Solidity types: nonzero width, codable, counts bounded by the size -/

mutual
theorem solidity_nonzero : ∀ t, solidity t = true → nonzeroWidth t = true
  | .address, _ => rfl
  | .bytes, _ => rfl
  | .int _, _ => rfl
  | .uint _, _ => rfl
  | .bool, _ => rfl
  | .string, _ => rfl
  | .array _, _ => rfl
  | .fixedBytes n, h => by
      simp only [solidity, decide_eq_true_eq] at h; simp only [nonzeroWidth, bne_iff_ne]; omega
  | .fixedArray t n, h => by
      simp only [solidity, Bool.and_eq_true] at h
      simp [nonzeroWidth, solidity_nonzero t h.1, h.2]
  | .tuple ts, h => by
      simp only [solidity, Bool.and_eq_true, Bool.not_eq_true'] at h
      simp only [nonzeroWidth]; exact solidity_nonzeroAny ts h.1 h.2
theorem solidity_nonzeroAny : ∀ ts, List.isEmpty ts = false → solidityAll ts = true → nonzeroWidthAny ts = true
  | [], h, _ => by simp at h
  | t :: ts, _, h => by
      simp only [solidityAll, Bool.and_eq_true] at h
      simp [nonzeroWidthAny, solidity_nonzero t h.1]
end

mutual
theorem solidity_codable : ∀ t, solidity t = true → codable t = true
  | .address, _ => rfl
  | .bytes, _ => rfl
  | .int _, _ => rfl
  | .uint _, _ => rfl
  | .bool, _ => rfl
  | .string, _ => rfl
  | .array t, h => by simp only [solidity] at h; simp only [codable]; exact solidity_codable t h
  | .fixedBytes n, h => h
  | .fixedArray t n, h => by
      simp only [solidity, Bool.and_eq_true] at h
      simp [codable, solidity_codable t h.1, h.2]
  | .tuple ts, h => by
      simp only [solidity, Bool.and_eq_true] at h
      simp only [codable]; exact solidity_codableAll ts h.2
theorem solidity_codableAll : ∀ ts, solidityAll ts = true → codableAll ts = true
  | [], _ => rfl
  | t :: ts, h => by
      simp only [solidityAll, Bool.and_eq_true] at h
      simp [codableAll, solidity_codable t h.1, solidity_codableAll ts h.2]
end

theorem encAll_size {t : ParamType} (hz : nonzeroWidth t = true) :
    ∀ (toks : List Token), allHaveType toks t = true → 32 * toks.length ≤ headSize (encAll toks t) := by
  intro toks
  induction toks with
  | nil => simp
  | cons tok toks ih =>
    intro ht
    simp only [allHaveType, Bool.and_eq_true] at ht
    have h1 := width_pos tok t ht.1 hz
    have h2 := ih ht.2
    have e : headSize (encAll (tok :: toks) t) = width (dynamic t, enc tok t) + headSize (encAll toks t) := by
      simp only [encAll]; cases dynamic t <;> simp [headSize, width]
    rw [e, List.length_cons]; omega

mutual
theorem solidity_countsFit : ∀ (tok : Token) (t : ParamType), hasType tok t = true → solidity t = true →
    (enc tok t).length < 2 ^ 32 → countsFit tok = true
  | .address _, _, _, _, _ => rfl
  | .uint _, _, _, _, _ => rfl
  | .int _, _, _, _, _ => rfl
  | .bool _, _, _, _, _ => rfl
  | .fixedBytes _, _, _, _, _ => rfl
  | .bytes _, _, _, _, _ => rfl
  | .string _, _, _, _, _ => rfl
  | .array toks, t, ht, hs, hb => by
      cases t <;> simp only [hasType, Bool.false_eq_true] at ht
      rename_i t
      simp only [solidity] at hs
      simp only [enc, List.length_append, length_word] at hb
      have h1 := encAll_size (solidity_nonzero t hs) toks ht
      have h2 := length_layout (encAll toks t)
      simp only [countsFit, Bool.and_eq_true, decide_eq_true_eq]
      exact ⟨by omega, solidity_countsFitAll toks t ht hs (by omega)⟩
  | .fixedArray toks, t, ht, hs, hb => by
      cases t <;> simp only [hasType, Bool.false_eq_true, Bool.and_eq_true] at ht
      rename_i t n
      simp only [solidity, Bool.and_eq_true] at hs
      simp only [enc] at hb
      simp only [countsFit]
      exact solidity_countsFitAll toks t ht.2 hs.1 hb
  | .tuple toks, t, ht, hs, hb => by
      cases t <;> simp only [hasType, Bool.false_eq_true] at ht
      rename_i ts
      simp only [solidity, Bool.and_eq_true] at hs
      simp only [enc] at hb
      simp only [countsFit]
      exact solidity_countsFitZip toks ts ht hs.2 hb
theorem solidity_countsFitAll : ∀ (toks : List Token) (t : ParamType), allHaveType toks t = true →
    solidity t = true → (layout (encAll toks t)).length < 2 ^ 32 → countsFitAll toks = true
  | [], _, _, _, _ => rfl
  | tok :: toks, t, ht, hs, hb => by
      simp only [allHaveType, Bool.and_eq_true] at ht
      simp only [encAll] at hb
      have h1 := part_length_le (ps := (dynamic t, enc tok t) :: encAll toks t) (p := (dynamic t, enc tok t)) (by simp)
      have h2 := layout_cons_length_le (dynamic t, enc tok t) (encAll toks t)
      simp only [countsFitAll, Bool.and_eq_true]
      exact ⟨solidity_countsFit tok t ht.1 hs (by simp only at h1; omega), solidity_countsFitAll toks t ht.2 hs (by omega)⟩
theorem solidity_countsFitZip : ∀ (toks : List Token) (ts : List ParamType), haveTypes toks ts = true →
    solidityAll ts = true → (layout (encZip toks ts)).length < 2 ^ 32 → countsFitAll toks = true
  | [], [], _, _, _ => rfl
  | [], _ :: _, ht, _, _ => by simp [haveTypes] at ht
  | _ :: _, [], ht, _, _ => by simp [haveTypes] at ht
  | tok :: toks, t :: ts, ht, hs, hb => by
      simp only [haveTypes, Bool.and_eq_true] at ht
      simp only [solidityAll, Bool.and_eq_true] at hs
      simp only [encZip] at hb
      have h1 := part_length_le (ps := (dynamic t, enc tok t) :: encZip toks ts) (p := (dynamic t, enc tok t)) (by simp)
      have h2 := layout_cons_length_le (dynamic t, enc tok t) (encZip toks ts)
      simp only [countsFitAll, Bool.and_eq_true]
      exact ⟨solidity_countsFit tok t ht.1 hs.1 (by simp only at h1; omega),
        solidity_countsFitZip toks ts ht.2 hs.2 (by omega)⟩
end

end Ethabi

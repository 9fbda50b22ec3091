import Verif.Proofs.Utf8
/-! The encoder produces the layout of the ABI specification. -/
namespace Ethabi
open Spec (Part headSize layout dynamic dynamicAny enc encAll encZip hasType allHaveType haveTypes
  codable codableAll countsFit countsFitAll)

theorem machine_ok {prof : Profile} {bits n : Nat} (h : n < 2 ^ bits) : machine prof bits n = .ok n := by
  simp [machine, h]

theorem u32add_ok {prof : Profile} {a b : Nat} (h : a + b < 2 ^ 32) : u32add prof a b = .ok (a + b) :=
  machine_ok h

theorem u32mul_ok {prof : Profile} {a b : Nat} (h : a * b < 2 ^ 32) : u32mul prof a b = .ok (a * b) :=
  machine_ok h

theorem usizeAdd_ok {prof : Profile} {a b : Nat} (h : a + b < 2 ^ 64) : usizeAdd prof a b = .ok (a + b) :=
  machine_ok h

/-- A mediate represents a component of the specified layout. -/
def Rep (prof : Profile) (m : Mediate) : Part → Prop
  | (false, b) => m.headLen prof = .ok b.length ∧ m.tailLen prof = .ok 0
      ∧ (∀ off, flattenWords (m.head off) = b) ∧ m.tail prof = .ok []
  | (true, b) => m.headLen prof = .ok 32 ∧ m.tailLen prof = .ok b.length
      ∧ (∀ off, m.head off = [padU32 off]) ∧ ∃ ws, m.tail prof = .ok ws ∧ flattenWords ws = b

abbrev RepAll (prof : Profile) := List.Forall₂ (Rep prof)

theorem repAll_length {prof : Profile} {ms : List Mediate} {ps : List Part} (h : RepAll prof ms ps) :
    ms.length = ps.length := by
  induction h with
  | nil => rfl
  | cons _ _ ih => simp [ih]

theorem length_heads (ps : List Part) (off : Nat) : (Spec.heads ps off).length = headSize ps := by
  induction ps generalizing off with
  | nil => rfl
  | cons p ps ih =>
    obtain ⟨d, b⟩ := p
    cases d <;> simp [Spec.heads, headSize, ih]

theorem length_layout (ps : List Part) : (layout ps).length = headSize ps + (Spec.tails ps).length := by
  simp [layout, length_heads]

theorem sumHeadLen_rep {prof : Profile} {ms : List Mediate} {ps : List Part} (h : RepAll prof ms ps)
    (acc : Nat) (hb : acc + headSize ps < 2 ^ 32) :
    Mediate.sumHeadLen prof ms acc = .ok (acc + headSize ps) := by
  induction h generalizing acc with
  | nil => simp [Mediate.sumHeadLen, headSize]
  | @cons m p ms ps hr _ ih =>
    obtain ⟨d, b⟩ := p
    cases d
    · obtain ⟨h1, -, -, -⟩ := hr
      simp only [headSize] at hb ⊢
      simp only [Mediate.sumHeadLen, h1, Res.ok_bind]
      rw [u32add_ok (by omega), Res.ok_bind, ih _ (by omega), Nat.add_assoc]
    · obtain ⟨h1, -, -, -⟩ := hr
      simp only [headSize] at hb ⊢
      simp only [Mediate.sumHeadLen, h1, Res.ok_bind]
      rw [u32add_ok (by omega), Res.ok_bind, ih _ (by omega), Nat.add_assoc]

theorem sumLen_rep {prof : Profile} {ms : List Mediate} {ps : List Part} (h : RepAll prof ms ps)
    (acc : Nat) (hb : acc + (layout ps).length < 2 ^ 32) :
    Mediate.sumLen prof ms acc = .ok (acc + (layout ps).length) := by
  rw [length_layout] at *
  induction h generalizing acc with
  | nil => simp [Mediate.sumLen, headSize, Spec.tails]
  | @cons m p ms ps hr _ ih =>
    obtain ⟨d, b⟩ := p
    cases d
    · obtain ⟨h1, h2, -, -⟩ := hr
      simp only [headSize, Spec.tails] at hb ⊢
      simp only [Mediate.sumLen, h1, h2, Res.ok_bind]
      rw [u32add_ok (by omega), Res.ok_bind, u32add_ok (by omega), Res.ok_bind, ih _ (by omega)]
      congr 1; omega
    · obtain ⟨h1, h2, -, -⟩ := hr
      simp only [headSize, Spec.tails, List.length_append] at hb ⊢
      simp only [Mediate.sumLen, h1, h2, Res.ok_bind]
      rw [u32add_ok (by omega), Res.ok_bind, u32add_ok (by omega), Res.ok_bind, ih _ (by omega)]
      congr 1; omega

theorem heads_rep {prof : Profile} {ms : List Mediate} {ps : List Part} (h : RepAll prof ms ps)
    (acc : List Word) (off : Nat) (hb : off + (Spec.tails ps).length < 2 ^ 32) :
    ∃ ws, Mediate.heads prof ms acc off = .ok (acc ++ ws, off + (Spec.tails ps).length)
      ∧ flattenWords ws = Spec.heads ps off := by
  induction h generalizing acc off with
  | nil => exact ⟨[], by simp [Mediate.heads, Spec.tails], rfl⟩
  | @cons m p ms ps hr _ ih =>
    obtain ⟨d, b⟩ := p
    cases d
    · obtain ⟨-, h2, h3, -⟩ := hr
      simp only [Spec.tails] at hb ⊢
      obtain ⟨ws, e1, e2⟩ := ih (acc ++ m.head off) off hb
      refine ⟨m.head off ++ ws, ?_, ?_⟩
      · simp only [Mediate.heads, h2, Res.ok_bind]
        rw [u32add_ok (by omega), Res.ok_bind, Nat.add_zero, e1, List.append_assoc]
      · rw [flattenWords_append, h3, e2]; rfl
    · obtain ⟨-, h2, h3, -⟩ := hr
      simp only [Spec.tails, List.length_append] at hb ⊢
      obtain ⟨ws, e1, e2⟩ := ih (acc ++ m.head off) (off + b.length) (by omega)
      refine ⟨m.head off ++ ws, ?_, ?_⟩
      · simp only [Mediate.heads, h2, Res.ok_bind]
        rw [u32add_ok (by omega), Res.ok_bind, e1, List.append_assoc, Nat.add_assoc]
      · rw [flattenWords_append, h3, e2, flattenWords_cons, padU32_val off (by omega)]; rfl

theorem tails_rep {prof : Profile} {ms : List Mediate} {ps : List Part} (h : RepAll prof ms ps) :
    ∃ ws, Mediate.tails prof ms = .ok ws ∧ flattenWords ws = Spec.tails ps := by
  induction h with
  | nil => exact ⟨[], rfl, rfl⟩
  | @cons m p ms ps hr _ ih =>
    obtain ⟨ws, e1, e2⟩ := ih
    obtain ⟨d, b⟩ := p
    cases d
    · obtain ⟨-, -, -, h4⟩ := hr
      exact ⟨ws, by simp [Mediate.tails, h4, e1], e2⟩
    · obtain ⟨-, -, -, us, h4, h5⟩ := hr
      exact ⟨us ++ ws, by simp [Mediate.tails, h4, e1], by rw [flattenWords_append, h5, e2]; rfl⟩

theorem encodeHeadTail_rep {prof : Profile} {ms : List Mediate} {ps : List Part} (h : RepAll prof ms ps)
    (hb : (layout ps).length < 2 ^ 32) :
    ∃ ws, encodeHeadTail prof ms = .ok ws ∧ flattenWords ws = layout ps := by
  have hl := length_layout ps
  obtain ⟨us, e1, e2⟩ := tails_rep h
  obtain ⟨ws, e3, e4⟩ := heads_rep h [] (headSize ps) (by omega)
  refine ⟨ws ++ us, ?_, ?_⟩
  · rw [encodeHeadTail, Mediate.assemble, sumHeadLen_rep h 0 (by omega), Nat.zero_add, Res.ok_bind, e3,
      Res.ok_bind, e1]
    rfl
  · rw [flattenWords_append, e2, e4]; rfl

theorem rep_raw {prof : Profile} (ws : List Word) (hb : (flattenWords ws).length < 2 ^ 32) :
    Rep prof (.raw ws) (false, flattenWords ws) := by
  have hl := length_flattenWords ws
  have h32 : asU32 ws.length = ws.length := Nat.mod_eq_of_lt (by omega)
  refine ⟨?_, rfl, fun _ => rfl, rfl⟩
  rw [Mediate.headLen, h32, u32mul_ok (by omega), hl]

theorem rep_raw' {prof : Profile} (ws : List Word) (b : Bytes) (e : flattenWords ws = b)
    (hb : b.length < 2 ^ 32) : Rep prof (.raw ws) (false, b) := by
  subst e; exact rep_raw ws hb

theorem rep_prefixed {prof : Profile} (b : Bytes) (hb : (Spec.word b.length ++ Spec.padRight b).length < 2 ^ 32) :
    Rep prof (.prefixed (padBytes b)) (true, Spec.word b.length ++ Spec.padRight b) := by
  have hp := length_padRight b
  simp only [List.length_append, length_word] at hb
  have h32 : asU32 b.length = b.length := Nat.mod_eq_of_lt (by omega)
  have e : flattenWords (padBytes b) = Spec.word b.length ++ Spec.padRight b := by
    rw [padBytes, flattenWords_cons, h32, padU32_val _ (by omega), flatten_padFixedBytes]
  have hl := length_flattenWords (padBytes b)
  rw [e, List.length_append, length_word] at hl
  refine ⟨rfl, ?_, fun _ => rfl, padBytes b, rfl, e⟩
  have h32' : asU32 (padBytes b).length = (padBytes b).length := Nat.mod_eq_of_lt (by omega)
  rw [Mediate.tailLen, h32', u32mul_ok (by omega), List.length_append, length_word]
  congr 1; omega

/-- heads of an all-static list do not depend on offsets -/
def allStatic (ps : List Part) : Prop := ∀ p ∈ ps, p.1 = false

theorem static_heads {ps : List Part} (h : allStatic ps) (off : Nat) :
    Spec.heads ps off = ps.flatMap (·.2) ∧ Spec.tails ps = [] := by
  induction ps with
  | nil => exact ⟨rfl, rfl⟩
  | cons p ps ih =>
    obtain ⟨d, b⟩ := p
    have : d = false := h (d, b) (by simp)
    subst this
    obtain ⟨i1, i2⟩ := ih (fun q hq => h q (by simp [hq]))
    exact ⟨by simp [Spec.heads, i1], by simp [Spec.tails, i2]⟩

theorem static_layout {ps : List Part} (h : allStatic ps) : layout ps = ps.flatMap (·.2) := by
  rw [layout, (static_heads h _).1, (static_heads h 0).2, List.append_nil]

theorem headsZero_rep {prof : Profile} {ms : List Mediate} {ps : List Part} (h : RepAll prof ms ps)
    (hs : allStatic ps) : flattenWords (Mediate.headsZero ms) = ps.flatMap (·.2) := by
  induction h with
  | nil => rfl
  | @cons m p ms ps hr _ ih =>
    obtain ⟨d, b⟩ := p
    have : d = false := hs (d, b) (by simp)
    subst this
    obtain ⟨-, -, h3, -⟩ := hr
    rw [Mediate.headsZero, flattenWords_append, h3, ih (fun q hq => hs q (by simp [hq]))]; rfl

theorem static_tails_length {ps : List Part} (h : allStatic ps) : headSize ps = (layout ps).length := by
  rw [length_layout, (static_heads h 0).2]; rfl

theorem rep_rawTuple {prof : Profile} {ms : List Mediate} {ps : List Part} (h : RepAll prof ms ps)
    (hs : allStatic ps) (hb : (layout ps).length < 2 ^ 32) :
    Rep prof (.rawTuple ms) (false, layout ps) := by
  have h1 := static_tails_length hs
  refine ⟨?_, rfl, fun _ => ?_, rfl⟩
  · rw [Mediate.headLen, sumHeadLen_rep h 0 (by omega), Nat.zero_add, h1]
  · rw [Mediate.head, headsZero_rep h hs, static_layout hs]

theorem rep_prefixedTuple {prof : Profile} {ms : List Mediate} {ps : List Part} (h : RepAll prof ms ps)
    (hb : (layout ps).length < 2 ^ 32) : Rep prof (.prefixedTuple ms) (true, layout ps) := by
  refine ⟨rfl, ?_, fun _ => rfl, encodeHeadTail_rep h hb⟩
  rw [Mediate.tailLen, sumLen_rep h 0 (by omega), Nat.zero_add]

theorem rep_prefixedArray {prof : Profile} {ms : List Mediate} {ps : List Part} (h : RepAll prof ms ps)
    (hb : (layout ps).length < 2 ^ 32) : Rep prof (.prefixedArray ms) (true, layout ps) := by
  refine ⟨rfl, ?_, fun _ => rfl, encodeHeadTail_rep h hb⟩
  rw [Mediate.tailLen, sumLen_rep h 0 (by omega), Nat.zero_add]

theorem rep_prefixedArrayWithLength {prof : Profile} {ms : List Mediate} {ps : List Part} (h : RepAll prof ms ps)
    (hc : ms.length < 2 ^ 32)
    (hb : (Spec.word ms.length ++ layout ps).length < 2 ^ 32) :
    Rep prof (.prefixedArrayWithLength ms) (true, Spec.word ms.length ++ layout ps) := by
  simp only [List.length_append, length_word] at hb
  obtain ⟨ws, e1, e2⟩ := encodeHeadTail_rep h (by omega)
  have h32 : asU32 ms.length = ms.length := Nat.mod_eq_of_lt hc
  refine ⟨rfl, ?_, fun _ => rfl, padU32 ms.length :: ws, ?_, ?_⟩
  · rw [Mediate.tailLen, sumLen_rep h 32 (by omega), List.length_append, length_word]
  · rw [encodeHeadTail] at e1
    rw [Mediate.tail, e1, Res.ok_bind, h32]
  · rw [flattenWords_cons, e2, padU32_val _ hc]

/-! ### dynamic tokens and dynamic types agree -/

mutual
theorem isDynamic_eq : ∀ (tok : Token) (t : ParamType), hasType tok t = true → codable t = true →
    tok.isDynamic = dynamic t
  | .address _, t => by cases t <;> simp [hasType, dynamic, Token.isDynamic]
  | .uint _, t => by cases t <;> simp [hasType, dynamic, Token.isDynamic]
  | .int _, t => by cases t <;> simp [hasType, dynamic, Token.isDynamic]
  | .bool _, t => by cases t <;> simp [hasType, dynamic, Token.isDynamic]
  | .fixedBytes _, t => by cases t <;> simp [hasType, dynamic, Token.isDynamic]
  | .bytes _, t => by cases t <;> simp [hasType, dynamic, Token.isDynamic]
  | .string _, t => by cases t <;> simp [hasType, dynamic, Token.isDynamic]
  | .array _, t => by cases t <;> simp [hasType, dynamic, Token.isDynamic]
  | .fixedArray ts, t => by
      cases t with
      | fixedArray t n =>
        simp only [hasType, codable, Bool.and_eq_true, beq_iff_eq, dynamic, Token.isDynamic]
        rintro ⟨h1, h2⟩ ⟨h3, h4⟩
        rw [anyDynamic_eq ts t h2 h3]
        cases hd : dynamic t
        · rfl
        · simp only [hd, Bool.not_true, Bool.or_false, bne_iff_ne] at h4
          cases ts with
          | nil => simp at h1; omega
          | cons => rfl
      | _ => simp [hasType]
  | .tuple ts, t => by
      cases t with
      | tuple ps =>
        simp only [hasType, codable, dynamic, Token.isDynamic]
        exact anyDynamic_zip ts ps
      | _ => simp [hasType]
theorem anyDynamic_eq : ∀ (toks : List Token) (t : ParamType), allHaveType toks t = true → codable t = true →
    Token.anyDynamic toks = (dynamic t && !toks.isEmpty)
  | [], t => by simp [Token.anyDynamic]
  | tok :: toks, t => by
      simp only [allHaveType, Bool.and_eq_true, Token.anyDynamic, and_imp]
      intro h1 h2 h3
      rw [isDynamic_eq tok t h1 h3, anyDynamic_eq toks t h2 h3]
      cases dynamic t <;> simp
theorem anyDynamic_zip : ∀ (toks : List Token) (ts : List ParamType), haveTypes toks ts = true →
    codableAll ts = true → Token.anyDynamic toks = dynamicAny ts
  | [], [] => by simp [Token.anyDynamic, dynamicAny]
  | [], _ :: _ => by simp [haveTypes]
  | _ :: _, [] => by simp [haveTypes]
  | tok :: toks, t :: ts => by
      simp only [haveTypes, codableAll, Bool.and_eq_true, Token.anyDynamic, dynamicAny, and_imp]
      intro h1 h2 h3 h4
      rw [isDynamic_eq tok t h1 h3, anyDynamic_zip toks ts h2 h4]
end

/-! ### every token is encoded as specified -/

theorem part_length_le {ps : List Part} {p : Part} (h : p ∈ ps) : p.2.length ≤ (layout ps).length := by
  rw [length_layout]
  induction ps with
  | nil => simp at h
  | cons q ps ih =>
    obtain ⟨d, b⟩ := q
    rcases List.mem_cons.1 h with rfl | h
    · cases d <;> simp [headSize, Spec.tails] <;> omega
    · have := ih h
      cases d <;> simp [headSize, Spec.tails] <;> omega

theorem layout_cons_length_le (p : Part) (ps : List Part) : (layout ps).length ≤ (layout (p :: ps)).length := by
  rw [length_layout, length_layout]
  obtain ⟨d, b⟩ := p
  cases d <;> simp [headSize, Spec.tails] <;> omega

theorem allStatic_encAll (toks : List Token) (t : ParamType) (h : dynamic t = false) :
    allStatic (encAll toks t) := by
  induction toks with
  | nil => intro p hp; simp [encAll] at hp
  | cons tok toks ih =>
    intro p hp
    simp only [encAll, List.mem_cons] at hp
    rcases hp with rfl | hp
    · exact h
    · exact ih p hp

theorem allStatic_encZip (toks : List Token) (ts : List ParamType) (h : dynamicAny ts = false) :
    allStatic (encZip toks ts) := by
  induction toks generalizing ts with
  | nil => intro p hp; cases ts <;> simp [encZip] at hp
  | cons tok toks ih =>
    cases ts with
    | nil => intro p hp; simp [encZip] at hp
    | cons t ts =>
      simp only [dynamicAny, Bool.or_eq_false_iff] at h
      intro p hp
      simp only [encZip, List.mem_cons] at hp
      rcases hp with rfl | hp
      · exact h.1
      · exact ih ts h.2 p hp

theorem length_encAll (toks : List Token) (t : ParamType) : (encAll toks t).length = toks.length := by
  induction toks with
  | nil => rfl
  | cons _ _ ih => simp [encAll, ih]

mutual
theorem rep_token (prof : Profile) : ∀ (tok : Token) (t : ParamType), hasType tok t = true → codable t = true →
    countsFit tok = true → (enc tok t).length < 2 ^ 32 →
    ∃ m, encodeToken prof tok = .ok m ∧ Rep prof m (dynamic t, enc tok t)
  | .address a, t, ht, _, _, hb => by
      cases t <;> simp only [hasType, Bool.false_eq_true] at ht
      exact ⟨_, rfl, rep_raw' _ _ (by simp [padAddress, enc]) hb⟩
  | .uint v, t, ht, _, _, hb => by
      cases t <;> simp only [hasType, Bool.false_eq_true] at ht
      exact ⟨_, rfl, rep_raw' _ _ (by rw [flattenWords_cons, toWord_val, flattenWords_nil, List.append_nil, enc]) hb⟩
  | .int v, t, ht, _, _, hb => by
      cases t <;> simp only [hasType, Bool.false_eq_true] at ht
      exact ⟨_, rfl, rep_raw' _ _ (by rw [flattenWords_cons, toWord_val, flattenWords_nil, List.append_nil, enc]) hb⟩
  | .bool b, t, ht, _, _, hb => by
      cases t <;> simp only [hasType, Bool.false_eq_true] at ht
      exact ⟨_, rfl, rep_raw' _ _ (by rw [flattenWords_cons, padBool_val, flattenWords_nil, List.append_nil, enc]) hb⟩
  | .fixedBytes b, t, ht, _, _, hb => by
      cases t <;> simp only [hasType, Bool.false_eq_true] at ht
      exact ⟨_, rfl, rep_raw' _ _ (by rw [flatten_padFixedBytes, enc]) hb⟩
  | .bytes b, t, ht, _, _, hb => by
      cases t <;> simp only [hasType, Bool.false_eq_true] at ht
      simp only [enc] at hb ⊢
      exact ⟨_, rfl, rep_prefixed b hb⟩
  | .string s, t, ht, _, _, hb => by
      cases t <;> simp only [hasType, Bool.false_eq_true] at ht
      simp only [enc, ← utf8_eq_core] at hb ⊢
      exact ⟨_, rfl, rep_prefixed (utf8 s) hb⟩
  | .array ts, t, ht, hc, hf, hb => by
      cases t <;> simp only [hasType, Bool.false_eq_true] at ht
      rename_i t
      simp only [codable] at hc
      simp only [countsFit, Bool.and_eq_true, decide_eq_true_eq] at hf
      simp only [enc, List.length_append, length_word] at hb
      obtain ⟨ms, e, h⟩ := rep_all prof ts t ht hc hf.2 (by omega)
      have hl : ms.length = ts.length := by rw [repAll_length h, length_encAll]
      refine ⟨.prefixedArrayWithLength ms, by simp [encodeToken, e], ?_⟩
      simp only [enc, dynamic, ← hl]
      exact rep_prefixedArrayWithLength h (by omega) (by simp only [List.length_append, length_word]; omega)
  | .fixedArray ts, t, ht, hc, hf, hb => by
      have hdyn := isDynamic_eq _ _ ht hc
      cases t <;> simp only [hasType, Bool.false_eq_true] at ht
      rename_i t n
      simp only [codable, Bool.and_eq_true] at hc
      simp only [countsFit] at hf
      simp only [enc] at hb
      simp only [Bool.and_eq_true] at ht
      obtain ⟨ms, e, h⟩ := rep_all prof ts t ht.2 hc.1 hf hb
      simp only [Token.isDynamic, dynamic] at hdyn
      simp only [encodeToken, e, Res.ok_bind, hdyn, dynamic, enc]
      cases hd : dynamic t
      · obtain ⟨ws, e1, e2⟩ := encodeHeadTail_rep h hb
        refine ⟨.raw ws, by simp [e1], rep_raw' _ _ e2 hb⟩
      · exact ⟨_, rfl, rep_prefixedArray h hb⟩
  | .tuple ts, t, ht, hc, hf, hb => by
      have hdyn := isDynamic_eq _ _ ht hc
      cases t <;> simp only [hasType, Bool.false_eq_true] at ht
      rename_i ps
      simp only [codable] at hc
      simp only [countsFit] at hf
      simp only [enc] at hb
      obtain ⟨ms, e, h⟩ := rep_zip prof ts ps ht hc hf hb
      simp only [Token.isDynamic, dynamic] at hdyn
      simp only [encodeToken, e, Res.ok_bind, hdyn, dynamic, enc]
      cases hd : dynamicAny ps
      · exact ⟨_, rfl, rep_rawTuple h (allStatic_encZip ts ps hd) hb⟩
      · exact ⟨_, rfl, rep_prefixedTuple h hb⟩
theorem rep_all (prof : Profile) : ∀ (toks : List Token) (t : ParamType), allHaveType toks t = true →
    codable t = true → countsFitAll toks = true → (layout (encAll toks t)).length < 2 ^ 32 →
    ∃ ms, encodeTokens prof toks = .ok ms ∧ RepAll prof ms (encAll toks t)
  | [], _, _, _, _, _ => ⟨[], rfl, .nil⟩
  | tok :: toks, t, ht, hc, hf, hb => by
      simp only [allHaveType, Bool.and_eq_true] at ht
      simp only [countsFitAll, Bool.and_eq_true] at hf
      simp only [encAll] at hb
      have h1 := part_length_le (ps := (dynamic t, enc tok t) :: encAll toks t) (p := (dynamic t, enc tok t)) (by simp)
      have h2 := layout_cons_length_le (dynamic t, enc tok t) (encAll toks t)
      obtain ⟨m, e1, r1⟩ := rep_token prof tok t ht.1 hc hf.1 (by simp only at h1; omega)
      obtain ⟨ms, e2, r2⟩ := rep_all prof toks t ht.2 hc hf.2 (by omega)
      exact ⟨m :: ms, by simp [encodeTokens, e1, e2], .cons r1 r2⟩
theorem rep_zip (prof : Profile) : ∀ (toks : List Token) (ts : List ParamType), haveTypes toks ts = true →
    codableAll ts = true → countsFitAll toks = true → (layout (encZip toks ts)).length < 2 ^ 32 →
    ∃ ms, encodeTokens prof toks = .ok ms ∧ RepAll prof ms (encZip toks ts)
  | [], [], _, _, _, _ => ⟨[], rfl, .nil⟩
  | [], _ :: _, ht, _, _, _ => by simp [haveTypes] at ht
  | _ :: _, [], ht, _, _, _ => by simp [haveTypes] at ht
  | tok :: toks, t :: ts, ht, hc, hf, hb => by
      simp only [haveTypes, Bool.and_eq_true] at ht
      simp only [codableAll, Bool.and_eq_true] at hc
      simp only [countsFitAll, Bool.and_eq_true] at hf
      simp only [encZip] at hb
      have h1 := part_length_le (ps := (dynamic t, enc tok t) :: encZip toks ts) (p := (dynamic t, enc tok t)) (by simp)
      have h2 := layout_cons_length_le (dynamic t, enc tok t) (encZip toks ts)
      obtain ⟨m, e1, r1⟩ := rep_token prof tok t ht.1 hc.1 hf.1 (by simp only at h1; omega)
      obtain ⟨ms, e2, r2⟩ := rep_zip prof toks ts ht.2 hc.2 hf.2 (by omega)
      exact ⟨m :: ms, by simp [encodeTokens, e1, e2], .cons r1 r2⟩
end

theorem encode_eq_spec (prof : Profile) (toks : List Token) (ts : List ParamType)
    (ht : haveTypes toks ts = true) (hc : codableAll ts = true) (hf : countsFitAll toks = true)
    (hb : (Spec.encodeArgs toks ts).length < 2 ^ 32) :
    encode prof toks = .ok (Spec.encodeArgs toks ts) := by
  obtain ⟨ms, e, h⟩ := rep_zip prof toks ts ht hc hf hb
  obtain ⟨ws, e1, e2⟩ := encodeHeadTail_rep h hb
  rw [encode, e, Res.ok_bind, e1, Res.ok_bind, e2]
  rfl

end Ethabi

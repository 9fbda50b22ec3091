import Verif.Proofs.Logs
import Verif.Proofs.Filter
import Verif.Props.Reading
/-!
# Lemmas for C80: filters against arbitrary logs
-/
namespace Ethabi.FilterLogs
open Spec Logs

theorem forall₂_mem_left {α β : Type} {R : α → β → Prop} {l : List α} {l' : List β} (h : List.Forall₂ R l l') :
    ∀ a ∈ l, ∃ b, R a b := by
  induction h with
  | nil => simp
  | cons h _ ih =>
    intro a ha
    rcases List.mem_cons.1 ha with rfl | ha
    · exact ⟨_, h⟩
    · exact ih a ha

/-- what one topic holds -/
theorem reads_topic (t : ParamType) (hs : solidity t = true) (pre w rest : Bytes) (hw : w.length = 32) (tok : Token) :
    reads (topicType t) (pre ++ (w ++ rest)) pre.length tok ↔ reads (topicType t) w 0 tok := by
  have e1 : (pre ++ (w ++ rest)).drop pre.length = w ++ rest := List.drop_left
  have e2 : ∀ n, n ≤ 32 → (w ++ rest).take n = w.take n := by
    intro n hn; rw [List.take_append_of_le_length (by omega)]
  have key : ∀ n, n ≤ 32 → ((pre ++ (w ++ rest)).drop pre.length).take n = (w.drop 0).take n := by
    intro n hn; rw [e1, e2 n hn]; rfl
  cases t <;> simp only [topicType, valueType, if_true, Bool.false_eq_true, if_false, reads, numberAt, key 32 (Nat.le_refl 32)]
  case fixedBytes n =>
    simp only [solidity, decide_eq_true_eq] at hs
    rw [key n hs.2]
    simp only [List.length_append]
    constructor
    · rintro ⟨-, h⟩; exact ⟨by omega, h⟩
    · rintro ⟨-, h⟩; exact ⟨by omega, h⟩
  all_goals
    simp only [List.length_append]
    constructor
    · rintro ⟨-, h⟩; exact ⟨by omega, h⟩
    · rintro ⟨-, h⟩; exact ⟨by omega, h⟩

theorem headWidth_topic (t : ParamType) : headWidth (topicType t) = 32 := by
  cases t <;> simp [topicType, valueType, headWidth, dynamic, staticSize]

/-- topics are read one by one -/
theorem readsAll_topics : ∀ (ts : List ParamType) (ws : List Bytes) (pre : Bytes) (toks : List Token),
    (∀ t ∈ ts, solidity t = true) → (∀ w ∈ ws, w.length = 32) → ws.length = ts.length →
    readsAll (ts.map topicType) (pre ++ ws.flatten) pre.length toks →
    toks.length = ts.length ∧
    ∀ (i : Nat) t w tok, ts[i]? = some t → ws[i]? = some w → toks[i]? = some tok → reads (topicType t) w 0 tok
  | [], ws, pre, toks, hs, hw, hl, h => by
    simp only [List.map_nil, readsAll] at h
    subst h
    exact ⟨rfl, by simp⟩
  | t :: ts, [], pre, toks, hs, hw, hl, h => by simp at hl
  | t :: ts, w :: ws, pre, toks, hs, hw, hl, h => by
    simp only [List.map_cons, readsAll, headWidth_topic] at h
    obtain ⟨tok, rest, h1, h2, rfl⟩ := h
    have hw0 := hw w (by simp)
    rw [List.flatten_cons, reads_topic t (hs t (by simp)) pre w _ hw0] at h1
    have h3 := readsAll_topics ts ws (pre ++ w) rest (fun t ht => hs t (by simp [ht])) (fun w h => hw w (by simp [h]))
      (by simpa using hl) (by rw [List.append_assoc, List.length_append, hw0]; exact h2)
    refine ⟨by simp [h3.1], ?_⟩
    intro i
    cases i with
    | zero =>
      intro t' w' tok' a b c
      simp only [List.getElem?_cons_zero, Option.some.injEq] at a b c
      subst a; subst b; subst c; exact h1
    | succ i =>
      intro t' w' tok' a b c
      exact h3.2 i t' w' tok' (by simpa using a) (by simpa using b) (by simpa using c)

theorem narrow_value {t : ParamType} (hv : valueType t = true) (hs : solidity t = true) : narrow t = true := by
  cases t <;> simp_all [valueType, narrow, solidity] <;> omega

/-- the encoding of a value holds this value and no other -/
theorem reads_enc {t : ParamType} {v tok : Token} (hv : valueType t = true) (hs : solidity t = true)
    (hty : hasType v t = true) : reads t (enc v t) 0 tok ↔ tok = v := by
  have hd : dynamic t = false := by cases t <;> simp_all [valueType, dynamic]
  have hsz : staticSize t = 32 := by cases t <;> simp_all [valueType, staticSize]
  have hc := solidity_codable _ hs
  have hcf : countsFit v = true := by
    cases t <;> cases v <;> simp_all [valueType, hasType, countsFit]
  have hlen : (enc v t).length = 32 := by rw [staticSize_enc v t hty hc hd, hsz]
  have ea : encodeArgs [v] [t] = enc v t := encodeArgs_value v t hd
  have hdec := decode_encodeArgs .debug [v] [t] [] (by simp [haveTypes, hty]) (bytesOkAll_of_codable _ (by simp [codableAll, hc]))
    (by simp [countsFitAll, hcf]) (by rw [ea, hlen]; decide) (by rw [ea, List.append_nil, hlen]; decide)
    (Or.inl (by
      have : nonzeroWidthAny [t] = nonzeroWidth t := by simp [nonzeroWidthAny]
      rw [this]; cases t <;> simp_all [valueType, nonzeroWidth, solidity] <;> omega))
  rw [List.append_nil, ea] at hdec
  have hn : narrowAll [t] = true := by simp [narrowAll, narrow_value hv hs]
  have hl63 : (enc v t).length < 2 ^ 63 := by omega
  have hx := fun toks => Props.C74_decodes_exactly .debug [t] (enc v t) toks hn hl63
  constructor
  · intro h
    have := (hx [tok]).2 ⟨Or.inl (by intro e; rw [e] at hlen; simp at hlen), ⟨tok, [], h, rfl, rfl⟩⟩
    rw [hdec] at this
    simpa using this.symm
  · rintro rfl
    obtain ⟨-, tok', rest, h1, -, h3⟩ := (hx [tok]).1 hdec
    simp only [List.cons.injEq] at h3
    rw [← h3.1] at h1; exact h1

/-- a number topic is the encoding of the number read from it -/
theorem integer_exact {t : ParamType} {w : Bytes} {tok : Token} (hi : (∃ n, t = .uint n) ∨ ∃ n, t = .int n)
    (hw : w.length = 32) (h : reads t w 0 tok) : hasType tok t = true ∧ w = enc tok t := by
  rcases hi with ⟨n, rfl⟩ | ⟨n, rfl⟩ <;> simp only [reads, numberAt] at h <;> obtain ⟨m, ⟨hm, he⟩, rfl⟩ := h <;>
    (refine ⟨rfl, ?_⟩; rw [List.drop_zero, List.take_of_length_le (by omega)] at he; rw [he]; simp [enc, Nat.mod_eq_of_lt hm])

/-- the word a filter asks for is the encoding of the token -/
theorem convertToken_enc {hash : Bytes → Word} {prof : Profile} {t : Token} {k : ParamType} {w : Word}
    (hv : valueType k = true) (hs : solidity k = true) (hty : hasType t k = true)
    (h : convertToken hash prof t k = .ok w) : w.1 = enc t k := by
  have hd : dynamic k = false := by cases k <;> simp_all [valueType, dynamic]
  have hsz : staticSize k = 32 := by cases k <;> simp_all [valueType, staticSize]
  have hc := solidity_codable _ hs
  obtain ⟨-, b, hb, hwb⟩ := convertToken_ok h
  have hcf : countsFit t = true := by cases k <;> cases t <;> simp_all [valueType, hasType, countsFit]
  obtain ⟨e1, e2, e3⟩ := encode_value prof t k hd (hasType_valueOf _ _ hty) (nonemptyFixed_value t k hv hs hty) hc hcf (by omega)
  rw [zeroExtend_value t k hv hty] at e1 e2 e3
  rw [hb] at e1
  simp only [Res.ok.injEq] at e1
  rw [e1, e3, hsz, if_pos rfl] at hwb
  exact hwb

/-- one slot: `w` the topic and `v` what was read from it -/
theorem slot {hash : Bytes → Word} {prof : Profile} {topic : Topic Token} {tw : Topic Word} {k : Option ParamType}
    {w : Option Bytes} {v : Option Token}
    (hk : ∀ q, k = some q → valueType q = true ∧ solidity q = true ∧ ∃ x y, w = some x ∧ v = some y ∧ reads q x 0 y)
    (ht : ∀ q, k = some q → ∀ t ∈ topicTokens topic, hasType t q = true)
    (h : convertTopic hash prof topic k = .ok tw) :
    (topicMatches tw w → tokenMatches topic v) ∧
    ((∀ q, k = some q → ∀ x, w = some x → ∃ y, hasType y q = true ∧ x = enc y q) → tokenMatches topic v → topicMatches tw w) := by
  have one : ∀ t h, t ∈ topicTokens topic → (∃ q, k = some q ∧ convertToken hash prof t q = .ok h) →
      (w = some h.1 → v = some t) ∧
      ((∀ q, k = some q → ∀ x, w = some x → ∃ y, hasType y q = true ∧ x = enc y q) → v = some t → w = some h.1) := by
    rintro t h hm ⟨q, hq, hc⟩
    obtain ⟨hv, hs, x, y, rfl, rfl, hr⟩ := hk q hq
    have hty := ht q hq t hm
    have he := convertToken_enc hv hs hty hc
    constructor
    · intro e
      simp only [Option.some.injEq] at e
      rw [e, he, reads_enc hv hs hty] at hr
      rw [hr]
    · intro hx e
      obtain ⟨z, hz, rfl⟩ := hx q hq x rfl
      rw [reads_enc hv hs hz] at hr
      simp only [Option.some.injEq] at e
      rw [he, ← e, hr]
  have hrel := convertTopic_rel h
  cases hrel with
  | any => exact ⟨fun _ => trivial, fun _ _ => trivial⟩
  | this hr => exact one _ _ (by simp [topicTokens]) hr
  | @oneOf l l' hr =>
    have hm : ∀ t ∈ l, t ∈ topicTokens (.oneOf l) := fun t h => h
    simp only [topicMatches, tokenMatches]
    clear h ht
    generalize topicTokens (.oneOf l) = big at hm one
    induction hr with
    | nil => simp
    | @cons t h l l' hr _ ih =>
      have o := one t h (hm t (by simp)) hr
      have ih := ih fun t h => hm t (by simp [h])
      simp only [List.mem_cons, exists_eq_or_imp]
      exact ⟨fun g => g.imp o.1 ih.1, fun hx g => g.imp (o.2 hx) (ih.2 hx)⟩

/-- the values at the indexed positions of an interleaving -/
theorem interleave_indexed : ∀ (ps : List EventParam) (tt dt : List Token) (vs : List LogParam),
    tt.length = (ps.filter (·.indexed)).length → dt.length = (ps.filter (!·.indexed)).length →
    vs.map (·.value) = interleave (ps.map (·.indexed)) tt dt →
    ((ps.zip vs).filter (·.1.indexed)).map (·.2.value) = tt
  | [], tt, dt, vs, h1, h2, h => by
    simp only [List.filter_nil, List.length_nil, List.length_eq_zero_iff] at h1
    subst h1; simp
  | p :: ps, tt, dt, vs, h1, h2, h => by
    cases hp : p.indexed with
    | true =>
      simp only [List.filter_cons, hp, if_true, List.length_cons, Bool.not_true, Bool.false_eq_true, if_false] at h1 h2
      cases tt with
      | nil => simp at h1
      | cons t tt =>
        simp only [List.map_cons, hp, interleave] at h
        cases vs with
        | nil => simp at h
        | cons v vs =>
          simp only [List.map_cons, List.cons.injEq] at h
          rw [List.zip_cons_cons, List.filter_cons, if_pos (by simpa using hp), List.map_cons,
            interleave_indexed ps tt dt vs (by simpa using h1) h2 h.2, h.1]
    | false =>
      simp only [List.filter_cons, hp, if_true, List.length_cons, Bool.not_false, Bool.false_eq_true, if_false] at h1 h2
      cases dt with
      | nil => simp at h2
      | cons t dt =>
        have h : vs.map (·.value) = t :: interleave (ps.map (·.indexed)) tt dt := by
          simpa only [List.map_cons, hp, interleave] using h
        cases vs with
        | nil => simp at h
        | cons v vs =>
          simp only [List.map_cons, List.cons.injEq] at h
          rw [List.zip_cons_cons, List.filter_cons, if_neg (by simp [hp]),
            interleave_indexed ps tt dt vs h1 (by simpa using h2) h.2]

end Ethabi.FilterLogs

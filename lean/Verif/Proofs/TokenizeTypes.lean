import Verif.Proofs.Tokenize
import Verif.Proofs.TypeCheck
/-! Structural facts about `tokenize`: lenient extends strict, types, panics. -/
namespace Ethabi
open Spec

theorem map_eq_ok {α β : Type} {f : α → β} {x : Res α} {b : β} : (f <$> x) = .ok b ↔ ∃ a, x = .ok a ∧ f a = b := by
  cases x <;> simp

theorem map_eq_panic {α β : Type} {f : α → β} {x : Res α} : (f <$> x) = .panic ↔ x = .panic := by
  cases x <;> simp

/-! ### lenient extends strict -/

theorem lenientUint_of_strict {v : Str} {w : Word} (h : strictUint v = .ok w) : lenientUint v = .ok w := by
  rw [lenientUint, h]

theorem lenientInt_of_strict {v : Str} {w : Word} (h : strictInt v = .ok w) : lenientInt v = .ok w := by
  rw [lenientInt, h]

theorem tokenizeFixedArray_mono {v : Str} {f f' : Str → Res Token} {n : Nat} {r : List Token}
    (hf : ∀ s t, f s = .ok t → f' s = .ok t) (h : tokenizeFixedArray v f n = .ok r) :
    tokenizeFixedArray v f' n = .ok r := by
  rw [tokenizeFixedArray] at h ⊢
  obtain ⟨l, hl, h⟩ := Res.bind_eq_ok.1 h
  have := tokenizePieces_mono (item' := fun _ s => f' s) (fun _ s t => hf s t) hl
  rw [tokenizeArray, this]
  exact h

mutual
theorem lenient_of_strict : ∀ (p : ParamType) (v : Str) (t : Token), tokenize .strict p v = .ok t →
    tokenize .lenient p v = .ok t
  | .address, _, _, h => h
  | .string, _, _, h => h
  | .bool, _, _, h => h
  | .bytes, _, _, h => h
  | .fixedBytes _, _, _, h => h
  | .uint _, v, t, h => by
      rw [tokenize, map_eq_ok] at h ⊢
      obtain ⟨w, hw, ht⟩ := h
      exact ⟨w, lenientUint_of_strict hw, ht⟩
  | .int _, v, t, h => by
      rw [tokenize, map_eq_ok] at h ⊢
      obtain ⟨w, hw, ht⟩ := h
      exact ⟨w, lenientInt_of_strict hw, ht⟩
  | .array p, v, t, h => by
      rw [tokenize, map_eq_ok] at h ⊢
      obtain ⟨w, hw, ht⟩ := h
      exact ⟨w, tokenizePieces_mono (fun _ s u => lenient_of_strict p s u) hw, ht⟩
  | .fixedArray p n, v, t, h => by
      rw [tokenize, map_eq_ok] at h ⊢
      obtain ⟨w, hw, ht⟩ := h
      exact ⟨w, tokenizeFixedArray_mono (fun s u => lenient_of_strict p s u) hw, ht⟩
  | .tuple ps, v, t, h => by
      rw [tokenize, map_eq_ok, tokenizeStruct_eq] at h ⊢
      obtain ⟨w, hw, ht⟩ := h
      refine ⟨w, tokenizePieces_mono ?_ hw, ht⟩
      intro i s u hu
      rw [memberItem] at hu ⊢
      cases hp : ps[i]? with
      | none => rw [hp] at hu; cases hu
      | some q =>
        rw [hp] at hu
        exact members_lenient_of_strict ps q (List.mem_of_getElem? hp) s u hu
theorem members_lenient_of_strict : ∀ (ps : List ParamType) (p : ParamType), p ∈ ps → ∀ (v : Str) (t : Token),
    tokenize .strict p v = .ok t → tokenize .lenient p v = .ok t
  | q :: ps, p, hp, v, t, h => by
      rcases List.mem_cons.1 hp with he | hp
      · rw [he] at h ⊢; exact lenient_of_strict q v t h
      · exact members_lenient_of_strict ps p hp v t h
end

/-! ### types -/

theorem allPrefixType_iff (ts : List Token) (p : ParamType) :
    allPrefixType ts p = true ↔ ∀ t ∈ ts, prefixType t p = true := by
  induction ts with
  | nil => simp [allPrefixType]
  | cons t ts ih => simp [allPrefixType, ih]

theorem prefixTypes_of (ts : List Token) : ∀ (ps : List ParamType),
    (∀ (i : Nat) t, ts[i]? = some t → ∃ p, ps[i]? = some p ∧ prefixType t p = true) → prefixTypes ts ps = true := by
  induction ts with
  | nil => intro ps _; simp [prefixTypes]
  | cons t ts ih =>
    intro ps h
    cases ps with
    | nil => obtain ⟨p, hp, -⟩ := h 0 t rfl; cases hp
    | cons p ps =>
      obtain ⟨q, hq, hq2⟩ := h 0 t rfl
      simp at hq; subst hq
      simp only [prefixTypes, hq2, Bool.true_and]
      exact ih ps (fun i u hu => by simpa using h (i + 1) u (by simpa using hu))

mutual
theorem tokenize_prefixType {m : Tokenizer} : ∀ (p : ParamType) (v : Str) (t : Token), tokenize m p v = .ok t →
    prefixType t p = true
  | .address, _, _, h => by
      rw [tokenize, map_eq_ok] at h; obtain ⟨_, -, rfl⟩ := h; rfl
  | .string, _, _, h => by
      rw [tokenize, map_eq_ok] at h; obtain ⟨_, -, rfl⟩ := h; rfl
  | .bool, _, _, h => by
      rw [tokenize, map_eq_ok] at h; obtain ⟨_, -, rfl⟩ := h; rfl
  | .bytes, _, _, h => by
      rw [tokenize, map_eq_ok] at h; obtain ⟨_, -, rfl⟩ := h; rfl
  | .uint _, _, _, h => by
      rw [tokenize, map_eq_ok] at h; obtain ⟨_, -, rfl⟩ := h; rfl
  | .int _, _, _, h => by
      rw [tokenize, map_eq_ok] at h; obtain ⟨_, -, rfl⟩ := h; rfl
  | .fixedBytes n, _, _, h => by
      rw [tokenize, map_eq_ok] at h; obtain ⟨b, hb, rfl⟩ := h
      rw [strictFixedBytes] at hb
      obtain ⟨b', -, hb⟩ := Res.bind_eq_ok.1 hb
      split at hb
      · rename_i h; rw [← Res.ok.inj hb]; simp [prefixType, h]
      · cases hb
  | .array p, v, t, h => by
      rw [tokenize, map_eq_ok] at h; obtain ⟨l, hl, rfl⟩ := h
      rw [prefixType, allPrefixType_iff]
      have := tokenizePieces_inv (fun _ t => prefixType t p = true) (fun _ s u => tokenize_prefixType p s u) hl
      intro u hu
      obtain ⟨i, hi⟩ := List.getElem?_of_mem hu
      exact this i u hi
  | .fixedArray p n, v, t, h => by
      rw [tokenize, map_eq_ok] at h; obtain ⟨l, hl, rfl⟩ := h
      rw [tokenizeFixedArray] at hl
      obtain ⟨l', hl', hl⟩ := Res.bind_eq_ok.1 hl
      split at hl
      · rename_i hn
        rw [← Res.ok.inj hl]
        rw [prefixType, Bool.and_eq_true, allPrefixType_iff]
        have := tokenizePieces_inv (fun _ t => prefixType t p = true) (fun _ s u => tokenize_prefixType p s u) hl'
        refine ⟨by simpa using hn, ?_⟩
        intro u hu
        obtain ⟨i, hi⟩ := List.getElem?_of_mem hu
        exact this i u hi
      · cases hl
  | .tuple ps, v, t, h => by
      rw [tokenize, map_eq_ok, tokenizeStruct_eq] at h
      obtain ⟨l, hl, rfl⟩ := h
      rw [prefixType]
      refine prefixTypes_of l ps ?_
      refine tokenizePieces_inv (fun i t => ∃ p, ps[i]? = some p ∧ prefixType t p = true) ?_ hl
      intro i s u hu
      rw [memberItem] at hu
      cases hp : ps[i]? with
      | none => rw [hp] at hu; cases hu
      | some q =>
        rw [hp] at hu
        exact ⟨q, rfl, members_prefixType ps q (List.mem_of_getElem? hp) s u hu⟩
theorem members_prefixType {m : Tokenizer} : ∀ (ps : List ParamType) (p : ParamType), p ∈ ps → ∀ (v : Str) (t : Token),
    tokenize m p v = .ok t → prefixType t p = true
  | q :: ps, p, hp, v, t, h => by
      rcases List.mem_cons.1 hp with he | hp
      · rw [he] at h ⊢; exact tokenize_prefixType q v t h
      · exact members_prefixType ps p hp v t h
end

mutual
theorem typeCheck_of_prefixType : ∀ (t : Token) (p : ParamType), prefixType t p = true → t.typeCheck p = .ok true
  | .address _, p, h => by cases p <;> first | rfl | cases h
  | .string _, p, h => by cases p <;> first | rfl | cases h
  | .bool _, p, h => by cases p <;> first | rfl | cases h
  | .bytes _, p, h => by cases p <;> first | rfl | cases h
  | .uint _, p, h => by cases p <;> first | rfl | cases h
  | .int _, p, h => by cases p <;> first | rfl | cases h
  | .fixedBytes b, p, h => by
      cases p <;> try cases h
      rename_i n
      simp [prefixType] at h
      simp [Token.typeCheck, h]
  | .array ts, p, h => by
      cases p <;> try cases h
      rw [prefixType] at h
      exact allCheck_of_prefixType ts _ h
  | .fixedArray ts, p, h => by
      cases p <;> try cases h
      rename_i q n
      simp only [prefixType, Bool.and_eq_true, beq_iff_eq] at h
      simp only [Token.typeCheck, h.1, beq_self_eq_true, if_true]
      exact allCheck_of_prefixType ts _ h.2
  | .tuple ts, p, h => by
      cases p <;> try cases h
      rw [prefixType] at h
      exact tupleCheck_of_prefixTypes ts _ h
theorem allCheck_of_prefixType : ∀ (ts : List Token) (p : ParamType), allPrefixType ts p = true →
    Token.allCheck ts p = .ok true
  | [], _, _ => rfl
  | t :: ts, p, h => by
      simp only [allPrefixType, Bool.and_eq_true] at h
      rw [Token.allCheck, typeCheck_of_prefixType t p h.1, Res.ok_bind, if_pos rfl]
      exact allCheck_of_prefixType ts p h.2
theorem tupleCheck_of_prefixTypes : ∀ (ts : List Token) (ps : List ParamType), prefixTypes ts ps = true →
    Token.tupleCheck ts ps = .ok true
  | [], _, _ => rfl
  | t :: ts, [], h => by cases h
  | t :: ts, p :: ps, h => by
      simp only [prefixTypes, Bool.and_eq_true] at h
      rw [Token.tupleCheck, typeCheck_of_prefixType t p h.1, Res.ok_bind, if_pos rfl]
      exact tupleCheck_of_prefixTypes ts ps h.2
end

mutual
theorem hasType_of_prefixType : ∀ (t : Token) (p : ParamType), tupleFree p = true → prefixType t p = true →
    hasType t p = true
  | .address _, p, _, h => by cases p <;> first | rfl | cases h
  | .string _, p, _, h => by cases p <;> first | rfl | cases h
  | .bool _, p, _, h => by cases p <;> first | rfl | cases h
  | .bytes _, p, _, h => by cases p <;> first | rfl | cases h
  | .uint _, p, _, h => by cases p <;> first | rfl | cases h
  | .int _, p, _, h => by cases p <;> first | rfl | cases h
  | .fixedBytes b, p, _, h => by cases p <;> first | exact h | cases h
  | .array ts, p, hf, h => by
      cases p <;> try cases h
      rw [prefixType] at h
      exact allHaveType_of_prefixType ts _ hf h
  | .fixedArray ts, p, hf, h => by
      cases p <;> try cases h
      simp only [prefixType, hasType, Bool.and_eq_true] at h ⊢
      exact ⟨h.1, allHaveType_of_prefixType ts _ hf h.2⟩
  | .tuple ts, p, hf, h => by cases p <;> first | cases h | cases hf
theorem allHaveType_of_prefixType : ∀ (ts : List Token) (p : ParamType), tupleFree p = true →
    allPrefixType ts p = true → allHaveType ts p = true
  | [], _, _, _ => rfl
  | t :: ts, p, hf, h => by
      simp only [allPrefixType, Bool.and_eq_true] at h
      simp only [allHaveType, Bool.and_eq_true]
      exact ⟨hasType_of_prefixType t p hf h.1, allHaveType_of_prefixType ts p hf h.2⟩
end

/-! ### panics -/

theorem hexDecode_noPanic : ∀ s : Str, hexDecode s ≠ .panic
  | [] => by simp [hexDecode]
  | [_] => by simp [hexDecode]
  | a :: b :: cs => by
      rw [hexDecode]
      split
      · have := hexDecode_noPanic cs
        cases h : hexDecode cs with
        | ok l => simp
        | err e => simp
        | panic => exact absurd h this
      · simp

theorem decLoop_noPanic : ∀ (s : Str) (n : Nat), decLoop s n ≠ .panic
  | [], _ => by simp [decLoop]
  | c :: cs, n => by
      rw [decLoop]
      split
      · exact decLoop_noPanic cs _
      · simp

theorem bind_noPanic {α β : Type} {x : Res α} {f : α → Res β} (hx : x ≠ .panic) (hf : ∀ a, f a ≠ .panic) :
    (x >>= f) ≠ .panic := by
  cases x with
  | ok a => exact hf a
  | err e => simp
  | panic => exact absurd rfl hx

theorem fromDecStr_noPanic (s : Str) : fromDecStr s ≠ .panic := by
  rw [fromDecStr]
  split
  · exact bind_noPanic (decLoop_noPanic _ _) (by simp)
  · simp

theorem strictUint_noPanic (s : Str) : strictUint s ≠ .panic :=
  bind_noPanic (hexDecode_noPanic s) (by intro a; split <;> simp)

theorem lenientUint_noPanic (s : Str) : lenientUint s ≠ .panic := by
  rw [lenientUint]
  split
  · simp
  · rename_i h; exact absurd h (strictUint_noPanic s)
  · exact bind_noPanic (fromDecStr_noPanic _) (by simp)

theorem lenientInt_noPanic (s : Str) : lenientInt s ≠ .panic := by
  rw [lenientInt]
  split
  · simp
  · rename_i h; exact absurd h (strictUint_noPanic s)
  · refine bind_noPanic (fromDecStr_noPanic _) (fun a => ?_)
    repeat' split
    all_goals simp

theorem tokenizeUint_noPanic (m : Tokenizer) (s : Str) : tokenizeUint m s ≠ .panic := by
  cases m
  · exact strictUint_noPanic s
  · exact lenientUint_noPanic s

theorem tokenizeInt_noPanic (m : Tokenizer) (s : Str) : tokenizeInt m s ≠ .panic := by
  cases m
  · exact strictUint_noPanic s
  · exact lenientInt_noPanic s

/-- elementary types never panic -/
theorem tokenize_leaf_noPanic (m : Tokenizer) (p : ParamType) (v : Str)
    (hp : match p with | .array _ => False | .fixedArray _ _ => False | .tuple _ => False | _ => True) :
    tokenize m p v ≠ .panic := by
  cases p <;> try exact hp.elim
  all_goals rw [tokenize, Ne, map_eq_panic]
  · exact bind_noPanic (hexDecode_noPanic _) (by intro a; split <;> simp)
  · exact hexDecode_noPanic _
  · exact tokenizeInt_noPanic m v
  · exact tokenizeUint_noPanic m v
  · rw [strictBool]; repeat' split
    all_goals simp
  · simp [strictString]
  · exact bind_noPanic (hexDecode_noPanic _) (by intro a; split <;> simp)

mutual
theorem tokenize_noPanic (m : Tokenizer) : ∀ (p : ParamType) (v : Str), ascii v → tokenize m p v ≠ .panic
  | .address, v, _ => tokenize_leaf_noPanic m _ v trivial
  | .string, v, _ => tokenize_leaf_noPanic m _ v trivial
  | .bool, v, _ => tokenize_leaf_noPanic m _ v trivial
  | .bytes, v, _ => tokenize_leaf_noPanic m _ v trivial
  | .fixedBytes _, v, _ => tokenize_leaf_noPanic m _ v trivial
  | .uint _, v, _ => tokenize_leaf_noPanic m _ v trivial
  | .int _, v, _ => tokenize_leaf_noPanic m _ v trivial
  | .array p, v, hv => by
      rw [tokenize, Ne, map_eq_panic]
      exact tokenizePieces_noPanic square hv (fun _ s hs => tokenize_noPanic m p s hs)
  | .fixedArray p n, v, hv => by
      rw [tokenize, Ne, map_eq_panic, tokenizeFixedArray]
      refine bind_noPanic (tokenizePieces_noPanic square hv (fun _ s hs => tokenize_noPanic m p s hs)) ?_
      intro l; split <;> simp
  | .tuple ps, v, hv => by
      rw [tokenize, Ne, map_eq_panic, tokenizeStruct_eq]
      refine tokenizePieces_noPanic round hv ?_
      intro i s hs
      rw [memberItem]
      cases hp : ps[i]? with
      | none => simp
      | some q => exact members_noPanic m ps q (List.mem_of_getElem? hp) s hs
theorem members_noPanic (m : Tokenizer) : ∀ (ps : List ParamType) (p : ParamType), p ∈ ps → ∀ (v : Str), ascii v →
    tokenize m p v ≠ .panic
  | q :: ps, p, hp, v, hv => by
      rcases List.mem_cons.1 hp with he | hp
      · rw [he]; exact tokenize_noPanic m q v hv
      · exact members_noPanic m ps p hp v hv
end

end Ethabi

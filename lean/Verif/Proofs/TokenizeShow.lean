import Verif.Proofs.TokenizeTypes
/-! Display text tokenizes back. -/
namespace Ethabi
open Spec

/-- a harmless character: ASCII and none of `" [ ] ( ) ,` -/
def harmless (c : Char) : Bool :=
  decide (c.toNat < 128) && c != '"' && c != '[' && c != ']' && c != '(' && c != ')' && c != ','

theorem elementText_harmless {o c : Char} (hoc : (o = '[' ∧ c = ']') ∨ (o = '(' ∧ c = ')')) {s : Str}
    (h : s.all harmless = true) : elementText o c 0 false s = true := by
  induction s with
  | nil => rfl
  | cons x s ih =>
    simp only [List.all_cons, Bool.and_eq_true, harmless, bne_iff_ne, ne_eq] at h
    obtain ⟨⟨⟨⟨⟨⟨⟨-, h1⟩, h2⟩, h3⟩, h4⟩, h5⟩, h6⟩, hs⟩ := h
    have hs : s.all harmless = true := hs
    rw [elementText, if_neg h1, if_neg (by simp)]
    rcases hoc with ⟨rfl, rfl⟩ | ⟨rfl, rfl⟩
    · rw [if_neg h2, if_neg h3, if_neg h6]; exact ih hs
    · rw [if_neg h4, if_neg h5, if_neg h6]; exact ih hs

theorem ascii_harmless {s : Str} (h : s.all harmless = true) : ascii s := by
  intro c hc
  have := List.all_eq_true.1 h c hc
  simp only [harmless, Bool.and_eq_true, decide_eq_true_eq] at this
  exact this.1.1.1.1.1.1

/-- element text in the middle of a text with more brackets open -/
theorem elementText_append {o c : Char} (k : Nat) (rest : Str) (p : Str) :
    ∀ (d : Nat) (q : Bool), elementText o c d q p = true →
    elementText o c (d + k) q (p ++ rest) = elementText o c k false rest := by
  induction p with
  | nil =>
    intro d q h
    simp [elementText] at h
    obtain ⟨rfl, rfl⟩ := h
    simp
  | cons ch p ih =>
    intro d q h
    rw [List.cons_append, elementText]
    rw [elementText] at h
    by_cases h1 : ch = '"'
    · rw [if_pos h1] at h ⊢; exact ih _ _ h
    rw [if_neg h1] at h ⊢
    by_cases h2 : q = true
    · rw [if_pos h2] at h ⊢; exact ih _ _ h
    rw [if_neg h2] at h ⊢
    by_cases h3 : ch = o
    · rw [if_pos h3] at h ⊢
      rw [← ih _ _ h]; congr 1; omega
    rw [if_neg h3] at h ⊢
    by_cases h4 : ch = c
    · rw [if_pos h4] at h ⊢
      simp only [Bool.and_eq_true, bne_iff_ne, ne_eq] at h
      have hd : (d + k != 0) = true := by simp; omega
      rw [hd, Bool.true_and, ← ih _ _ h.2]; congr 1; omega
    rw [if_neg h4] at h ⊢
    by_cases h5 : ch = ','
    · rw [if_pos h5] at h ⊢
      simp only [Bool.and_eq_true, bne_iff_ne, ne_eq] at h
      have hd : (d + k != 0) = true := by simp; omega
      rw [hd, Bool.true_and]; exact ih _ _ h.2
    rw [if_neg h5] at h ⊢
    exact ih _ _ h

theorem elementText_join {o c : Char} (hb : Brackets o c) (ps : List Str) (hp : ∀ p ∈ ps, elementText o c 0 false p = true) :
    elementText o c 1 false ([','].intercalate ps ++ [c]) = true := by
  have hend : elementText o c 1 false [c] = true := by
    rw [elementText, if_neg hb.cq, if_neg (by simp), if_neg hb.oc.symm, if_pos rfl]; rfl
  induction ps with
  | nil => simpa [List.intercalate] using hend
  | cons p ps ih =>
    have h1 := hp p (by simp)
    cases ps with
    | nil =>
      have e : [','].intercalate [p] = p := by simp [List.intercalate]
      have := elementText_append 1 [c] p 0 false h1
      rw [e, ← Nat.zero_add 1, this, hend]
    | cons p' ps =>
      rw [intercalate_cons₂, List.append_assoc, List.append_assoc]
      have := elementText_append 1 ([','] ++ ([','].intercalate (p' :: ps) ++ [c])) p 0 false h1
      rw [Nat.zero_add] at this
      rw [this, List.singleton_append, elementText, if_neg (by decide), if_neg (by simp), if_neg hb.oComma.symm,
        if_neg hb.cComma.symm, if_pos rfl]
      exact ih (fun x hx => hp x (by simp [hx]))

theorem elementText_listText {o c : Char} (hb : Brackets o c) (ps : List Str)
    (hp : ∀ p ∈ ps, elementText o c 0 false p = true) : elementText o c 0 false (listText o c ps) = true := by
  rw [listText, elementText, if_neg hb.oq, if_neg (by simp), if_pos rfl]
  exact elementText_join hb ps hp

theorem ascii_listText {o c : Char} (hb : Brackets o c) (ps : List Str) (hp : ∀ p ∈ ps, ascii p) :
    ascii (listText o c ps) := by
  have : ascii ([','].intercalate ps) := by
    induction ps with
    | nil => intro x hx; simp [List.intercalate] at hx
    | cons p ps ih =>
      cases ps with
      | nil => have := hp p (by simp); simpa [List.intercalate] using this
      | cons p' ps =>
        rw [intercalate_cons₂]
        refine ascii_append (ascii_append (hp p (by simp)) ?_) (ih (fun x hx => hp x (by simp [hx])))
        intro x hx; simp at hx; subst hx; decide
  intro x hx
  rw [listText] at hx
  rcases List.mem_cons.1 hx with rfl | hx
  · exact hb.oAscii
  · rcases List.mem_append.1 hx with hx | hx
    · exact this x hx
    · simp at hx; subst hx; exact hb.cAscii

/-! ### leaves -/

theorem harmless_hexDigits : ∀ c ∈ hexDigits, harmless c = true := by decide

theorem harmless_hexEncode (b : Bytes) : (hexEncode b).all harmless = true := by
  rw [List.all_eq_true]
  intro c hc
  exact harmless_hexDigits c (hexEncode_digits b c hc)

theorem displayAll_eq_map (ts : List Token) : Token.displayAll ts = ts.map Token.display := by
  induction ts with
  | nil => rfl
  | cons t ts ih => simp [Token.displayAll, ih]

theorem tokenize_address (m : Tokenizer) (a : Address) : tokenize m .address (hexEncode a.1) = .ok (.address a) := by
  rw [tokenize, strictAddress, hexDecode_hexEncode, Res.ok_bind, dif_pos a.2]; rfl

theorem tokenize_bytes (m : Tokenizer) (b : Bytes) : tokenize m .bytes (hexEncode b) = .ok (.bytes b) := by
  rw [tokenize, strictBytes, hexDecode_hexEncode]; rfl

theorem tokenize_fixedBytes (m : Tokenizer) (b : Bytes) (n : Nat) (h : b.length = n) :
    tokenize m (.fixedBytes n) (hexEncode b) = .ok (.fixedBytes b) := by
  rw [tokenize, strictFixedBytes, hexDecode_hexEncode, Res.ok_bind, if_pos h]; rfl

theorem tokenize_bool (m : Tokenizer) (b : Bool) : tokenize m .bool (Token.bool b).display = .ok (.bool b) := by
  cases m <;> cases b <;> decide

theorem hexEncode_ne_nil {b : Bytes} (h : b ≠ []) : hexEncode b ≠ [] := by
  cases b with
  | nil => exact absurd rfl h
  | cons x b => simp [hexEncode, hexByte]

/-! ### arrays -/

theorem display_list {o c : String} {o' c' : Char} (ho : lit o = [o']) (hc : lit c = [c']) (ts : List Token) :
    lit o ++ join (lit ",") (Token.displayAll ts) ++ lit c = listText o' c' (ts.map Token.display) := by
  have : lit "," = [','] := by decide
  rw [ho, hc, this, join_eq_intercalate, displayAll_eq_map, listText]; simp

/-- what makes an element's display text usable -/
structure Shows (o c : Char) (t : Token) : Prop where
  element : elementText o c 0 false t.display = true
  isAscii : ascii t.display
  nonempty : t ≠ .bytes [] → t ≠ .fixedBytes [] → t.display ≠ []

theorem shows_harmless {o c : Char} (hoc : (o = '[' ∧ c = ']') ∨ (o = '(' ∧ c = ')')) {t : Token}
    (h : t.display.all harmless = true) (hn : t ≠ .bytes [] → t ≠ .fixedBytes [] → t.display ≠ []) : Shows o c t :=
  ⟨elementText_harmless hoc h, ascii_harmless h, hn⟩

theorem shows_leaf {o c : Char} (hoc : (o = '[' ∧ c = ']') ∨ (o = '(' ∧ c = ')')) (t : Token)
    (h : match t with | .address _ => True | .bool _ => True | .bytes _ => True | .fixedBytes _ => True | _ => False) :
    Shows o c t := by
  cases t <;> try exact h.elim
  · rename_i a
    refine shows_harmless hoc (harmless_hexEncode _) (fun _ _ => hexEncode_ne_nil ?_)
    intro e; have := a.2; rw [e] at this; simp at this
  · rename_i b
    exact shows_harmless hoc (harmless_hexEncode _) (fun _ h => hexEncode_ne_nil (fun e => h (by rw [e])))
  · rename_i b
    exact shows_harmless hoc (harmless_hexEncode _) (fun h _ => hexEncode_ne_nil (fun e => h (by rw [e])))
  · rename_i b
    refine shows_harmless hoc ?_ (fun _ _ => ?_) <;> cases b <;> decide

theorem shows_list {o c : Char} (hb : Brackets o c) {t : Token} {ts : List Token}
    (h : t.display = listText o c (ts.map Token.display)) (hs : ∀ x ∈ ts, Shows o c x) : Shows o c t := by
  refine ⟨?_, ?_, ?_⟩
  · rw [h]
    refine elementText_listText hb _ ?_
    intro p hp
    obtain ⟨x, hx, rfl⟩ := List.mem_map.1 hp
    exact (hs x hx).element
  · rw [h]
    refine ascii_listText hb _ ?_
    intro p hp
    obtain ⟨x, hx, rfl⟩ := List.mem_map.1 hp
    exact (hs x hx).isAscii
  · intro _ _; rw [h]; simp [listText]

theorem pieces_of_display {o c : Char} (hb : Brackets o c) {item : Nat → Str → Res Token} {ts : List Token}
    (hs : ∀ x ∈ ts, Shows o c x) (h1 : ts ≠ [.bytes []]) (h2 : ts ≠ [.fixedBytes []])
    (hi : eachPiece item 0 (ts.map Token.display) = .ok ts) :
    tokenizePieces o c (listText o c (ts.map Token.display)) item = .ok ts := by
  by_cases h0 : ts = []
  · subst h0
    rw [tokenizePieces]
    simp [listText, List.intercalate]
  · rw [tokenizePieces_listText hb (by simpa using h0) ?_ ?_ ?_]
    · exact hi
    · intro e
      cases ts with
      | nil => exact h0 rfl
      | cons t ts =>
        cases ts with
        | nil =>
          simp at e
          exact (hs t (by simp)).nonempty (fun e => h1 (by rw [e])) (fun e => h2 (by rw [e])) e
        | cons t' ts => simp at e
    · intro p hp
      obtain ⟨x, hx, rfl⟩ := List.mem_map.1 hp
      exact (hs x hx).element
    · refine ascii_listText hb _ ?_
      intro p hp
      obtain ⟨x, hx, rfl⟩ := List.mem_map.1 hp
      exact (hs x hx).isAscii

theorem display_array (ts : List Token) : (Token.array ts).display = listText '[' ']' (ts.map Token.display) := by
  rw [Token.display]; exact display_list (by decide) (by decide) ts
theorem display_fixedArray (ts : List Token) :
    (Token.fixedArray ts).display = listText '[' ']' (ts.map Token.display) := by
  rw [Token.display]; exact display_list (by decide) (by decide) ts
theorem display_tuple (ts : List Token) : (Token.tuple ts).display = listText '(' ')' (ts.map Token.display) := by
  rw [Token.display]; exact display_list (by decide) (by decide) ts

mutual
theorem arrayShown_ok (m : Tokenizer) : ∀ (t : Token) (p : ParamType), arrayShown t p = true →
    Shows '[' ']' t ∧ tokenize m p t.display = .ok t
  | .address a, p, h => by
      cases p <;> try cases h
      exact ⟨shows_leaf (Or.inl ⟨rfl, rfl⟩) _ trivial, tokenize_address m a⟩
  | .bool b, p, h => by
      cases p <;> try cases h
      exact ⟨shows_leaf (Or.inl ⟨rfl, rfl⟩) _ trivial, tokenize_bool m b⟩
  | .bytes b, p, h => by
      cases p <;> try cases h
      exact ⟨shows_leaf (Or.inl ⟨rfl, rfl⟩) _ trivial, tokenize_bytes m b⟩
  | .fixedBytes b, p, h => by
      cases p <;> try cases h
      simp [arrayShown] at h
      exact ⟨shows_leaf (Or.inl ⟨rfl, rfl⟩) _ trivial, tokenize_fixedBytes m b _ h⟩
  | .uint _, p, h => by cases p <;> cases h
  | .int _, p, h => by cases p <;> cases h
  | .string _, p, h => by cases p <;> cases h
  | .tuple _, p, h => by cases p <;> cases h
  | .array ts, p, h => by
      cases p <;> try cases h
      rename_i q
      simp only [arrayShown, Bool.and_eq_true, bne_iff_ne, ne_eq] at h
      obtain ⟨hs, hf⟩ := allArrayShown_ok m ts q h.2
      refine ⟨shows_list square (display_array ts) hs, ?_⟩
      rw [tokenize, display_array, tokenizeArray,
        pieces_of_display square hs h.1.1 h.1.2 (eachPiece_const.2 hf)]
      rfl
  | .fixedArray ts, p, h => by
      cases p <;> try cases h
      rename_i q n
      simp only [arrayShown, Bool.and_eq_true, bne_iff_ne, ne_eq, beq_iff_eq] at h
      obtain ⟨hs, hf⟩ := allArrayShown_ok m ts q h.2
      refine ⟨shows_list square (display_fixedArray ts) hs, ?_⟩
      rw [tokenize, display_fixedArray, tokenizeFixedArray, tokenizeArray,
        pieces_of_display square hs h.1.1.1 h.1.1.2 (eachPiece_const.2 hf), Res.ok_bind, if_pos h.1.2]
      rfl
theorem allArrayShown_ok (m : Tokenizer) : ∀ (ts : List Token) (p : ParamType), allArrayShown ts p = true →
    (∀ x ∈ ts, Shows '[' ']' x) ∧ List.Forall₂ (fun s t => tokenize m p s = .ok t) (ts.map Token.display) ts
  | [], _, _ => ⟨by simp, List.Forall₂.nil⟩
  | t :: ts, p, h => by
      simp only [allArrayShown, Bool.and_eq_true] at h
      obtain ⟨h1, h2⟩ := arrayShown_ok m t p h.1
      obtain ⟨h3, h4⟩ := allArrayShown_ok m ts p h.2
      refine ⟨?_, List.Forall₂.cons h2 h4⟩
      intro x hx
      rcases List.mem_cons.1 hx with rfl | hx
      · exact h1
      · exact h3 x hx
end

/-! ### tuples -/

mutual
theorem tupleShown_ok (m : Tokenizer) : ∀ (t : Token) (p : ParamType), tupleShown t p = true →
    Shows '(' ')' t ∧ tokenize m p t.display = .ok t
  | .address a, p, h => by
      cases p <;> try cases h
      exact ⟨shows_leaf (Or.inr ⟨rfl, rfl⟩) _ trivial, tokenize_address m a⟩
  | .bool b, p, h => by
      cases p <;> try cases h
      exact ⟨shows_leaf (Or.inr ⟨rfl, rfl⟩) _ trivial, tokenize_bool m b⟩
  | .bytes b, p, h => by
      cases p <;> try cases h
      exact ⟨shows_leaf (Or.inr ⟨rfl, rfl⟩) _ trivial, tokenize_bytes m b⟩
  | .fixedBytes b, p, h => by
      cases p <;> try cases h
      simp [tupleShown] at h
      exact ⟨shows_leaf (Or.inr ⟨rfl, rfl⟩) _ trivial, tokenize_fixedBytes m b _ h⟩
  | .uint _, p, h => by cases p <;> cases h
  | .int _, p, h => by cases p <;> cases h
  | .string _, p, h => by cases p <;> cases h
  | .array _, p, h => by cases p <;> cases h
  | .fixedArray _, p, h => by cases p <;> cases h
  | .tuple ts, p, h => by
      cases p <;> try cases h
      rename_i ps
      simp only [tupleShown, Bool.and_eq_true, bne_iff_ne, ne_eq] at h
      obtain ⟨hs, hl, hf⟩ := membersShown_ok m ts ps h.2
      refine ⟨shows_list round (display_tuple ts) hs, ?_⟩
      have := (eachPiece_members (m := m) (ps := ts.map Token.display) (i := 0) (qs := ps) (qs' := ps) (ts := ts)
        (by simp) (by simp)).2 ⟨by simp [hl], hf⟩
      rw [tokenize, display_tuple, tokenizeStruct_eq, pieces_of_display round hs h.1.1 h.1.2 this]
      rfl
theorem membersShown_ok (m : Tokenizer) : ∀ (ts : List Token) (ps : List ParamType), membersShown ts ps = true →
    (∀ x ∈ ts, Shows '(' ')' x) ∧ ts.length = ps.length ∧
    List.Forall₂ (fun x t => tokenize m x.1 x.2 = .ok t) (ps.zip (ts.map Token.display)) ts
  | [], [], _ => ⟨by simp, rfl, by simp⟩
  | [], _ :: _, h => by cases h
  | _ :: _, [], h => by cases h
  | t :: ts, p :: ps, h => by
      simp only [membersShown, Bool.and_eq_true] at h
      obtain ⟨h1, h2⟩ := tupleShown_ok m t p h.1
      obtain ⟨h3, h4, h5⟩ := membersShown_ok m ts ps h.2
      refine ⟨?_, by simp [h4], List.Forall₂.cons h2 h5⟩
      intro x hx
      rcases List.mem_cons.1 hx with rfl | hx
      · exact h1
      · exact h3 x hx
end

end Ethabi

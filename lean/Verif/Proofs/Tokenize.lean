import Verif.Model.Tokenizer
import Verif.Spec.Tokenize
import Verif.Proofs.Slice
import Verif.Proofs.Hex
import Verif.Proofs.Text
import Mathlib.Data.List.Forall2
/-! Lemmas about the text tokenizers. -/
namespace Ethabi
open Spec

/-! ### the piece loop -/

/-- `o`, `c` is a usable pair of brackets -/
structure Brackets (o c : Char) : Prop where
  oc : o ≠ c
  oq : o ≠ '"'
  cq : c ≠ '"'
  oComma : o ≠ ','
  cComma : c ≠ ','
  oAscii : o.toNat < 128
  cAscii : c.toNat < 128

theorem square : Brackets '[' ']' := by constructor <;> decide
theorem round : Brackets '(' ')' := by constructor <;> decide

theorem pieceLoop_element {o c : Char} (hb : Brackets o c) {value : Str} {item : Nat → Str → Res Token} {rest : Str}
    {last : Nat} {result : List Token} (p : Str) :
    ∀ (d : Nat) (q : Bool) (pos : Nat), elementText o c d q p = true →
    pieceLoop o c value item (p ++ rest) pos (1 + d) q last result =
      pieceLoop o c value item rest (pos + p.length) 1 false last result := by
  induction p with
  | nil =>
    intro d q pos h
    simp [elementText] at h
    obtain ⟨rfl, rfl⟩ := h
    simp
  | cons ch p ih =>
    intro d q pos h
    have hlen : pos + (ch :: p).length = pos + 1 + p.length := by simp; omega
    rw [hlen, List.cons_append, pieceLoop]
    rw [elementText] at h
    by_cases h1 : ch = '"'
    · subst h1
      rw [if_pos rfl] at h
      rw [if_neg (fun e => hb.oq e.1.symm), if_neg (fun e => hb.cq e.1.symm), if_pos rfl]
      exact ih d (!q) (pos + 1) h
    · rw [if_neg h1] at h
      by_cases h2 : q = true
      · subst h2
        rw [if_pos rfl] at h
        rw [if_neg (by simp), if_neg (by simp), if_neg h1, if_neg (by simp)]
        exact ih d true (pos + 1) h
      · have h2 : q = false := by simpa using h2
        subst h2
        rw [if_neg (by simp)] at h
        by_cases h3 : ch = o
        · rw [if_pos h3] at h
          rw [if_pos ⟨h3, rfl⟩]
          have := ih (d + 1) false (pos + 1) h
          rw [← this]
          congr 1
        · rw [if_neg h3] at h
          rw [if_neg (fun e => h3 e.1)]
          by_cases h4 : ch = c
          · rw [if_pos h4] at h
            simp only [Bool.and_eq_true, bne_iff_ne, ne_eq] at h
            have hd : d ≠ 0 := h.1
            rw [if_pos ⟨h4, rfl⟩, if_neg (by omega), if_neg (by omega)]
            have := ih (d - 1) false (pos + 1) h.2
            rw [← this]
            congr 1
            omega
          · rw [if_neg h4] at h
            rw [if_neg (fun e => h4 e.1), if_neg h1]
            by_cases h5 : ch = ','
            · rw [if_pos h5] at h
              simp only [Bool.and_eq_true, bne_iff_ne, ne_eq] at h
              rw [if_neg (by intro e; have := e.2.1; omega)]
              exact ih d false (pos + 1) h.2
            · rw [if_neg h5] at h
              rw [if_neg (fun e => h5 e.1)]
              exact ih d false (pos + 1) h

/-- tokenize the pieces, the first with index `i` -/
def eachPiece (item : Nat → Str → Res Token) : Nat → List Str → Res (List Token)
  | _, [] => .ok []
  | i, p :: ps => do
      let t ← item i p
      let ts ← eachPiece item (i + 1) ps
      .ok (t :: ts)

theorem intercalate_cons₂ (sep a b : Str) (l : List Str) :
    sep.intercalate (a :: b :: l) = a ++ sep ++ sep.intercalate (b :: l) := by
  simp [List.intercalate, List.intersperse]

theorem pieceLoop_pieces {o c : Char} (hb : Brackets o c) {value : Str} (hv : ascii value)
    {item : Nat → Str → Res Token} (ps : List Str) :
    ∀ (pre : Str) (result : List Token), ps ≠ [] → (∀ p ∈ ps, elementText o c 0 false p = true) →
    value = pre ++ ([','].intercalate ps ++ [c]) →
    pieceLoop o c value item ([','].intercalate ps ++ [c]) pre.length 1 false pre.length result =
      (eachPiece item result.length ps >>= fun ts => Res.ok (result ++ ts)) := by
  induction ps with
  | nil => intro pre result h; exact absurd rfl h
  | cons p ps ih =>
    intro pre result _ hp hval
    have h1 := hp p (by simp)
    cases ps with
    | nil =>
      have e : [','].intercalate [p] = p := by simp [List.intercalate]
      rw [e] at hval ⊢
      have := pieceLoop_element hb (value := value) (item := item) (rest := [c]) (last := pre.length)
        (result := result) p 0 false pre.length h1
      simp only [Nat.cast_zero, Int.add_zero] at this
      rw [this, pieceLoop, if_neg (by intro e; exact hb.oc e.1.symm), if_pos ⟨rfl, rfl⟩, if_neg (by decide),
        if_pos (by decide)]
      have hs : strSlice value pre.length (pre.length + p.length) = .ok p := by
        rw [hval, ← List.append_assoc]
        exact strSlice_mid (by rw [List.append_assoc, ← hval]; exact hv) rfl rfl
      rw [hs, Res.ok_bind, eachPiece, eachPiece, Res.bind_assoc]
      congr 1
    | cons p' ps =>
      rw [intercalate_cons₂] at hval ⊢
      have hr : p ++ [','] ++ [','].intercalate (p' :: ps) ++ [c] =
          p ++ (',' :: ([','].intercalate (p' :: ps) ++ [c])) := by simp
      rw [hr] at hval ⊢
      have := pieceLoop_element hb (value := value) (item := item)
        (rest := ',' :: ([','].intercalate (p' :: ps) ++ [c])) (last := pre.length)
        (result := result) p 0 false pre.length h1
      simp only [Nat.cast_zero, Int.add_zero] at this
      rw [this, pieceLoop, if_neg (fun e => hb.oComma e.1.symm), if_neg (fun e => hb.cComma e.1.symm),
        if_neg (by decide), if_pos ⟨rfl, rfl, rfl⟩]
      have hs : strSlice value pre.length (pre.length + p.length) = .ok p := by
        rw [hval, ← List.append_assoc]
        exact strSlice_mid (by rw [List.append_assoc, ← hval]; exact hv) rfl rfl
      rw [hs, Res.ok_bind, eachPiece, Res.bind_assoc]
      congr 1
      funext t
      have hl : pre.length + p.length + 1 = (pre ++ p ++ [',']).length := by simp; omega
      rw [hl, ih (pre ++ p ++ [',']) (result ++ [t]) (by simp) (fun x hx => hp x (by simp [hx]))
        (by rw [hval]; simp), Res.bind_assoc]
      simp

theorem ascii_iff (s : Str) : isAscii s = true ↔ ascii s := by simp [isAscii, ascii]

theorem tokenizePieces_listText {o c : Char} (hb : Brackets o c) {item : Nat → Str → Res Token} {ps : List Str}
    (hne : ps ≠ []) (hne2 : ps ≠ [[]]) (hp : ∀ p ∈ ps, elementText o c 0 false p = true)
    (ha : ascii (listText o c ps)) :
    tokenizePieces o c (listText o c ps) item = eachPiece item 0 ps := by
  have hlast : (listText o c ps).getLast? = some c := by
    rw [listText, ← List.cons_append, List.getLast?_concat]
  have hlen : (listText o c ps).length ≠ 2 := by
    cases ps with
    | nil => exact absurd rfl hne
    | cons p ps =>
      cases ps with
      | nil =>
        cases p with
        | nil => exact absurd rfl hne2
        | cons x p => simp [listText, List.intercalate]
      | cons p' ps =>
        rw [listText, intercalate_cons₂]; simp; omega
  rw [tokenizePieces, if_neg (by rw [hlast]; simp [listText]), if_neg hlen]
  have := pieceLoop_pieces hb ha (item := item) ps [o] [] hne hp (by simp [listText])
  simp only [List.length_singleton, List.nil_append] at this
  have e : pieceLoop o c (listText o c ps) item (listText o c ps) 0 0 false 1 [] =
      pieceLoop o c (listText o c ps) item ([','].intercalate ps ++ [c]) 1 1 false 1 [] := by
    conv => lhs; arg 5; rw [listText]
    rw [pieceLoop, if_pos ⟨rfl, rfl⟩]
    rfl
  rw [e, this]
  simp only [List.length_nil]
  cases eachPiece item 0 ps <;> rfl

theorem eachPiece_const {f : Str → Res Token} {i : Nat} {ps : List Str} {ts : List Token} :
    eachPiece (fun _ sub => f sub) i ps = .ok ts ↔ List.Forall₂ (fun p t => f p = .ok t) ps ts := by
  induction ps generalizing i ts with
  | nil =>
    rw [eachPiece, List.forall₂_nil_left_iff]
    constructor
    · intro h; exact (Res.ok.inj h).symm
    · intro h; rw [h]
  | cons p ps ih =>
    rw [eachPiece, Res.bind_eq_ok]
    constructor
    · rintro ⟨t, ht, h⟩
      rw [Res.bind_eq_ok] at h
      obtain ⟨us, hu, h⟩ := h
      rw [← Res.ok.inj h]
      exact List.Forall₂.cons ht (ih.1 hu)
    · intro h
      cases h with
      | cons h1 h2 => exact ⟨_, h1, by rw [ih.2 h2]; rfl⟩

/-! ### invariants of the loop -/

theorem pieceLoop_inv {o c : Char} {value : Str} {item : Nat → Str → Res Token} (P : Nat → Token → Prop)
    (hi : ∀ i s t, item i s = .ok t → P i t) (cs : Str) :
    ∀ {pos : Nat} {nested : Int} {ignore : Bool} {last : Nat} {result r : List Token},
    (∀ (i : Nat) t, result[i]? = some t → P i t) →
    pieceLoop o c value item cs pos nested ignore last result = .ok r →
    ∀ (i : Nat) t, r[i]? = some t → P i t := by
  induction cs with
  | nil =>
    intro pos nested ignore last result r hr h
    rw [pieceLoop] at h
    split at h
    · cases h
    · rw [← Res.ok.inj h]; exact hr
  | cons ch cs ih =>
    intro pos nested ignore last result r hr h
    have push : ∀ {s t}, item result.length s = .ok t → ∀ (i : Nat) u, (result ++ [t])[i]? = some u → P i u := by
      intro s t ht i u hu
      rcases Nat.lt_trichotomy i result.length with hlt | heq | hgt
      · rw [List.getElem?_append_left hlt] at hu; exact hr i u hu
      · subst heq
        simp at hu; subst hu
        exact hi _ _ _ ht
      · rw [List.getElem?_eq_none (by simp; omega)] at hu; cases hu
    rw [pieceLoop] at h
    split at h
    · exact ih hr h
    · split at h
      · split at h
        · cases h
        · split at h
          · obtain ⟨s, -, h⟩ := Res.bind_eq_ok.1 h
            obtain ⟨t, ht, h⟩ := Res.bind_eq_ok.1 h
            exact ih (push ht) h
          · exact ih hr h
      · split at h
        · exact ih hr h
        · split at h
          · obtain ⟨s, -, h⟩ := Res.bind_eq_ok.1 h
            obtain ⟨t, ht, h⟩ := Res.bind_eq_ok.1 h
            exact ih (push ht) h
          · exact ih hr h

theorem tokenizePieces_inv {o c : Char} {value : Str} {item : Nat → Str → Res Token} (P : Nat → Token → Prop)
    (hi : ∀ i s t, item i s = .ok t → P i t) {r : List Token} (h : tokenizePieces o c value item = .ok r) :
    ∀ (i : Nat) t, r[i]? = some t → P i t := by
  rw [tokenizePieces] at h
  split at h
  · cases h
  · split at h
    · rw [← Res.ok.inj h]; intro i t ht; simp at ht
    · exact pieceLoop_inv P hi _ (by intro i t ht; simp at ht) h

/-- results with a tokenizer that accepts more are the same -/
theorem pieceLoop_mono {o c : Char} {value : Str} {item item' : Nat → Str → Res Token}
    (hi : ∀ i s t, item i s = .ok t → item' i s = .ok t) (cs : Str) :
    ∀ {pos : Nat} {nested : Int} {ignore : Bool} {last : Nat} {result r : List Token},
    pieceLoop o c value item cs pos nested ignore last result = .ok r →
    pieceLoop o c value item' cs pos nested ignore last result = .ok r := by
  induction cs with
  | nil => intro pos nested ignore last result r h; rw [pieceLoop] at h ⊢; exact h
  | cons ch cs ih =>
    intro pos nested ignore last result r h
    have step : ∀ {s : Res Str} {k : Token → Res (List Token)} {k' : Token → Res (List Token)},
        (s >>= fun s => item result.length s >>= k) = .ok r → (∀ t, k t = .ok r → k' t = .ok r) →
        (s >>= fun s => item' result.length s >>= k') = .ok r := by
      intro s k k' h hk
      obtain ⟨s', hs, h⟩ := Res.bind_eq_ok.1 h
      obtain ⟨t, ht, h⟩ := Res.bind_eq_ok.1 h
      rw [hs, Res.ok_bind, hi _ _ _ ht, Res.ok_bind]
      exact hk t h
    rw [pieceLoop] at h ⊢
    by_cases h1 : ch = o ∧ ignore = false
    · rw [if_pos h1] at h ⊢; exact ih h
    rw [if_neg h1] at h ⊢
    by_cases h2 : ch = c ∧ ignore = false
    · rw [if_pos h2] at h ⊢
      by_cases h3 : nested - 1 < 0
      · rw [if_pos h3] at h; cases h
      rw [if_neg h3] at h ⊢
      by_cases h4 : nested - 1 = 0
      · rw [if_pos h4] at h ⊢
        exact step h (fun t ht => ih ht)
      · rw [if_neg h4] at h ⊢; exact ih h
    rw [if_neg h2] at h ⊢
    by_cases h3 : ch = '"'
    · rw [if_pos h3] at h ⊢; exact ih h
    rw [if_neg h3] at h ⊢
    by_cases h4 : ch = ',' ∧ nested = 1 ∧ ignore = false
    · rw [if_pos h4] at h ⊢
      exact step h (fun t ht => ih ht)
    · rw [if_neg h4] at h ⊢; exact ih h

theorem tokenizePieces_mono {o c : Char} {value : Str} {item item' : Nat → Str → Res Token}
    (hi : ∀ i s t, item i s = .ok t → item' i s = .ok t) {r : List Token}
    (h : tokenizePieces o c value item = .ok r) : tokenizePieces o c value item' = .ok r := by
  rw [tokenizePieces] at h ⊢
  split at h
  · cases h
  · rename_i h1
    rw [if_neg h1]
    split at h
    · rename_i h2; rw [if_pos h2]; exact h
    · rename_i h2; rw [if_neg h2]; exact pieceLoop_mono hi _ h

/-- slices taken by the loop are in range: no panic on ASCII text -/
theorem pieceLoop_noPanic {o c : Char} {value : Str} (hv : ascii value) {item : Nat → Str → Res Token}
    (hi : ∀ i s, ascii s → item i s ≠ .panic) (cs : Str) :
    ∀ {pos : Nat} {nested : Int} {ignore : Bool} {last : Nat} {result : List Token},
    pos + cs.length = value.length → (last ≤ pos ∨ (nested = 0 ∧ last = pos + 1 ∧ cs.head? = some o ∧ ignore = false)) →
    o ≠ c → 
    pieceLoop o c value item cs pos nested ignore last result ≠ .panic := by
  induction cs with
  | nil =>
    intro pos nested ignore last result _ _ _
    rw [pieceLoop]
    split <;> simp
  | cons ch cs ih =>
    intro pos nested ignore last result hl hlast hoc
    have hl' : pos + 1 + cs.length = value.length := by simp at hl; omega
    have step : last ≤ pos → ∀ {k : Token → Res (List Token)}, (∀ t, k t ≠ .panic) →
        (strSlice value last pos >>= fun s => item result.length s >>= k) ≠ .panic := by
      intro h1 k hk
      rw [strSlice_ascii hv h1 (by omega), Res.ok_bind]
      have := hi result.length ((value.take pos).drop last) (ascii_drop (ascii_take hv _) _)
      cases h : item result.length ((value.take pos).drop last) with
      | ok t => exact hk t
      | err e => simp
      | panic => exact absurd h this
    rw [pieceLoop]
    by_cases h1 : ch = o ∧ ignore = false
    · rw [if_pos h1]
      exact ih hl' (Or.inl (by omega)) hoc
    rw [if_neg h1]
    have hlp : last ≤ pos := by
      rcases hlast with h | h
      · exact h
      · exact absurd ⟨by simpa using h.2.2.1, h.2.2.2⟩ h1
    have hlp' : last ≤ pos + 1 := by omega
    by_cases h2 : ch = c ∧ ignore = false
    · rw [if_pos h2]
      split
      · simp
      · split
        · exact step hlp (fun t => ih hl' (Or.inl (Nat.le_refl _)) hoc)
        · exact ih hl' (Or.inl hlp') hoc
    rw [if_neg h2]
    split
    · exact ih hl' (Or.inl hlp') hoc
    · split
      · exact step hlp (fun t => ih hl' (Or.inl (Nat.le_refl _)) hoc)
      · exact ih hl' (Or.inl hlp') hoc

theorem tokenizePieces_noPanic {o c : Char} (hb : Brackets o c) {value : Str} (hv : ascii value)
    {item : Nat → Str → Res Token} (hi : ∀ i s, ascii s → item i s ≠ .panic) :
    tokenizePieces o c value item ≠ .panic := by
  rw [tokenizePieces]
  split
  · simp
  · rename_i h
    split
    · simp
    · refine pieceLoop_noPanic hv hi _ (by simp) (Or.inr ⟨rfl, rfl, ?_, rfl⟩) hb.oc
      simp only [not_or, Decidable.not_not] at h
      exact h.1

/-! ### tuples -/

theorem tokenizers_getElem? (m : Tokenizer) (ps : List ParamType) (i : Nat) :
    (tokenizers m ps)[i]? = (ps[i]?).map (tokenize m) := by
  induction ps generalizing i with
  | nil => simp [tokenizers]
  | cons p ps ih =>
    cases i with
    | zero => simp [tokenizers]
    | succ i => simpa [tokenizers] using ih i

/-- `tokenize` of tuple members, by position -/
def memberItem (m : Tokenizer) (ps : List ParamType) (i : Nat) (sub : Str) : Res Token :=
  match ps[i]? with
  | none => .err .invalidData
  | some p => tokenize m p sub

theorem tokenizeStruct_eq (m : Tokenizer) (ps : List ParamType) (v : Str) :
    tokenizeStruct v (tokenizers m ps) = tokenizePieces '(' ')' v (memberItem m ps) := by
  rw [tokenizeStruct]
  congr 1
  funext i sub
  rw [tokenizers_getElem?, memberItem]
  cases ps[i]? <;> rfl

theorem eachPiece_members {m : Tokenizer} {ps : List Str} :
    ∀ {i : Nat} {qs qs' : List ParamType} {ts : List Token}, qs' = qs.drop i → i ≤ qs.length →
    (eachPiece (memberItem m qs) i ps = .ok ts ↔
      ps.length ≤ qs'.length ∧ List.Forall₂ (fun x t => tokenize m x.1 x.2 = .ok t) (qs'.zip ps) ts) := by
  induction ps with
  | nil =>
    intro i qs qs' ts _ _
    rw [eachPiece, List.zip_nil_right, List.forall₂_nil_left_iff]
    constructor
    · intro h; exact ⟨by simp, (Res.ok.inj h).symm⟩
    · intro h; rw [h.2]
  | cons p ps ih =>
    intro i qs qs' ts hq hi
    cases qs' with
    | nil =>
      have : qs.length ≤ i := by
        have := congrArg List.length hq
        simp at this; omega
      rw [eachPiece, memberItem, List.getElem?_eq_none this]
      simp
    | cons q qs' =>
      have hlt : i < qs.length := by
        have := congrArg List.length hq
        simp at this; omega
      have hq2 := List.drop_eq_getElem_cons hlt
      rw [← hq] at hq2
      have e1 : qs[i]? = some q := by
        rw [List.getElem?_eq_getElem hlt]; rw [List.cons.inj hq2 |>.1]
      have e2 : qs' = qs.drop (i + 1) := (List.cons.inj hq2).2
      rw [eachPiece, Res.bind_eq_ok, memberItem, e1, List.zip_cons_cons]
      have ih' := fun ts => ih (ts := ts) e2 hlt
      constructor
      · rintro ⟨t, ht, h⟩
        obtain ⟨us, hu, h⟩ := Res.bind_eq_ok.1 h
        rw [← Res.ok.inj h]
        obtain ⟨h1, h2⟩ := (ih' us).1 hu
        exact ⟨by simpa using h1, List.Forall₂.cons ht h2⟩
      · rintro ⟨h1, h2⟩
        cases h2 with
        | cons ha hb' =>
          exact ⟨_, ha, by rw [(ih' _).2 ⟨by simpa using h1, hb'⟩]; rfl⟩

end Ethabi

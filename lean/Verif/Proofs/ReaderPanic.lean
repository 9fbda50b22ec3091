import Verif.Proofs.ReaderTuple
import Verif.Proofs.DecodeFacts
/-! `Reader::read` does not panic on ASCII strings with matched brackets. -/
namespace Ethabi
open Spec

theorem brackets_append_left {x y : Str} : ∀ {o : Bool}, bracketsClose o (x ++ y) = true → bracketsClose o x = true := by
  induction x with
  | nil => intro o _; rfl
  | cons c cs ih =>
    intro o h
    simp only [List.cons_append, bracketsClose] at h ⊢
    split
    · rename_i e; rw [if_pos e] at h; exact ih h
    · rename_i e1
      rw [if_neg e1] at h
      split
      · rename_i e; rw [if_pos e] at h
        simp only [Bool.and_eq_true] at h ⊢; exact ⟨h.1, ih h.2⟩
      · rename_i e2
        rw [if_neg e2] at h
        split
        · rename_i e; rw [if_pos e] at h; exact ih h
        · rename_i e; rw [if_neg e] at h; exact ih h

theorem brackets_append_right {x y : Str} : ∀ {o : Bool}, bracketsClose o (x ++ y) = true →
    ∃ o', bracketsClose o' y = true := by
  induction x with
  | nil => intro o h; exact ⟨o, h⟩
  | cons c cs ih =>
    intro o h
    simp only [List.cons_append, bracketsClose] at h
    repeat' split at h
    · exact ih h
    · simp only [Bool.and_eq_true] at h; exact ih h.2
    · exact ih h
    · exact ih h

/-- the three delimiters -/
def isDelim (c : Char) : Prop := c = '(' ∨ c = ')' ∨ c = ','

theorem brackets_delim {d : Char} (hd : isDelim d) {o : Bool} {cs : Str} :
    bracketsClose o (d :: cs) = bracketsClose false cs := by
  rcases hd with rfl | rfl | rfl <;> rfl

theorem brackets_after {x cs : Str} {d : Char} (hd : isDelim d) {o : Bool}
    (h : bracketsClose o (x ++ d :: cs) = true) :
    bracketsClose false cs = true ∧ bracketsClose false (d :: cs) = true := by
  obtain ⟨o', h'⟩ := brackets_append_right h
  rw [brackets_delim hd] at h' ⊢
  exact ⟨h', h'⟩

theorem brackets_take {x : Str} {o : Bool} (h : bracketsClose o x = true) (n : Nat) : bracketsClose o (x.take n) = true := by
  rw [← List.take_append_drop n x] at h
  exact brackets_append_left h

/-- invariant of the tuple loop with respect to panics -/
structure NoPanicInv (name : Str) (pos skip : Nat) (st : ReadSt) : Prop where
  lo : st.lastItem ≤ pos + skip
  bl : bracketsClose false (name.drop st.lastItem) = true
  top : st.topOpen ≤ pos
  bt : bracketsClose false (name.drop st.topOpen) = true
  len : st.nested - 1 ≤ (st.subtuples.length : Int)

/-- the recursive calls considered do not panic -/
def RecOk (rec : Str → Res ParamType) : Prop := ∀ s, ascii s → bracketsClose false s = true → rec s ≠ .panic

theorem slice_rec {rec : Str → Res ParamType} (hrec : RecOk rec) {name item : Str} (hasc : ascii name) {a b : Nat}
    (hb : bracketsClose false (name.drop a) = true) (h : strSlice name a b = .ok item) : rec item ≠ .panic := by
  obtain ⟨-, h1, h2, -⟩ := strSlice_ok h
  rw [byteLen_ascii hasc] at h2
  rw [strSlice_ascii hasc h1 h2] at h
  cases h
  apply hrec
  · exact ascii_drop (ascii_take hasc _) _
  · rw [List.drop_take]
    exact brackets_take hb _

theorem slice_noPanic {name : Str} (hasc : ascii name) {a b : Nat} (h1 : a ≤ b) (h2 : b ≤ name.length) :
    strSlice name a b ≠ .panic := by
  rw [strSlice_ascii hasc h1 h2]; simp

theorem trailing_split (rest : Str) : ∃ x y, rest = x ++ y ∧ x.length = trailing rest ∧
    (y = [] ∨ ∃ d z, isDelim d ∧ y = d :: z) := by
  induction rest with
  | nil => exact ⟨[], [], rfl, rfl, Or.inl rfl⟩
  | cons c cs ih =>
    simp only [trailing]
    split
    · rename_i h
      refine ⟨[], c :: cs, rfl, rfl, Or.inr ⟨c, cs, ?_, rfl⟩⟩
      rcases h with rfl | rfl
      · exact Or.inr (Or.inr rfl)
      · exact Or.inr (Or.inl rfl)
    · obtain ⟨x, y, h1, h2, h3⟩ := ih
      exact ⟨c :: x, y, by rw [h1]; rfl, by simp [h2], h3⟩

theorem close_step {rec : Str → Res ParamType} (hrec : RecOk rec) {name pre rest : Str} (hasc : ascii name)
    (hbr : bracketsClose false name = true) {pos : Nat} {st : ReadSt} (hname : name = pre ++ ')' :: rest)
    (hpos : pos = pre.length) (inv : NoPanicInv name pos 0 st) :
    readClose rec name rest pos st ≠ .panic ∧
      ∀ st' k, readClose rec name rest pos st = .ok (st', k) → NoPanicInv name (pos + 1) k st' := by
  have hdrop : bracketsClose false (name.drop (pos + 1)) = true := by
    have h := brackets_after (d := ')') (Or.inr (Or.inl rfl)) (x := pre) (cs := rest) (o := false) (by rw [← hname]; exact hbr)
    have e : name.drop (pos + 1) = rest := by rw [hname, hpos]; simp
    rw [e]; exact h.1
  have hlen : name.length = pos + 1 + rest.length := by rw [hname]; simp; omega
  obtain ⟨x, y, hxy, hx, hy⟩ := trailing_split rest
  have htr : pos + trailing rest + 1 ≤ name.length := by
    have : rest.length = x.length + y.length := by rw [hxy]; simp
    omega
  have hdrop2 : bracketsClose false (name.drop (pos + trailing rest + 1)) = true := by
    have e : name.drop (pos + trailing rest + 1) = y := by
      rw [hname, hpos, ← hx, hxy, show pre ++ ')' :: (x ++ y) = (pre ++ ')' :: x) ++ y by simp,
        List.drop_append_of_le_length (by simp; omega)]
      simp; omega
    rw [e]
    rcases hy with rfl | ⟨d, z, hd, rfl⟩
    · rfl
    · exact (brackets_after hd (x := pre ++ ')' :: x) (cs := z) (o := false)
        (by rw [show pre ++ ')' :: x ++ d :: z = name by rw [hname, hxy]; simp]; exact hbr)).2
  have i1 := inv.lo
  have i3 := inv.top
  have i5 := inv.len
  have s1 : strSlice name st.lastItem pos ≠ .panic := slice_noPanic hasc (by omega) (by omega)
  have s2 : strSlice name st.topOpen (pos + trailing rest + 1) ≠ .panic := slice_noPanic hasc (by omega) htr
  unfold readClose
  simp only []
  split
  · exact ⟨by simp, by simp⟩
  · rename_i hnn
    cases h1 : strSlice name st.lastItem pos with
    | panic => exact absurd h1 s1
    | err e => exact ⟨by simp, by simp⟩
    | ok item =>
      simp only [Res.ok_bind]
      split
      · refine ⟨by simp, ?_⟩
        intro st' k h
        cases h
        exact ⟨by simp, hdrop, by simp; omega, inv.bt, by simp; omega⟩
      · split
        · have hr := slice_rec hrec hasc inv.bl h1
          cases h2 : rec item with
          | panic => exact absurd h2 hr
          | err e => exact ⟨by simp, by simp⟩
          | ok t =>
            refine ⟨by simp, ?_⟩
            intro st' k h
            cases h
            exact ⟨by simp, hdrop, by simp; omega, inv.bt, by simp; omega⟩
        · cases h2 : strSlice name st.topOpen (pos + trailing rest + 1) with
          | panic => exact absurd h2 s2
          | err e => exact ⟨by simp, by simp⟩
          | ok inner =>
            have hr := slice_rec hrec hasc inv.bt h2
            simp only [Res.ok_bind]
            cases h3 : rec inner with
            | panic => exact absurd h3 hr
            | err e => exact ⟨by simp, by simp⟩
            | ok t =>
              simp only [Res.ok_bind]
              split
              · have hi : ∃ s, indexVec st.subtuples (st.nested - 1 - 2) = .ok s := by
                  unfold indexVec
                  rw [if_neg (by omega)]
                  have : (st.nested - 1 - 2).toNat < st.subtuples.length := by omega
                  rw [List.getElem?_eq_getElem this]
                  exact ⟨_, rfl⟩
                obtain ⟨s, hi⟩ := hi
                rw [hi]
                refine ⟨by simp, ?_⟩
                intro st' k h
                cases h
                exact ⟨by simp; omega, hdrop2, by simp; omega, inv.bt, by simp; omega⟩
              · refine ⟨by simp, ?_⟩
                intro st' k h
                cases h
                exact ⟨by simp; omega, hdrop2, by simp; omega, inv.bt, by simp; omega⟩

theorem comma_step {rec : Str → Res ParamType} (hrec : RecOk rec) {name pre rest : Str} (hasc : ascii name)
    (hbr : bracketsClose false name = true) {pos : Nat} {st : ReadSt} (hname : name = pre ++ ',' :: rest)
    (hpos : pos = pre.length) (inv : NoPanicInv name pos 0 st) :
    readComma rec name pos st ≠ .panic ∧
      ∀ st', readComma rec name pos st = .ok st' → NoPanicInv name (pos + 1) 0 st' := by
  have hdrop : bracketsClose false (name.drop (pos + 1)) = true := by
    have h := brackets_after (d := ',') (Or.inr (Or.inr rfl)) (x := pre) (cs := rest) (o := false) (by rw [← hname]; exact hbr)
    have e : name.drop (pos + 1) = rest := by rw [hname, hpos]; simp
    rw [e]; exact h.1
  have hlen : name.length = pos + 1 + rest.length := by rw [hname]; simp; omega
  have i1 := inv.lo
  have i3 := inv.top
  have i5 := inv.len
  have s1 : strSlice name st.lastItem pos ≠ .panic := slice_noPanic hasc (by omega) (by omega)
  unfold readComma
  cases h1 : strSlice name st.lastItem pos with
  | panic => exact absurd h1 s1
  | err e => exact ⟨by simp, by simp⟩
  | ok item =>
    simp only [Res.ok_bind]
    have hr := slice_rec hrec hasc inv.bl h1
    split
    · refine ⟨by simp, ?_⟩
      intro st' h
      cases h
      exact ⟨by simp, hdrop, by simp; omega, inv.bt, by simp; omega⟩
    · split
      · cases h2 : rec item with
        | panic => exact absurd h2 hr
        | err e => exact ⟨by simp, by simp⟩
        | ok t =>
          refine ⟨by simp, ?_⟩
          intro st' h
          cases h
          exact ⟨by simp, hdrop, by simp; omega, inv.bt, by simp; omega⟩
      · split
        · cases h2 : rec item with
          | panic => exact absurd h2 hr
          | err e => exact ⟨by simp, by simp⟩
          | ok t =>
            simp only [Res.ok_bind]
            have hi : ∃ s, indexVec st.subtuples (st.nested - 2) = .ok s := by
              unfold indexVec
              rw [if_neg (by omega)]
              have : (st.nested - 2).toNat < st.subtuples.length := by omega
              rw [List.getElem?_eq_getElem this]
              exact ⟨_, rfl⟩
            obtain ⟨s, hi⟩ := hi
            rw [hi]
            refine ⟨by simp, ?_⟩
            intro st' h
            cases h
            exact ⟨by simp, hdrop, by simp; omega, inv.bt, by simp; omega⟩
        · refine ⟨by simp, ?_⟩
          intro st' h
          cases h
          exact ⟨by omega, inv.bl, by omega, inv.bt, by omega⟩

theorem open_step {name pre rest : Str}
    (hbr : bracketsClose false name = true) {pos : Nat} {st : ReadSt} (hname : name = pre ++ '(' :: rest)
    (hpos : pos = pre.length) (inv : NoPanicInv name pos 0 st) : NoPanicInv name (pos + 1) 0 (readOpen pos st) := by
  have h := brackets_after (d := '(') (Or.inl rfl) (x := pre) (cs := rest) (o := false) (by rw [← hname]; exact hbr)
  have e1 : name.drop (pos + 1) = rest := by rw [hname, hpos]; simp
  have e2 : name.drop pos = '(' :: rest := by rw [hname, hpos]; simp
  have i1 := inv.lo
  have i3 := inv.top
  have i5 := inv.len
  unfold readOpen
  simp only []
  split
  · exact ⟨by simp, by rw [e1]; exact h.1, by simp, by rw [e2]; exact h.2, by simp; omega⟩
  · exact ⟨by simp; omega, inv.bl, by simp, by rw [e2]; exact h.2, by simp; omega⟩

theorem loop_noPanic {rec : Str → Res ParamType} (hrec : RecOk rec) {name : Str} (hasc : ascii name)
    (hbr : bracketsClose false name = true) : ∀ (cs pre : Str) (pos skip : Nat) (st : ReadSt),
      name = pre ++ cs → pos = pre.length → NoPanicInv name pos skip st →
      readLoop rec name cs pos skip st ≠ .panic := by
  intro cs
  induction cs with
  | nil => intros; simp [readLoop]
  | cons c cs ih =>
    intro pre pos skip st hname hpos inv
    have hname' : name = (pre ++ [c]) ++ cs := by rw [hname]; simp
    have hpos' : pos + 1 = (pre ++ [c]).length := by simp [hpos]
    cases skip with
    | succ skip =>
      simp only [readLoop]
      exact ih _ _ _ _ hname' hpos' ⟨by have := inv.lo; omega, inv.bl, by have := inv.top; omega, inv.bt, inv.len⟩
    | zero =>
      simp only [readLoop]
      split
      · rename_i e; subst e
        exact ih _ _ _ _ hname' hpos' (open_step hbr hname hpos inv)
      · split
        · rename_i e; subst e
          obtain ⟨h1, h2⟩ := close_step hrec hasc hbr hname hpos inv
          apply noPanic_bind h1
          rintro ⟨st', k⟩ h
          exact ih _ _ _ _ hname' hpos' (h2 st' k h)
        · split
          · rename_i e; subst e
            obtain ⟨h1, h2⟩ := comma_step hrec hasc hbr hname hpos inv
            apply noPanic_bind h1
            intro st' h
            exact ih _ _ _ _ hname' hpos' (h2 st' h)
          · exact ih _ _ _ _ hname' hpos'
              ⟨by have := inv.lo; omega, inv.bl, by have := inv.top; omega, inv.bt, inv.len⟩

theorem brackets_last {x : Str} : ∀ {o : Bool}, bracketsClose o (x ++ [']']) = true → o = true ∨ '[' ∈ x := by
  induction x with
  | nil => intro o h; left; simpa [bracketsClose] using h
  | cons c cs ih =>
    intro o h
    simp only [List.cons_append, bracketsClose] at h
    split at h
    · rename_i e; right; simp [e]
    · split at h
      · simp only [Bool.and_eq_true] at h; exact Or.inl h.1
      · split at h
        · rcases ih h with h | h
          · cases h
          · right; simp [h]
        · rcases ih h with h | h
          · exact Or.inl h
          · right; simp [h]

theorem last_split {c : Char} {x : Str} (h : c ∈ x) : ∃ s num, x = s ++ c :: num ∧ c ∉ num := by
  induction x with
  | nil => cases h
  | cons d x ih =>
    by_cases hx : c ∈ x
    · obtain ⟨s, num, rfl, hn⟩ := ih hx
      exact ⟨d :: s, num, rfl, hn⟩
    · rcases List.mem_cons.1 h with rfl | h
      · exact ⟨[], x, rfl, hx⟩
      · exact absurd h hx

theorem parseUsize_noPanic (s : Str) : parseUsize s ≠ .panic := by
  unfold parseUsize; simp only []; split <;> simp

theorem readElementary_noPanic (s : Str) : readElementary s ≠ .panic := by
  unfold readElementary
  repeat' split
  all_goals try simp
  all_goals
    apply noPanic_bind (parseUsize_noPanic _)
    intros; simp

theorem step_noPanic {rec : Str → Res ParamType} (hrec : RecOk rec) {name : Str} (hasc : ascii name)
    (hbr : bracketsClose false name = true) : readStep rec name ≠ .panic := by
  unfold readStep
  split
  · split
    · simp
    · rename_i hs
      simp only [Bool.not_eq_true', Bool.not_eq_false] at hs
      have : ∃ r, name = '(' :: r := by
        cases name with
        | nil => simp [startsWith, lit] at hs
        | cons c r =>
          simp [startsWith, lit] at hs
          exact ⟨r, by rw [← hs]⟩
      obtain ⟨r, hr⟩ := this
      apply noPanic_bind
      · have h1 := brackets_after (d := '(') (Or.inl rfl) (x := []) (cs := r) (o := false) (by rw [List.nil_append, ← hr]; exact hbr)
        conv => lhs; arg 3; rw [hr]
        rw [readLoop_open]
        apply loop_noPanic hrec hasc hbr r ['('] _ _ _ (by rw [hr]; rfl) rfl
        exact ⟨by simp [readOpen], by simp [readOpen, hr]; exact h1.1, by simp [readOpen], by simp [readOpen]; exact hbr,
          by simp [readOpen]⟩
      · intros; simp
  · split
    · rename_i hl
      obtain ⟨x, hx⟩ : ∃ x, name = x ++ [']'] := by
        rcases List.eq_nil_or_concat name with rfl | ⟨x, c, rfl⟩
        · simp at hl
        · rw [List.concat_eq_append, List.getLast?_concat] at hl
          exact ⟨x, by rw [List.concat_eq_append, Option.some.inj hl]⟩
      rcases brackets_last (by rw [← hx]; exact hbr) with h | h
      · cases h
      obtain ⟨s, num, rfl, hnum⟩ := last_split h
      have hname : name = s ++ '[' :: (num ++ [']']) := by rw [hx]; simp
      have hnasc : ascii num := fun c hc => hasc c (by rw [hname]; simp [hc])
      have hlen : name.length = s.length + num.length + 2 := by rw [hname]; simp; omega
      have han : arrayNum name = num := by rw [hname]; exact arrayNum_append s num hnum
      have hsub : strSlice name 0 s.length = .ok s := by
        rw [strSlice_ascii hasc (by omega) (by omega), hname]; simp
      have hsr : rec s ≠ .panic := by
        apply hrec
        · intro c hc; exact hasc c (by rw [hname]; simp [hc])
        · rw [hname] at hbr; exact brackets_append_left hbr
      simp only [han]
      split
      · rename_i hn
        rw [indexSub, if_pos (by omega)]
        simp only [Res.ok_bind]
        have : name.length - 2 = s.length := by rw [hlen, hn]; simp
        rw [this, hsub, Res.ok_bind]
        exact noPanic_bind hsr (by intros; simp)
      · apply noPanic_bind (parseUsize_noPanic _)
        intro k _
        rw [byteLen_ascii hnasc, indexSub, if_pos (by omega)]
        simp only [Res.ok_bind]
        rw [indexSub, if_pos (by omega)]
        simp only [Res.ok_bind]
        have : name.length - num.length - 2 = s.length := by omega
        rw [this, hsub, Res.ok_bind]
        exact noPanic_bind hsr (by intros; simp)
    · exact readElementary_noPanic _

theorem read_noPanic_aux : ∀ (n : Nat) (name : Str), byteLen name = n → ascii name →
    bracketsClose false name = true → read name ≠ .panic := by
  intro n
  induction n using Nat.strongRecOn with
  | ind n ih =>
    intro name hn hasc hbr
    rw [read_eq, readStep_congr (r2 := fun s => if byteLen s < byteLen name then read s else .err (.invalidName s))]
    · apply step_noPanic _ hasc hbr
      intro s h1 h2
      simp only []
      split
      · rename_i h; exact ih _ (by omega) s rfl h1 h2
      · simp
    · intro s hs
      simp [hs]

/-! ### type texts have matched brackets -/

/-- state of the scan after a prefix -/
def bracketState (o : Bool) : Str → Bool
  | [] => o
  | c :: cs =>
      if c = '[' then bracketState true cs
      else if c = ']' then bracketState false cs
      else if c = '(' ∨ c = ')' ∨ c = ',' then bracketState false cs
      else bracketState o cs

theorem brackets_append {x y : Str} : ∀ {o : Bool},
    bracketsClose o (x ++ y) = (bracketsClose o x && bracketsClose (bracketState o x) y) := by
  induction x with
  | nil => intro o; simp [bracketsClose, bracketState]
  | cons c cs ih =>
    intro o
    simp only [List.cons_append, bracketsClose, bracketState]
    repeat' split
    all_goals simp [ih, Bool.and_assoc]

theorem bracketState_append {x y : Str} : ∀ {o : Bool}, bracketState o (x ++ y) = bracketState (bracketState o x) y := by
  induction x with
  | nil => intro o; rfl
  | cons c cs ih =>
    intro o
    simp only [List.cons_append, bracketState]
    repeat' split
    all_goals simp [ih]

/-- text scanned in any state and leaving the state as it is -/
def Neutral (s : Str) : Prop := bracketsClose false s = true ∧ bracketState false s = false

theorem neutral_append {x y : Str} (hx : Neutral x) (hy : Neutral y) : Neutral (x ++ y) := by
  refine ⟨?_, ?_⟩
  · rw [brackets_append, hx.1, hx.2, hy.1]; rfl
  · rw [bracketState_append, hx.2, hy.2]

theorem digits_scan {s : Str} (h : ∀ c ∈ s, c.isDigit = true) (o : Bool) :
    bracketsClose o s = true ∧ bracketState o s = o := by
  induction s with
  | nil => exact ⟨rfl, rfl⟩
  | cons c cs ih =>
    have hc := h c (by simp)
    have ih := ih fun d hd => h d (by simp [hd])
    have h1 : c ≠ '[' := by rintro rfl; exact absurd hc (by decide)
    have h2 : c ≠ ']' := by rintro rfl; exact absurd hc (by decide)
    have h3 : ¬ (c = '(' ∨ c = ')' ∨ c = ',') := by
      rintro (rfl | rfl | rfl) <;> exact absurd hc (by decide)
    simp only [bracketsClose, bracketState, if_neg h1, if_neg h2, if_neg h3]
    exact ih

theorem neutral_nat (n : Nat) : Neutral (natText n) := digits_scan (fun _ hc => isDigit_natText hc) false

theorem neutral_fixed (n : Nat) : Neutral (lit "[" ++ (natText n ++ lit "]")) := by
  have h := digits_scan (s := natText n) (fun _ hc => isDigit_natText hc) true
  refine ⟨?_, ?_⟩
  · rw [brackets_append, brackets_append]
    have : bracketState false (lit "[") = true := by decide
    rw [this, h.1, h.2]; decide
  · rw [bracketState_append, bracketState_append]
    have : bracketState false (lit "[") = true := by decide
    rw [this, h.2]; decide

theorem neutral_lit {s : Str} (h : bracketsClose false s = true ∧ bracketState false s = false) : Neutral s := h

theorem neutral_join {l : List Str} (h : ∀ s ∈ l, Neutral s) : Neutral (join (lit ",") l) := by
  induction l with
  | nil => exact ⟨rfl, rfl⟩
  | cons a l ih =>
    cases l with
    | nil => simpa [join] using h a (by simp)
    | cons b l =>
      rw [join_cons_cons]
      exact neutral_append (neutral_append (h a (by simp)) (neutral_lit (by decide)))
        (ih fun s hs => h s (by simp [hs]))

mutual
theorem neutral_write : ∀ (t : ParamType), Neutral (writeForAbi true t)
  | .address => neutral_lit (by decide)
  | .bytes => neutral_lit (by decide)
  | .bool => neutral_lit (by decide)
  | .string => neutral_lit (by decide)
  | .int n => by rw [writeForAbi]; exact neutral_append (neutral_lit (by decide)) (neutral_nat n)
  | .uint n => by rw [writeForAbi]; exact neutral_append (neutral_lit (by decide)) (neutral_nat n)
  | .fixedBytes n => by rw [writeForAbi]; exact neutral_append (neutral_lit (by decide)) (neutral_nat n)
  | .array t => by rw [writeForAbi]; exact neutral_append (neutral_write t) (neutral_lit (by decide))
  | .fixedArray t n => by
      rw [writeForAbi, List.append_assoc, List.append_assoc]
      exact neutral_append (neutral_write t) (neutral_fixed n)
  | .tuple ts => by
      rw [writeForAbi, if_pos rfl]
      exact neutral_append (neutral_append (neutral_lit (by decide)) (neutral_join (neutral_writeAll ts)))
        (neutral_lit (by decide))
theorem neutral_writeAll : ∀ (ts : List ParamType), ∀ s ∈ writeAll true ts, Neutral s
  | [], s, h => by simp [writeAll] at h
  | t :: ts, s, h => by
      simp only [writeAll, List.mem_cons] at h
      rcases h with rfl | h
      · exact neutral_write t
      · exact neutral_writeAll ts s h
end

theorem brackets_write (t : ParamType) : bracketsClose false (write t) = true := (neutral_write t).1

theorem byteLen_utf8 (s : Str) : byteLen s = (utf8 s).length := by
  induction s with
  | nil => rfl
  | cons c s ih => simp [byteLen, utf8, ih]

end Ethabi

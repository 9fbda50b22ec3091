import Verif.Proofs.AnyText
import Verif.Proofs.RefusedText
import Verif.Spec.AnyRefused
/-! # The errors of `Reader::read` on every ASCII text -/
namespace Ethabi.AnyRefused
open Spec Spec.AnyText NestedText AnyText Errors

theorem read_ok {q : Str} (h : ascii q) (t : ParamType) : read q = .ok t ↔ Text q t := (anyOutcome _ q rfl h).1 t

/-! ### cuts -/

theorem cutsText_behind : ∀ r : List Cut, cutsText r = upToMark r ++ cutsText (behindMark r)
  | [] => rfl
  | ⟨p, .opening⟩ :: r => by
    rw [cutsText_cons, upToMark, behindMark, cutsText_behind r]; simp [Mark.char]
  | ⟨p, .closing⟩ :: r => by rw [cutsText_cons, upToMark, behindMark, cutsText_cons]; rfl
  | ⟨p, .comma⟩ :: r => by rw [cutsText_cons, upToMark, behindMark, cutsText_cons]; rfl

theorem trailing_upTo : ∀ r : List Cut, (∀ c ∈ r, NoDelimiter c.text) → trailing (cutsText r) = (upToMark r).length
  | [], _ => rfl
  | ⟨p, .opening⟩ :: r, h => by
    rw [cutsText_cons, upToMark, Mark.char, trailing_open (noDelimiter_plain (h ⟨p, .opening⟩ (by simp))),
      trailing_upTo r (fun c hc => h c (by simp [hc]))]
    simp; omega
  | ⟨p, .closing⟩ :: r, h => by
    rw [cutsText_cons, upToMark, Mark.char, trailing_plain (noDelimiter_plain (h ⟨p, .closing⟩ (by simp))) (Or.inr rfl)]
  | ⟨p, .comma⟩ :: r, h => by
    rw [cutsText_cons, upToMark, Mark.char, trailing_plain (noDelimiter_plain (h ⟨p, .comma⟩ (by simp))) (Or.inl rfl)]

theorem behind_plain : ∀ r : List Cut, (∀ c ∈ r, NoDelimiter c.text) → ∀ c ∈ behindMark r, NoDelimiter c.text
  | [], h => h
  | ⟨p, .opening⟩ :: r, h => behind_plain r (fun c hc => h c (by simp [hc]))
  | ⟨p, .closing⟩ :: r, h => by
    intro c hc
    rcases List.mem_cons.1 hc with rfl | hc
    · intro x hx; simp at hx
    · exact h c (by simp [hc])
  | ⟨p, .comma⟩ :: r, h => by
    intro c hc
    rcases List.mem_cons.1 hc with rfl | hc
    · intro x hx; simp at hx
    · exact h c (by simp [hc])

theorem behind_length : ∀ r : List Cut, (behindMark r).length ≤ r.length
  | [] => by simp [behindMark]
  | ⟨p, .opening⟩ :: r => by have := behind_length r; simp only [behindMark, List.length_cons]; omega
  | ⟨p, .closing⟩ :: r => by simp [behindMark]
  | ⟨p, .comma⟩ :: r => by simp [behindMark]

/-! ### the loop -/

/-- the loop's state at a spot -/
def At (before : Str) (st : ReadSt) : Spot → Prop
  | .inside n w => st.nested = n + 1 ∧ n ≤ st.subtuples.length ∧ st.lastItem = before.length ∧
      (n ≠ 0 → ∃ pre, before = pre ++ w ∧ st.topOpen = pre.length ∧ pre ≠ [])
  | .outside w => st.nested = 0 ∧ ∃ pre, before = pre ++ w ∧ st.lastItem = pre.length ∧ pre ≠ []
  | .reopened w => st.nested = 1 ∧ ∃ pre y, before = pre ++ w ∧ st.lastItem = pre.length ∧ pre ≠ [] ∧ w = y ++ ['(']

/-- the shorter texts -/
def Known (name : Str) : Prop := ∀ (q : Str) (e : Err), ascii q → q.length < name.length → (read q = .err e ↔ RefusedAny q e)

/-- the claim for `N` cuts -/
def Tells (name : Str) (N : Nat) : Prop := ∀ (cs : List Cut) (before : Str) (st : ReadSt) (sp : Spot) (e : Err),
  cs.length ≤ N → (∀ c ∈ cs, NoDelimiter c.text) → name = before ++ cutsText cs → before ≠ [] → At before st sp →
  (readLoop read name (cutsText cs) before.length 0 st = .err e ↔ Stops name sp cs e)

theorem item_iff {p : Str} (h : ascii p) {α : Type} {f : ParamType → Res α} {e : Err} {K : Prop} (hp : p ≠ [])
    (hk : ∀ t, read p = .ok t → (f t = .err e ↔ K)) : (read p >>= f) = .err e ↔ read p = .err e ∨ Fine p ∧ K := by
  rw [bind_eq_err]
  refine or_congr Iff.rfl ⟨?_, ?_⟩
  · rintro ⟨t, h1, h2⟩
    exact ⟨Or.inr ⟨t, (read_ok h t).1 h1⟩, (hk t h1).1 h2⟩
  · rintro ⟨h1 | ⟨t, h1⟩, h2⟩
    · exact absurd h1 hp
    · have := (read_ok h t).2 h1
      exact ⟨t, this, (hk t this).2 h2⟩

theorem fine_nil : Fine [] := Or.inl rfl

theorem tells_comma {name : Str} {N : Nat} (hasc : ascii name) (hk : Known name) (ih : Tells name N) {p : Str} {r : List Cut}
    {before : Str} {st : ReadSt} {n : Nat} {w : Str} {e : Err} (hr : r.length ≤ N) (hp : NoDelimiter p)
    (hrp : ∀ c ∈ r, NoDelimiter c.text) (hname : name = before ++ cutsText (⟨p, .comma⟩ :: r))
    (hst : At before st (.inside n w)) :
    readLoop read name (cutsText (⟨p, .comma⟩ :: r)) before.length 0 st = .err e ↔
      Stops name (.inside n w) (⟨p, .comma⟩ :: r) e := by
  obtain ⟨s1, s2, s3, s4⟩ := hst
  rw [cutsText_cons] at hname ⊢
  have hname' : name = (before ++ p ++ [',']) ++ cutsText r := by rw [hname]; simp [Mark.char]
  have elen : before.length + p.length + 1 = (before ++ p ++ [',']).length := by simp; omega
  have hs : strSlice name st.lastItem (before.length + p.length) = .ok p := by rw [s3]; exact item_slice hasc hname
  have hshort : p.length < name.length := by rw [hname]; simp; omega
  have hpa : ascii p := noDelimiter_ascii hp
  have hinv : Stops name (.inside n w) (⟨p, .comma⟩ :: r) e ↔
      (p ≠ [] ∧ RefusedAny p e) ∨ Fine p ∧ Stops name (.inside n (w ++ p ++ ",".toList)) r e := by
    constructor
    · intro h
      cases h with
      | badMember h1 h2 => exact Or.inl ⟨h2, h1⟩
      | member h1 h2 => exact Or.inr ⟨h1, h2⟩
    · rintro (⟨h1, h2⟩ | ⟨h1, h2⟩)
      · exact .badMember h2 h1
      · exact .member h1 h2
  have hat : ∀ st' : ReadSt, st'.nested = st.nested → st'.subtuples.length = st.subtuples.length → st'.topOpen = st.topOpen →
      st'.lastItem = before.length + p.length + 1 → At (before ++ p ++ [',']) st' (.inside n (w ++ p ++ ",".toList)) := by
    intro st' h1 h2 h3 h4
    refine ⟨by rw [h1, s1], by rw [h2]; exact s2, by rw [h4, elen], fun hn => ?_⟩
    obtain ⟨pre, g1, g2, g3⟩ := s4 hn
    exact ⟨pre, by rw [g1]; simp, by rw [h3, g2], g3⟩
  rw [loop_plain read name (noDelimiter_plain hp)]
  simp only [Mark.char]
  rw [readLoop_comma, hinv]
  unfold readComma
  rw [hs]
  simp only [Res.ok_bind]
  by_cases he : p = []
  · rw [if_pos he]
    simp only [Res.ok_bind]
    rw [elen]
    refine (ih r _ _ (.inside n (w ++ p ++ ",".toList)) e hr hrp hname' (by simp) ?_).trans ?_
    · exact (hat _ rfl rfl rfl elen.symm)
    constructor
    · exact fun h => Or.inr ⟨Or.inl he, h⟩
    · rintro (⟨h, _⟩ | ⟨_, h⟩)
      · exact absurd he h
      · exact h
  rw [if_neg he, ← hk p e hpa hshort]
  simp only [ne_eq, he, not_false_iff, true_and]
  by_cases hn : n = 0
  · rw [if_pos (by omega)]
    rw [Res.bind_assoc]
    refine item_iff hpa he fun t ht => ?_
    simp only [Res.ok_bind]
    rw [elen]
    exact ih r _ _ _ e hr hrp hname' (by simp) (hat _ rfl rfl rfl elen.symm)
  · rw [if_neg (by omega), if_pos (by omega)]
    rw [Res.bind_assoc]
    refine item_iff hpa he fun t ht => ?_
    have hiv : indexVec st.subtuples (st.nested - 2) = .ok (st.subtuples[n - 1]'(by omega)) := by
      unfold indexVec
      rw [if_neg (by omega), show (st.nested - 2).toNat = n - 1 by omega, List.getElem?_eq_getElem (by omega)]
    rw [hiv]
    simp only [Res.ok_bind]
    rw [elen]
    exact ih r _ _ _ e hr hrp hname' (by simp) (hat _ rfl (by simp) rfl elen.symm)

theorem tells_open {name : Str} {N : Nat} (ih : Tells name N) {p : Str} {r : List Cut}
    {before : Str} {st : ReadSt} {n : Nat} {w : Str} {e : Err} (hr : r.length ≤ N) (hp : NoDelimiter p)
    (hrp : ∀ c ∈ r, NoDelimiter c.text) (hname : name = before ++ cutsText (⟨p, .opening⟩ :: r)) (hb : before ≠ [])
    (hst : At before st (.inside n w)) :
    readLoop read name (cutsText (⟨p, .opening⟩ :: r)) before.length 0 st = .err e ↔
      Stops name (.inside n w) (⟨p, .opening⟩ :: r) e := by
  obtain ⟨s1, s2, s3, s4⟩ := hst
  rw [cutsText_cons] at hname ⊢
  have hname' : name = (before ++ p ++ ['(']) ++ cutsText r := by rw [hname]; simp [Mark.char]
  have elen : before.length + p.length + 1 = (before ++ p ++ ['(']).length := by simp; omega
  rw [loop_plain read name (noDelimiter_plain hp)]
  simp only [Mark.char]
  rw [readLoop_open, readOpen_inner (by omega), elen]
  rw [ih r _ _ (.inside (n + 1) "(".toList) e hr hrp hname' (by simp)
    ⟨by simp only; omega, by simpa using s2, rfl, fun _ => ⟨before ++ p, by simp, by simp, by simp [hb]⟩⟩]
  constructor
  · exact .open
  · intro h
    cases h with
    | «open» h => exact h

theorem tells_close {name : Str} {N : Nat} (hasc : ascii name) (hk : Known name) (ih : Tells name N) {p : Str} {r : List Cut}
    {before : Str} {st : ReadSt} {n : Nat} {w : Str} {e : Err} (hr : r.length ≤ N) (hp : NoDelimiter p)
    (hrp : ∀ c ∈ r, NoDelimiter c.text) (hname : name = before ++ cutsText (⟨p, .closing⟩ :: r))
    (hst : At before st (.inside n w)) :
    readLoop read name (cutsText (⟨p, .closing⟩ :: r)) before.length 0 st = .err e ↔
      Stops name (.inside n w) (⟨p, .closing⟩ :: r) e := by
  obtain ⟨s1, s2, s3, s4⟩ := hst
  rw [cutsText_cons] at hname ⊢
  have hname' : name = (before ++ p ++ [')']) ++ cutsText r := by rw [hname]; simp [Mark.char]
  have elen : before.length + p.length + 1 = (before ++ p ++ [')']).length := by simp; omega
  have hs : strSlice name st.lastItem (before.length + p.length) = .ok p := by rw [s3]; exact item_slice hasc hname
  have hshort : p.length < name.length := by rw [hname]; simp; omega
  have hpa : ascii p := noDelimiter_ascii hp
  rw [loop_plain read name (noDelimiter_plain hp)]
  simp only [Mark.char]
  rw [readLoop_close]
  unfold readClose
  simp only []
  rw [if_neg (by omega), hs]
  simp only [Res.ok_bind]
  cases n with
  | zero =>
    have hinv : Stops name (.inside 0 w) (⟨p, .closing⟩ :: r) e ↔
        (p ≠ [] ∧ RefusedAny p e) ∨ Fine p ∧ Stops name (.outside []) r e := by
      constructor
      · intro h
        cases h with
        | badLast h1 h2 => exact Or.inl ⟨h2, h1⟩
        | last h1 h2 => exact Or.inr ⟨h1, h2⟩
      · rintro (⟨h1, h2⟩ | ⟨h1, h2⟩)
        · exact .badLast h2 h1
        · exact .last h1 h2
    have hat : ∀ st' : ReadSt, st'.nested = st.nested - 1 → st'.lastItem = before.length + p.length + 1 →
        At (before ++ p ++ [')']) st' (.outside []) := by
      intro st' h1 h2
      exact ⟨by rw [h1, s1]; rfl, before ++ p ++ [')'], by simp, by rw [h2, elen], by simp⟩
    rw [hinv]
    by_cases he : p = []
    · rw [if_pos he]
      simp only [Res.ok_bind]
      rw [elen, ih r _ _ _ e hr hrp hname' (by simp) (hat _ rfl elen.symm)]
      constructor
      · exact fun h => Or.inr ⟨Or.inl he, h⟩
      · rintro (⟨h, _⟩ | ⟨_, h⟩)
        · exact absurd he h
        · exact h
    rw [if_neg he, if_pos (by omega), ← hk p e hpa hshort]
    simp only [ne_eq, he, not_false_iff, true_and]
    rw [Res.bind_assoc]
    refine item_iff hpa he fun t ht => ?_
    simp only [Res.ok_bind]
    rw [elen, ih r _ _ _ e hr hrp hname' (by simp) (hat _ rfl elen.symm)]
  | succ n =>
    obtain ⟨pre, g1, g2, g3⟩ := s4 (by omega)
    by_cases he : p = []
    · subst he
      rw [if_pos rfl]
      simp only [Res.ok_bind]
      rw [elen]
      refine (ih r _ _ (.inside n (w ++ ")".toList)) e hr hrp hname' (by simp) ?_).trans ?_
      · exact ⟨by simp only; omega, by simp only; omega, rfl,
        fun _ => ⟨pre, by rw [g1]; simp, g2, g3⟩⟩
      constructor
      · exact .close
      · intro h
        cases h with
        | close h => exact h
        | badGroup h _ => exact absurd rfl h
        | group h _ _ => exact absurd rfl h
    rw [if_neg he, if_neg (by omega)]
    have etr := trailing_upTo r hrp
    have ename : name = pre ++ (w ++ p ++ ")".toList ++ upToMark r) ++ cutsText (behindMark r) := by
      rw [hname', g1, cutsText_behind r]; simp
    have hin : strSlice name st.topOpen (before.length + p.length + trailing (cutsText r) + 1) =
        .ok (w ++ p ++ ")".toList ++ upToMark r) := by
      have := hasc
      rw [ename] at this ⊢
      refine strSlice_mid this g2 ?_
      rw [etr, g1]
      simp; omega
    have hina : ascii (w ++ p ++ ")".toList ++ upToMark r) := fun c hc => hasc c (by
      rw [ename]; simp only [List.mem_append] at hc ⊢; tauto)
    have hinl : (w ++ p ++ ")".toList ++ upToMark r).length < name.length := by
      have : 0 < pre.length := List.length_pos_iff.2 g3
      rw [ename]; simp only [List.length_append]; omega
    have hnew : name = (before ++ p ++ ")".toList ++ upToMark r) ++ cutsText (behindMark r) := by
      rw [ename, g1]; simp
    have enew : before.length + p.length + (upToMark r).length + 1 = (before ++ p ++ ")".toList ++ upToMark r).length := by
      simp; omega
    have hskip : ∀ st' : ReadSt, readLoop read name (cutsText r) (before.length + p.length + 1) (trailing (cutsText r)) st' =
        readLoop read name (cutsText (behindMark r)) (before ++ p ++ ")".toList ++ upToMark r).length 0 st' := by
      intro st'
      rw [etr, cutsText_behind r, loop_skip]
      congr 1
      rw [← enew]; omega
    have hinv : Stops name (.inside (n + 1) w) (⟨p, .closing⟩ :: r) e ↔ RefusedAny (w ++ p ++ ")".toList ++ upToMark r) e ∨
        Fine (w ++ p ++ ")".toList ++ upToMark r) ∧
          Stops name (.inside n (w ++ p ++ ")".toList ++ upToMark r)) (behindMark r) e := by
      constructor
      · intro h
        cases h with
        | close h => exact absurd rfl he
        | badGroup _ h => exact Or.inl h
        | group _ h1 h2 => exact Or.inr ⟨Or.inr ⟨_, h1⟩, h2⟩
      · rintro (h | ⟨h | ⟨t, h⟩, h2⟩)
        · exact .badGroup he h
        · simp at h
        · exact .group he h h2
    rw [hinv, hin, ← hk _ e hina hinl]
    simp only [Res.ok_bind]
    rw [Res.bind_assoc]
    refine item_iff hina (by simp) fun t ht => ?_
    have hat : ∀ st' : ReadSt, st'.nested = st.nested - 1 → st'.subtuples.length = st.subtuples.length →
        st'.topOpen = st.topOpen → st'.lastItem = (before ++ p ++ ")".toList ++ upToMark r).length →
        At (before ++ p ++ ")".toList ++ upToMark r) st' (.inside n (w ++ p ++ ")".toList ++ upToMark r)) := by
      intro st' h1 h2 h3 h4
      exact ⟨by rw [h1]; omega, by rw [h2]; omega, h4, fun _ => ⟨pre, by rw [g1]; simp, by rw [h3, g2], g3⟩⟩
    by_cases hn : n = 0
    · rw [if_neg (by omega)]
      simp only [Res.ok_bind]
      rw [hskip, etr, enew]
      exact ih _ _ _ _ e (le_trans (behind_length r) hr) (behind_plain r hrp) hnew (by simp) (hat _ rfl rfl rfl rfl)
    · rw [if_pos (by omega)]
      have hiv : indexVec st.subtuples (st.nested - 1 - 2) = .ok (st.subtuples[n - 1]'(by omega)) := by
        unfold indexVec
        rw [if_neg (by omega), show (st.nested - 1 - 2).toNat = n - 1 by omega, List.getElem?_eq_getElem (by omega)]
      rw [hiv]
      simp only [Res.ok_bind]
      rw [hskip, etr, enew]
      exact ih _ _ _ _ e (le_trans (behind_length r) hr) (behind_plain r hrp) hnew (by simp) (hat _ rfl (by simp) rfl rfl)

theorem tells_outside {name : Str} {N : Nat} (hasc : ascii name) (ih : Tells name N) {p : Str} {d : Mark} {r : List Cut}
    {before : Str} {st : ReadSt} {w : Str} {e : Err} (hr : r.length ≤ N) (hp : NoDelimiter p)
    (hrp : ∀ c ∈ r, NoDelimiter c.text) (hname : name = before ++ cutsText (⟨p, d⟩ :: r)) (hst : At before st (.outside w)) :
    readLoop read name (cutsText (⟨p, d⟩ :: r)) before.length 0 st = .err e ↔ Stops name (.outside w) (⟨p, d⟩ :: r) e := by
  obtain ⟨s1, pre, g1, g2, g3⟩ := hst
  rw [cutsText_cons] at hname ⊢
  have hname' : name = (before ++ p ++ [d.char]) ++ cutsText r := by rw [hname]; simp
  have elen : before.length + p.length + 1 = (before ++ p ++ [d.char]).length := by simp; omega
  rw [loop_plain read name (noDelimiter_plain hp)]
  cases d with
  | opening =>
    simp only [Mark.char] at *
    rw [readLoop_open, elen, readOpen]
    rw [if_neg (by omega)]
    refine (ih r _ _ (.reopened (w ++ p ++ "(".toList)) e hr hrp hname' (by simp) ?_).trans ?_
    · exact ⟨by simp only; omega, pre, w ++ p, by rw [g1]; simp, g2, g3, rfl⟩
    constructor
    · exact .reopen
    · intro h
      cases h with
      | reopen h => exact h
  | closing =>
    simp only [Mark.char] at *
    rw [readLoop_close]
    unfold readClose
    simp only []
    rw [if_pos (by omega)]
    constructor
    · intro h; cases h; exact .tooMany
    · intro h; cases h; rfl
  | comma =>
    simp only [Mark.char] at *
    have hs : strSlice name st.lastItem (before.length + p.length) = .ok (w ++ p) := by
      have hn : name = pre ++ (w ++ p) ++ (',' :: cutsText r) := by rw [hname', g1]; simp
      have := hasc
      rw [hn] at this ⊢
      refine strSlice_mid this g2 ?_
      rw [g1]; simp; omega
    rw [readLoop_comma]
    unfold readComma
    rw [hs]
    simp only [Res.ok_bind]
    by_cases he : w ++ p = []
    · rw [if_pos he]
      simp only [Res.ok_bind]
      obtain ⟨rfl, rfl⟩ := List.append_eq_nil_iff.1 he
      rw [elen]
      refine (ih r _ _ (.outside []) e hr hrp hname' (by simp) ?_).trans ?_
      · exact ⟨s1, before ++ [] ++ [','], by simp, rfl, by simp⟩
      constructor
      · exact .comma
      · intro h
        cases h with
        | comma h => exact h
        | passed h _ => exact absurd rfl h
    · rw [if_neg he, if_neg (by omega), if_neg (by omega)]
      simp only [Res.ok_bind]
      rw [elen]
      refine (ih r _ _ (.outside (w ++ p ++ ",".toList)) e hr hrp hname' (by simp) ?_).trans ?_
      · exact ⟨s1, pre, by rw [g1]; simp, g2, g3⟩
      constructor
      · exact .passed he
      · intro h
        cases h with
        | comma h => exact absurd rfl he
        | passed _ h => exact h

theorem tells_reopened {name : Str} {N : Nat} (hasc : ascii name) (hk : Known name) (ih : Tells name N) {p : Str} {d : Mark}
    {r : List Cut} {before : Str} {st : ReadSt} {w : Str} {e : Err} (hr : r.length ≤ N) (hp : NoDelimiter p)
    (hrp : ∀ c ∈ r, NoDelimiter c.text) (hname : name = before ++ cutsText (⟨p, d⟩ :: r)) (hb : before ≠ [])
    (hst : At before st (.reopened w)) :
    readLoop read name (cutsText (⟨p, d⟩ :: r)) before.length 0 st = .err e ↔ Stops name (.reopened w) (⟨p, d⟩ :: r) e := by
  obtain ⟨s1, pre, y, g1, g2, g3, g4⟩ := hst
  rw [cutsText_cons] at hname ⊢
  have hname' : name = (before ++ p ++ [d.char]) ++ cutsText r := by rw [hname]; simp
  have elen : before.length + p.length + 1 = (before ++ p ++ [d.char]).length := by simp; omega
  have hn : name = pre ++ (w ++ p) ++ (d.char :: cutsText r) := by rw [hname', g1]; simp
  have hs : strSlice name st.lastItem (before.length + p.length) = .ok (w ++ p) := by
    have := hasc
    rw [hn] at this ⊢
    refine strSlice_mid this g2 ?_
    rw [g1]; simp; omega
  have hia : ascii (w ++ p) := fun c hc => hasc c (by rw [hn]; simp only [List.mem_append] at hc ⊢; tauto)
  have hil : (w ++ p).length < name.length := by rw [hn]; simp; omega
  obtain ⟨err, herr⟩ : ∃ err, read (w ++ p) = .err err := by
    rw [g4, List.append_assoc] at hia ⊢
    exact open_err _ y p rfl hia (fun h => (hp _ h).2.2.1 rfl)
  have hne : w ++ p ≠ [] := by rw [g4]; simp
  have hinv : d ≠ .opening → (Stops name (.reopened w) (⟨p, d⟩ :: r) e ↔ read (w ++ p) = .err e) := by
    intro hd
    rw [hk _ e hia hil]
    constructor
    · intro h
      cases h with
      | refused _ h => exact h
      | again h => exact absurd rfl hd
    · exact .refused hd
  rw [loop_plain read name (noDelimiter_plain hp)]
  cases d with
  | opening =>
    simp only [Mark.char] at *
    rw [readLoop_open, readOpen_inner (by omega), elen]
    rw [ih r _ _ (.inside 1 "(".toList) e hr hrp hname' (by simp)
      ⟨by simp only; omega, by simp, rfl, fun _ => ⟨before ++ p, by simp, by simp, by simp [hb]⟩⟩]
    constructor
    · exact .again
    · intro h
      cases h with
      | refused h _ => exact absurd rfl h
      | again h => exact h
  | closing =>
    rw [hinv nofun]
    simp only [Mark.char] at *
    rw [readLoop_close]
    unfold readClose
    simp only []
    rw [if_neg (by omega), hs]
    simp only [Res.ok_bind]
    rw [if_neg hne, if_pos (by omega), herr]
    simp only [Res.err_bind, Res.err.injEq]
  | comma =>
    rw [hinv nofun]
    simp only [Mark.char] at *
    rw [readLoop_comma]
    unfold readComma
    rw [hs]
    simp only [Res.ok_bind]
    rw [if_neg hne, if_pos (by omega), herr]
    simp only [Res.err_bind, Res.err.injEq]

theorem tells {name : Str} (hasc : ascii name) (hk : Known name) : ∀ N, Tells name N := by
  intro N
  induction N with
  | zero =>
    intro cs before st sp e hN _ _ _ _
    obtain rfl := List.eq_nil_of_length_eq_zero (Nat.le_zero.1 hN)
    exact ⟨fun h => by simp [cutsText, readLoop] at h, nofun⟩
  | succ N ih =>
    intro cs before st sp e hN hcs hname hb hst
    cases cs with
    | nil => exact ⟨fun h => by simp [cutsText, readLoop] at h, nofun⟩
    | cons c r =>
      obtain ⟨p, d⟩ := c
      have hr : r.length ≤ N := by simpa using hN
      have hp : NoDelimiter p := hcs ⟨p, d⟩ (by simp)
      have hrp : ∀ c ∈ r, NoDelimiter c.text := fun c hc => hcs c (by simp [hc])
      cases sp with
      | outside w => exact tells_outside hasc ih hr hp hrp hname hst
      | reopened w => exact tells_reopened hasc hk ih hr hp hrp hname hb hst
      | inside n w =>
        cases d with
        | comma => exact tells_comma hasc hk ih hr hp hrp hname hst
        | opening => exact tells_open ih hr hp hrp hname hb hst
        | closing => exact tells_close hasc hk ih hr hp hrp hname hst

/-! ### all texts -/

theorem read_tuple {cs : List Cut} (h : Proper cs) (hasc : ascii ("(".toList ++ cutsText cs))
    (hk : Known ("(".toList ++ cutsText cs)) (e : Err) : read ("(".toList ++ cutsText cs) = .err e ↔
      Stops ("(".toList ++ cutsText cs) (.inside 0 "(".toList) cs e := by
  rw [← tells hasc hk cs.length cs "(".toList { subtypes := [], subtuples := [], nested := 1, topOpen := 0, lastItem := 1 }
    (.inside 0 "(".toList) e (Nat.le_refl _) h.1 rfl (by decide) ⟨rfl, by simp, rfl, fun h => absurd rfl h⟩]
  rw [read_eq, readStep, if_pos (proper_last h), if_neg (by simp [lit, startsWith])]
  rw [show readLoop read ("(".toList ++ cutsText cs) ("(".toList ++ cutsText cs) 0 0
    { subtypes := [], subtuples := [], nested := 0, topOpen := 0, lastItem := 1 } = readLoop read ("(".toList ++ cutsText cs)
      (cutsText cs) 1 0 { subtypes := [], subtuples := [], nested := 1, topOpen := 0, lastItem := 1 } from readLoop_open ..]
  rw [show "(".toList.length = 1 by rfl]
  cases readLoop read ("(".toList ++ cutsText cs) (cutsText cs) 1 0
    { subtypes := [], subtuples := [], nested := 1, topOpen := 0, lastItem := 1 } <;> simp

theorem refused_read {s : Str} {e : Err} (ha : ascii s) (hk : Known s) (h : RefusedAny s e) : read s = .err e := by
  cases h with
  | @size s d h1 h2 h3 => exact RefusedText.refused_read (.size h1 h2 h3) ha
  | @unopened d h1 h2 h3 => exact RefusedText.refused_read (.unopened h1 h2 h3) ha
  | @array s e h =>
    have ha' : ascii s := fun x hx => ha x (by simp [hx])
    rw [show "[]".toList = lit "[]" by rfl, read_array ha', (hk s e ha' (by simp)).2 h]
    rfl
  | @fixedArray s d n e h h1 =>
    have ha' : ascii s := fun x hx => ha x (by simp [hx])
    have hr := (hk s e ha' (by simp)).2 h
    rw [RefusedText.suffix_eq] at ha ⊢
    have hk' := (numberText_iff d n).1 h1
    have hne : d ≠ [] := by
      rintro rfl
      cases hk'
    rw [read_fixedArray ha' (fun x hx => ha x (by simp [hx])) hne (fun hb => by
      obtain ⟨ds, rfl | rfl, -, hd, -⟩ := h1
      · exact absurd (hd _ hb) (by decide)
      · rcases List.mem_cons.1 hb with hb | hb
        · cases hb
        · exact absurd (hd _ hb) (by decide)), hk', Res.ok_bind, hr]
    rfl
  | width h1 h2 h3 h4 => exact RefusedText.refused_read (.width h1 h2 h3 h4) ha
  | name h1 h2 h3 => exact RefusedText.refused_read (.name h1 h2 h3) ha
  | notOpened h1 h2 =>
    rw [read_eq, readStep, if_pos h1, if_pos]
    cases s with
    | nil => rfl
    | cons c s =>
      simp only [List.head?_cons, ne_eq, Option.some.injEq] at h2
      have : ('(' == c) = false := beq_false_of_ne (fun h => h2 h.symm)
      simp [lit, startsWith, List.isPrefixOf, this]
  | tuple h1 h2 => exact (read_tuple h1 ha hk e).2 h2

theorem read_refused {s : Str} {e : Err} (ha : ascii s) (hk : Known s) (h : read s = .err e) : RefusedAny s e := by
  by_cases hl : s.getLast? = some ']'
  · obtain ⟨p, rfl⟩ : ∃ p, s = p ++ [']'] := List.getLast?_eq_some_iff.1 hl
    by_cases hb : '[' ∈ p
    · obtain ⟨q, num, rfl, hnum⟩ := last_bracket p hb
      have e1 : q ++ '[' :: num ++ [']'] = q ++ '[' :: (num ++ [']']) := by simp
      rw [e1] at ha h hk ⊢
      have haq : ascii q := fun x hx => ha x (by simp [hx])
      by_cases hne : num = []
      · subst hne
        have e2 : q ++ '[' :: ([] ++ [']']) = q ++ lit "[]" := rfl
        rw [e2] at h hk ⊢
        rw [read_array haq, RefusedText.bind_ok_err] at h
        exact .array ((hk q e haq (by simp [lit])).1 h)
      · rw [read_fixedArray haq (fun x hx => ha x (by simp [hx])) hne hnum, bind_eq_err] at h
        have hql : q.length < (q ++ '[' :: (num ++ [']'])).length := by simp
        rcases h with h | ⟨k, hk', h⟩
        · rw [← RefusedText.suffix_eq]
          obtain ⟨rfl, h'⟩ := RefusedText.parse_err.1 h
          exact .size hnum hne h'
        · rw [RefusedText.bind_ok_err] at h
          have := (hk q e haq hql).1 h
          rw [← RefusedText.suffix_eq]
          exact .fixedArray this ((numberText_iff _ _).2 hk')
    · rw [read_unopened hb (fun x hx => ha x (by simp [hx]))] at h
      split at h
      · cases h
      · rename_i hne
        rw [bind_eq_err] at h
        rcases h with h | ⟨_, _, h⟩
        · obtain ⟨rfl, h'⟩ := RefusedText.parse_err.1 h
          exact .unopened hb hne h'
        · cases h
  by_cases hl' : s.getLast? = some ')'
  · by_cases hs : s.head? = some '('
    · obtain ⟨r, rfl⟩ : ∃ r, s = "(".toList ++ r := by
        cases s with
        | nil => cases hs
        | cons c s => cases hs; exact ⟨s, rfl⟩
      have har : ascii r := fun c hc => ha c (by simp [hc])
      have hr : r.getLast? = some ')' := by
        rcases List.eq_nil_or_concat r with rfl | ⟨r, c, rfl⟩
        · exact absurd hl' (by decide)
        · rw [List.concat_eq_append, ← List.append_assoc, List.getLast?_concat] at hl'
          rw [List.concat_eq_append, List.getLast?_concat, hl']
      obtain ⟨cs, rfl, hcs⟩ := proper_exist har hr
      exact .tuple hcs ((read_tuple hcs ha hk e).1 h)
    · have hsw : startsWith (lit "(") s = false := by
        cases s with
        | nil => rfl
        | cons c s =>
          rw [Bool.eq_false_iff]
          intro h
          simp [lit, startsWith] at h
          exact hs (by rw [← h]; rfl)
      rw [read_eq, readStep, if_pos hl', if_pos (by rw [hsw]; rfl)] at h
      cases h
      exact .notOpened hl' hs
  · rw [read_plain hl' hl] at h
    rcases RefusedText.elementary_err.1 h with ⟨p, d, rfl, h1, h2, rfl, h3⟩ | ⟨rfl, h1, h2⟩
    · exact .width h1 h2 ⟨hl, hl'⟩ h3
    · exact .name ⟨hl, hl'⟩ h1 h2

theorem read_err : ∀ (n : Nat) (s : Str) (e : Err), s.length = n → ascii s → (read s = .err e ↔ RefusedAny s e) := by
  intro n
  induction n using Nat.strongRecOn with
  | _ n ih =>
  intro s e hn ha
  have hk : Known s := fun q e hq hl => ih q.length (by omega) q e rfl hq
  exact ⟨read_refused ha hk, refused_read ha hk⟩

end Ethabi.AnyRefused

import Verif.Proofs.NestedText
import Verif.Spec.AnyText
/-! `Reader::read` on every ASCII text. -/
namespace Ethabi.AnyText
open Spec Spec.AnyText NestedText

/-! ### texts that are refused -/

theorem parse_err {num : Str} {c : Char} (hc : c = '(' ∨ c = ')') (h : c ∈ num) : ∃ e, parseUsize num = .err e := by
  cases hk : parseUsize num with
  | ok k =>
    have := numberText_plain ((numberText_iff _ _).2 hk) c h
    rcases hc with rfl | rfl <;> simp at this
  | err e => exact ⟨e, rfl⟩
  | panic => exact absurd hk (parseUsize_noPanic _)

/-- a suffix behind a refused text -/
theorem suffix_err {q num : Str} (haq : ascii q) (hanum : ascii num) (hb : '[' ∉ num) (h : ∃ e, read q = .err e) :
    ∃ e, read (q ++ '[' :: (num ++ [']'])) = .err e := by
  obtain ⟨e, h⟩ := h
  by_cases hne : num = []
  · subst hne
    refine ⟨e, ?_⟩
    have := read_array haq
    rw [show q ++ '[' :: ([] ++ [']']) = q ++ lit "[]" by rfl, this, h]; rfl
  · rw [read_fixedArray haq hanum hne hb]
    cases hk : parseUsize num with
    | ok k => exact ⟨e, by rw [h]; rfl⟩
    | err e' => exact ⟨e', rfl⟩
    | panic => exact absurd hk (parseUsize_noPanic _)

/-- a final `]` whose `[` lies before a parenthesis, or is missing -/
theorem across_err {y a : Str} {c : Char} (hc : c = '(' ∨ c = ')') (ha : ascii (y ++ c :: (a ++ [']'])))
    (hb : '[' ∉ a) : ∃ e, read (y ++ c :: (a ++ [']'])) = .err e := by
  have hc' : '[' ≠ c := by rcases hc with rfl | rfl <;> decide
  have e0 : y ++ c :: (a ++ [']']) = (y ++ c :: a) ++ [']'] := by simp
  by_cases hby : '[' ∈ y
  · obtain ⟨q, num, rfl, hnum⟩ := last_bracket y hby
    have e1 : q ++ '[' :: num ++ c :: (a ++ [']']) = q ++ '[' :: ((num ++ c :: a) ++ [']']) := by simp
    rw [e1] at ha ⊢
    rw [read_fixedArray (fun x hx => ha x (by simp [hx]))
      (fun x hx => ha x (by simp only [List.mem_append, List.mem_cons] at hx ⊢; tauto)) (by simp) (by
        simp only [List.mem_append, List.mem_cons, not_or]; exact ⟨hnum, hc', hb⟩)]
    obtain ⟨e, he⟩ := parse_err (num := num ++ c :: a) hc (by simp)
    exact ⟨e, by rw [he]; rfl⟩
  · rw [e0] at ha ⊢
    have hb' : '[' ∉ y ++ c :: a := by simp only [List.mem_append, List.mem_cons, not_or]; exact ⟨hby, hc', hb⟩
    rw [read_unopened hb' (fun x hx => ha x (by simp only [List.mem_append, List.mem_cons] at hx ⊢; tauto)),
      if_neg (by simp)]
    obtain ⟨e, he⟩ := parse_err (num := y ++ c :: a) hc (by simp)
    exact ⟨e, by rw [he]; rfl⟩

/-- a parenthesis in a text that ends with neither `)` nor `]` -/
theorem elementary_err {s : Str} {c : Char} (hc : c = '(' ∨ c = ')') (h : c ∈ s) (h1 : s.getLast? ≠ some ')')
    (h2 : s.getLast? ≠ some ']') : ∃ e, read s = .err e := by
  rw [read_plain h1 h2]
  cases hk : readElementary s with
  | ok k =>
    have := elementary_plain ((readElementary_iff _ _).1 hk) c h
    rcases hc with rfl | rfl <;> simp at this
  | err e => exact ⟨e, rfl⟩
  | panic => exact absurd hk (readElementary_noPanic _)

theorem getLast_behind {y a : Str} {c d : Char} (h : (y ++ c :: a).getLast? = some d) (hcd : c ≠ d) :
    ∃ a', a = a' ++ [d] := by
  rcases List.eq_nil_or_concat a with rfl | ⟨a', x, rfl⟩
  · rw [List.getLast?_concat] at h
    exact absurd (Option.some.inj h) hcd
  · rw [List.concat_eq_append, show y ++ c :: (a' ++ [x]) = (y ++ c :: a') ++ [x] by simp, List.getLast?_concat] at h
    cases h
    exact ⟨a', by simp⟩

/-- an opening parenthesis and no closing one behind it -/
theorem open_err : ∀ (n : Nat) (y a : Str), a.length = n → ascii (y ++ '(' :: a) → ')' ∉ a →
    ∃ e, read (y ++ '(' :: a) = .err e := by
  intro n
  induction n using Nat.strongRecOn with
  | _ n ih =>
  intro y a hn ha hp
  by_cases h1 : (y ++ '(' :: a).getLast? = some ')'
  · obtain ⟨a', rfl⟩ := getLast_behind h1 (by decide)
    simp at hp
  by_cases h2 : (y ++ '(' :: a).getLast? = some ']'
  · obtain ⟨a', rfl⟩ := getLast_behind h2 (by decide)
    by_cases hb : '[' ∈ a'
    · obtain ⟨q, num, rfl, hnum⟩ := last_bracket a' hb
      have e1 : y ++ '(' :: (q ++ '[' :: num ++ [']']) = (y ++ '(' :: q) ++ '[' :: (num ++ [']']) := by simp
      rw [e1] at ha ⊢
      refine suffix_err (fun x hx => ha x (by simp only [List.mem_append] at hx ⊢; tauto))
        (fun x hx => ha x (by simp [hx])) hnum ?_
      exact ih q.length (by rw [← hn]; simp) y q rfl (fun x hx => ha x (by simp only [List.mem_append] at hx ⊢; tauto))
        (fun h => hp (by simp [h]))
    · exact across_err (Or.inl rfl) ha hb
  · exact elementary_err (c := '(') (Or.inl rfl) (by simp) h1 h2

/-- behind the closed tuple the loop refuses a closing parenthesis -/
theorem outside_err {name : Str} (hasc : ascii name) : ∀ (w pre : Str) (pos : Nat) (st : ReadSt), name = pre ++ w →
    pos = pre.length → '(' ∉ w → ')' ∈ w → st.nested = 0 → st.lastItem ≤ pos →
    ∃ e, readLoop read name w pos 0 st = .err e
  | [], _, _, _, _, _, _, h, _, _ => by simp at h
  | c :: w, pre, pos, st, hname, hpos, h1, h2, hn, hl => by
    have e : name = (pre ++ [c]) ++ w := by rw [hname]; simp
    have hpos' : pos + 1 = (pre ++ [c]).length := by simp [hpos]
    have h1' : '(' ∉ w := fun h => h1 (by simp [h])
    by_cases hc : c = ')'
    · subst hc
      rw [readLoop_close]
      unfold readClose
      simp only [hn]
      rw [if_pos (by omega)]
      exact ⟨_, rfl⟩
    have h2' : ')' ∈ w := by
      rcases List.mem_cons.1 h2 with h | h
      · exact absurd h.symm hc
      · exact h
    by_cases hc' : c = ','
    · subst hc'
      rw [readLoop_comma]
      unfold readComma
      rw [strSlice_ascii hasc hl (by rw [hname, hpos]; simp)]
      simp only [Res.ok_bind]
      split
      · exact outside_err hasc w _ _ _ e hpos' h1' h2' hn (by simp)
      · rw [if_neg (by omega), if_neg (by omega)]
        exact outside_err hasc w _ _ _ e hpos' h1' h2' hn (by omega)
    · have hp : plainText [c] := by
        intro d hd
        simp only [List.mem_singleton] at hd
        subst hd
        exact ⟨fun h => h1 (by simp [h]), hc, hc'⟩
      rw [show c :: w = [c] ++ w by rfl, loop_plain read name hp]
      exact outside_err hasc w _ _ _ e hpos' h1' h2' hn (by simp; omega)

/-- the pieces of a list and its closing parenthesis -/
theorem list_read {name : Str} (hasc : ascii name) : ∀ (ps : List Str) (l pre rest : Str) (pos : Nat) (st : ReadSt)
    (ts : List ParamType), Members (ps ++ [l]) ts → name = pre ++ (commaSeparated (ps ++ [l]) ++ ')' :: rest) →
    pos = pre.length → st.lastItem = pos → st.nested = 1 →
    ∃ st' pre', name = pre' ++ rest ∧ st'.nested = 0 ∧ st'.lastItem = pre'.length ∧
      readLoop read name (commaSeparated (ps ++ [l]) ++ ')' :: rest) pos 0 st = readLoop read name rest pre'.length 0 st'
  | [], l, pre, rest, pos, st, ts, hm, hname, hpos, hl, hn => by
    rw [List.nil_append, commaSeparated_one] at hname ⊢
    have hp := members_plainText hm l (by simp)
    have h := item_delimiter (d := ')') (rest := rest) (st := st) (Or.inr rfl) hasc (by rw [hname]; simp) hpos hp hl hn
    have epos : pos + l.length + 1 = (pre ++ l ++ [')']).length := by simp; omega
    have : ∃ us, (if l = [] then Res.ok [] else read l >>= fun t => Res.ok [t]) = .ok us := by
      cases hm with
      | skip _ => exact ⟨[], if_pos rfl⟩
      | cons h1 _ =>
        split
        · exact ⟨_, rfl⟩
        · rw [((textOutcome _ l rfl (fun c hc => hasc c (by rw [hname]; simp [hc])) (fun h => (hp _ h).2.1 rfl)).1 _).2 h1]
          exact ⟨_, rfl⟩
    obtain ⟨us, hus⟩ := this
    rw [hus] at h
    obtain ⟨S, o, h⟩ := h
    refine ⟨_, pre ++ l ++ [')'], by rw [hname]; simp, ?_, ?_, by rw [h, epos]⟩
    · simp
    · simp only [epos]
  | p :: ps, l, pre, rest, pos, st, ts, hm, hname, hpos, hl, hn => by
    have e : commaSeparated (p :: ps ++ [l]) = p ++ ',' :: commaSeparated (ps ++ [l]) := by
      rw [commaSeparated_concat, commaSeparated_concat]; simp [commas]
    rw [e] at hname ⊢
    have hp := members_plainText hm p (by simp)
    have h := item_delimiter (d := ',') (p := p) (rest := commaSeparated (ps ++ [l]) ++ ')' :: rest) (st := st)
      (Or.inl rfl) hasc (by rw [hname]; simp) hpos hp hl hn
    have epos : pos + p.length + 1 = (pre ++ p ++ [',']).length := by simp; omega
    have : ∃ us ts', Members (ps ++ [l]) ts' ∧ (if p = [] then Res.ok [] else read p >>= fun t => Res.ok [t]) = .ok us := by
      rw [List.cons_append] at hm
      cases hm with
      | skip hm => exact ⟨[], _, hm, if_pos rfl⟩
      | cons h1 hm =>
        split
        · exact ⟨_, _, hm, rfl⟩
        · rw [((textOutcome _ p rfl (fun c hc => hasc c (by rw [hname]; simp [hc])) (fun h => (hp _ h).2.1 rfl)).1 _).2 h1]
          exact ⟨_, _, hm, rfl⟩
    obtain ⟨us, ts', hm', hus⟩ := this
    rw [hus] at h
    obtain ⟨S, o, h⟩ := h
    obtain ⟨st', pre', i1, i2, i3, i4⟩ := list_read hasc ps l (pre ++ p ++ [',']) rest (pos + p.length + 1)
      { subtypes := st.subtypes ++ us, subtuples := S, nested := 1, topOpen := o, lastItem := pos + p.length + 1 } ts' hm'
      (by rw [hname]; simp) epos rfl rfl
    refine ⟨st', pre', i1, i2, i3, ?_⟩
    rw [← i4, show p ++ ',' :: commaSeparated (ps ++ [l]) ++ ')' :: rest =
      p ++ ',' :: (commaSeparated (ps ++ [l]) ++ ')' :: rest) by simp, h]
    simp

/-- a closed list and another closing parenthesis behind it -/
theorem spent_err : ∀ (n : Nat) (ps : List Str) (l w : Str) (ts : List ParamType), w.length = n → Members (ps ++ [l]) ts →
    ascii ('(' :: (commaSeparated (ps ++ [l]) ++ ')' :: w)) → '(' ∉ w → ')' ∈ w →
    ∃ e, read ('(' :: (commaSeparated (ps ++ [l]) ++ ')' :: w)) = .err e := by
  intro n
  induction n using Nat.strongRecOn with
  | _ n ih =>
  intro ps l w ts hn hm ha h1 h2
  have e0 : '(' :: (commaSeparated (ps ++ [l]) ++ ')' :: w) = ('(' :: commaSeparated (ps ++ [l])) ++ ')' :: w := by simp
  by_cases hl1 : ('(' :: (commaSeparated (ps ++ [l]) ++ ')' :: w)).getLast? = some ')'
  · rw [read_eq, readStep, if_pos hl1, if_neg (by simp [lit, startsWith]), readLoop_open]
    obtain ⟨st', pre', i1, i2, i3, i4⟩ := list_read ha ps l ['('] w 1
      { subtypes := [], subtuples := [], nested := 1, topOpen := 0, lastItem := 1 } ts hm (by simp) rfl rfl rfl
    obtain ⟨e, he⟩ := outside_err ha w pre' pre'.length st' i1 rfl h1 h2 i2 (by omega)
    refine ⟨e, ?_⟩
    have : readOpen 0 { subtypes := [], subtuples := [], nested := 0, topOpen := 0, lastItem := 1 } =
      { subtypes := [], subtuples := [], nested := 1, topOpen := 0, lastItem := 1 } := rfl
    rw [this, show 0 + 1 = 1 by rfl, i4, he]; rfl
  by_cases hl2 : ('(' :: (commaSeparated (ps ++ [l]) ++ ')' :: w)).getLast? = some ']'
  · rw [e0] at hl2
    obtain ⟨w', rfl⟩ := getLast_behind hl2 (by decide)
    have h2' : ')' ∈ w' := by simpa using h2
    obtain ⟨u, v, rfl, hv⟩ := last_split h2'
    by_cases hb : '[' ∈ v
    · obtain ⟨q, num, rfl, hnum⟩ := last_bracket v hb
      have e1 : '(' :: (commaSeparated (ps ++ [l]) ++ ')' :: (u ++ ')' :: (q ++ '[' :: num) ++ [']'])) =
        ('(' :: (commaSeparated (ps ++ [l]) ++ ')' :: (u ++ ')' :: q))) ++ '[' :: (num ++ [']']) := by simp
      rw [e1] at ha ⊢
      refine suffix_err (fun x hx => ha x (by simp only [List.mem_append] at hx ⊢; tauto))
        (fun x hx => ha x (by simp [hx])) hnum ?_
      refine ih (u ++ ')' :: q).length (by rw [← hn]; simp) ps l _ ts rfl hm
        (fun x hx => ha x (by simp only [List.mem_append] at hx ⊢; tauto)) (fun h => h1 ?_) (by simp)
      simp only [List.mem_append, List.mem_cons] at h ⊢; tauto
    · have e1 : '(' :: (commaSeparated (ps ++ [l]) ++ ')' :: (u ++ ')' :: v ++ [']'])) =
        ('(' :: (commaSeparated (ps ++ [l]) ++ ')' :: u)) ++ ')' :: (v ++ [']']) := by simp
      rw [e1] at ha ⊢
      exact across_err (Or.inr rfl) ha hb
  · exact elementary_err (c := '(') (Or.inl rfl) (by simp) hl1 hl2

/-! ### the loop -/

/-- the outcome of the rest of the loop -/
def Yields (run : Res (List ParamType)) (base : List ParamType) (pl : Place) (kept : List (List ParamType))
    (cs : List Cut) : Prop :=
  (∀ us, run = .ok us ↔ ∃ ts, us = base ++ ts ∧ Understood pl kept cs (some ts)) ∧
  (run = .panic ↔ Understood pl kept cs none)

theorem yields_err {run : Res (List ParamType)} {base : List ParamType} {pl : Place} {kept : List (List ParamType)}
    {cs : List Cut} (h : ∃ e, run = .err e) (h' : ∀ o, ¬ Understood pl kept cs o) : Yields run base pl kept cs := by
  obtain ⟨e, rfl⟩ := h
  refine ⟨fun us => ⟨nofun, ?_⟩, nofun, fun h => absurd h (h' _)⟩
  rintro ⟨ts, _, h⟩
  exact absurd h (h' _)

theorem yields_panic {run : Res (List ParamType)} {base : List ParamType} {pl : Place} {kept : List (List ParamType)}
    {cs : List Cut} (h : run = .panic) (h' : ∀ o, Understood pl kept cs o ↔ o = none) : Yields run base pl kept cs := by
  subst h
  refine ⟨fun us => ⟨nofun, ?_⟩, fun _ => (h' _).2 rfl, fun _ => rfl⟩
  rintro ⟨ts, _, h⟩
  exact absurd ((h' _).1 h) (by simp)

theorem yields_same {run : Res (List ParamType)} {base : List ParamType} {pl pl' : Place}
    {kept kept' : List (List ParamType)} {cs cs' : List Cut} (h : Yields run base pl' kept' cs')
    (h' : ∀ o, Understood pl kept cs o ↔ Understood pl' kept' cs' o) : Yields run base pl kept cs := by
  refine ⟨fun us => ?_, ?_⟩
  · rw [h.1 us]
    exact exists_congr fun ts => and_congr_right fun _ => (h' _).symm
  · rw [h.2, h']

theorem yields_add {run : Res (List ParamType)} {base : List ParamType} {t : ParamType} {pl pl' : Place}
    {kept kept' : List (List ParamType)} {cs cs' : List Cut} (h : Yields run (base ++ [t]) pl' kept' cs')
    (h' : ∀ o, Understood pl kept cs o ↔ ∃ o', Understood pl' kept' cs' o' ∧ o = o'.map (t :: ·)) :
    Yields run base pl kept cs := by
  refine ⟨fun us => ?_, ?_⟩
  · rw [h.1 us]
    constructor
    · rintro ⟨ts, rfl, hu⟩
      exact ⟨t :: ts, by simp, (h' _).2 ⟨_, hu, rfl⟩⟩
    · rintro ⟨ts, rfl, hu⟩
      obtain ⟨o', hu', e⟩ := (h' _).1 hu
      cases o' with
      | none => cases e
      | some us =>
        obtain rfl : ts = t :: us := by simpa using e
        exact ⟨us, by simp, hu'⟩
  · rw [h.2, h']
    constructor
    · exact fun hu => ⟨none, hu, rfl⟩
    · rintro ⟨o', hu, e⟩
      cases o' with
      | none => exact hu
      | some us => cases e

theorem three {A : Str → ParamType → Prop} {P : Str → Prop} {s : Str} (h : TextOutcome A P s) :
    (∃ t, read s = .ok t ∧ (∀ u, A s u ↔ u = t) ∧ ¬ P s) ∨ (read s = .panic ∧ (∀ u, ¬ A s u) ∧ P s) ∨
    (∃ e, read s = .err e ∧ (∀ u, ¬ A s u) ∧ ¬ P s) := by
  obtain ⟨h1, h2⟩ := h
  cases hr : read s with
  | ok t =>
    refine Or.inl ⟨t, rfl, fun u => ?_, fun hp => ?_⟩
    · rw [← h1, hr]
      exact ⟨fun h => (Res.ok.inj h).symm, fun h => by rw [h]⟩
    · rw [← h2, hr] at hp; cases hp
  | panic =>
    refine Or.inr (Or.inl ⟨rfl, fun u hu => ?_, h2.1 hr⟩)
    rw [← h1, hr] at hu; cases hu
  | err e =>
    refine Or.inr (Or.inr ⟨e, rfl, fun u hu => ?_, fun hp => ?_⟩)
    · rw [← h1, hr] at hu; cases hu
    · rw [← h2, hr] at hp; cases hp

/-- the list at the last opening parenthesis -/
def GroupAt (before : Str) (top n : Nat) : Option (List Str) → Prop
  | some ps => ∃ pre ts, before = pre ++ '(' :: commas ps ∧ top = pre.length ∧ Members ps ts
  | none => n ≠ 0 → ∃ pre ps l ts w, before = pre ++ '(' :: (commaSeparated (ps ++ [l]) ++ ')' :: w) ∧
      top = pre.length ∧ Members (ps ++ [l]) ts ∧ '(' ∉ w

/-- the loop's state at a place -/
def Matches (before : Str) (st : ReadSt) (kept : List (List ParamType)) : Place → Prop
  | .inside n g => st.nested = n + 1 ∧ st.subtuples = kept ∧ st.lastItem = before.length ∧ n ≤ kept.length ∧
      GroupAt before st.topOpen n g
  | .outside => st.nested = 0 ∧ st.subtuples = kept ∧ st.lastItem ≤ before.length
  | .reopened => st.nested = 1 ∧ st.subtuples = kept ∧ ∃ pre, before = pre ++ ['('] ∧ st.lastItem ≤ pre.length

/-- the rest of the loop, for its types -/
def run (name : Str) (cs : List Cut) (pos : Nat) (st : ReadSt) : Res (List ParamType) :=
  readLoop read name (cutsText cs) pos 0 st >>= fun s => .ok s.subtypes

/-- the claim for `N` cuts -/
def Works (name : Str) (N : Nat) : Prop := ∀ (cs : List Cut) (before : Str) (st : ReadSt) (pl : Place)
  (kept : List (List ParamType)), cs.length = N → (∀ c ∈ cs, NoDelimiter c.text) → name = before ++ cutsText cs →
  Matches before st kept pl → Yields (run name cs before.length st) st.subtypes pl kept cs

theorem cutsText_cons (p : Str) (d : Mark) (r : List Cut) : cutsText (⟨p, d⟩ :: r) = p ++ d.char :: cutsText r := by
  simp [cutsText]

theorem typeOutcome {p : Str} (hp : NoDelimiter p) : TextOutcome TypeText Unopened p :=
  textOutcome _ p rfl (noDelimiter_ascii hp) (fun h => (hp _ h).2.2.1 rfl)

theorem groupAt_comma {before p : Str} {top n : Nat} {g : Option (List Str)} (h : GroupAt before top n g)
    (hp : plainText p) (hm : p = [] ∨ ∃ t, TypeText p t) : GroupAt (before ++ p ++ [',']) top n (g.map (· ++ [p])) := by
  cases g with
  | some ps =>
    obtain ⟨pre, ts, h1, h2, h3⟩ := h
    have : ∃ us, Members (ps ++ [p]) us := by
      clear h1
      induction ps generalizing ts with
      | nil =>
        rcases hm with rfl | ⟨t, ht⟩
        · exact ⟨[], .skip .nil⟩
        · exact ⟨[t], .cons ht .nil⟩
      | cons q ps ih =>
        cases h3 with
        | skip h => obtain ⟨us, h⟩ := ih _ h; exact ⟨us, .skip h⟩
        | cons h' h => obtain ⟨us, h⟩ := ih _ h; exact ⟨_ :: us, .cons h' h⟩
    obtain ⟨us, hus⟩ := this
    exact ⟨pre, us, by rw [h1]; simp [commas], h2, hus⟩
  | none =>
    intro hn
    obtain ⟨pre, ps, l, ts, w, h1, h2, h3, h4⟩ := h hn
    refine ⟨pre, ps, l, ts, w ++ p ++ [','], by rw [h1]; simp, h2, h3, ?_⟩
    simp only [List.mem_append, List.mem_singleton, not_or]
    exact ⟨⟨h4, fun h => (hp _ h).1 rfl⟩, by decide⟩

theorem members_concat {ps : List Str} {p : Str} : ∀ {ts : List ParamType}, Members ps ts → (p = [] ∨ ∃ t, TypeText p t) →
    ∃ us, Members (ps ++ [p]) us := by
  induction ps with
  | nil =>
    rintro ts _ (rfl | ⟨t, ht⟩)
    · exact ⟨[], .skip .nil⟩
    · exact ⟨[t], .cons ht .nil⟩
  | cons q ps ih =>
    intro ts h hm
    cases h with
    | skip h => obtain ⟨us, h⟩ := ih h hm; exact ⟨us, .skip h⟩
    | cons h' h => obtain ⟨us, h⟩ := ih h hm; exact ⟨_ :: us, .cons h' h⟩

theorem item_slice {name before p rest : Str} (hasc : ascii name) (hname : name = before ++ (p ++ rest)) :
    strSlice name before.length (before.length + p.length) = .ok p := by
  rw [← List.append_assoc] at hname
  rw [hname] at hasc ⊢
  exact strSlice_mid hasc rfl rfl

/-- a comma within the tuple -/
theorem step_comma {name : Str} {N : Nat} (hasc : ascii name) (ih : Works name N) {p : Str} {r : List Cut}
    {before : Str} {st : ReadSt} {n : Nat} {g : Option (List Str)} {kept : List (List ParamType)} (hr : r.length = N)
    (hp : NoDelimiter p) (hrp : ∀ c ∈ r, NoDelimiter c.text) (hname : name = before ++ cutsText (⟨p, .comma⟩ :: r))
    (hst : Matches before st kept (.inside n g)) :
    Yields (run name (⟨p, .comma⟩ :: r) before.length st) st.subtypes (.inside n g) kept (⟨p, .comma⟩ :: r) := by
  obtain ⟨s1, s2, s3, s4, s5⟩ := hst
  have hpl := noDelimiter_plain hp
  rw [cutsText_cons] at hname
  have hname' : name = (before ++ p ++ [',']) ++ cutsText r := by rw [hname]; simp [Mark.char]
  have elen : before.length + p.length + 1 = (before ++ p ++ [',']).length := by simp; omega
  have hrun : run name (⟨p, .comma⟩ :: r) before.length st = (readComma read name (before.length + p.length) st >>=
      fun st' => run name r (before ++ p ++ [',']).length st') := by
    rw [run, cutsText_cons, loop_plain read name hpl]
    simp only [Mark.char]
    rw [readLoop_comma, ← elen]
    cases readComma read name (before.length + p.length) st <;> rfl
  rw [hrun]
  have hs : strSlice name st.lastItem (before.length + p.length) = .ok p := by rw [s3]; exact item_slice hasc hname
  unfold readComma
  rw [hs]
  simp only [Res.ok_bind]
  by_cases he : p = []
  · rw [if_pos he]
    simp only [Res.ok_bind]
    refine yields_same (ih r _ { st with lastItem := before.length + p.length + 1 } (.inside n (g.map (· ++ [p]))) kept hr hrp hname'
      ⟨s1, s2, elen, s4, groupAt_comma s5 hpl (Or.inl he)⟩) ?_
    intro o
    subst he
    constructor
    · intro h
      cases h with
      | skip h => exact h
      | member h _ => exact absurd h typeText_ne_nil
      | keep h _ _ => exact absurd h typeText_ne_nil
      | badMember h => exact absurd h unopened_ne_nil
    · exact .skip
  rw [if_neg he]
  cases n with
  | zero =>
    rw [if_pos (by simpa using s1)]
    rcases three (typeOutcome hp) with ⟨t, ht, h1, h2⟩ | ⟨ht, h1, h2⟩ | ⟨e, ht, h1, h2⟩
    · rw [ht]
      simp only [Res.ok_bind]
      refine yields_add (ih r _ { st with subtypes := st.subtypes ++ [t], lastItem := before.length + p.length + 1 }
        (.inside 0 (g.map (· ++ [p]))) kept hr hrp hname'
        ⟨s1, s2, elen, s4, groupAt_comma s5 hpl (Or.inr ⟨t, (h1 t).2 rfl⟩)⟩) ?_
      intro o
      constructor
      · intro h
        cases h with
        | skip _ => exact absurd rfl he
        | member h h' => rw [(h1 _).1 h]; exact ⟨_, h', rfl⟩
        | badMember h => exact absurd h h2
      · rintro ⟨o', h, rfl⟩
        exact .member ((h1 t).2 rfl) h
    · rw [ht]
      refine yields_panic rfl fun o => ⟨fun h => ?_, fun h => by rw [h]; exact .badMember h2⟩
      cases h with
      | skip _ => exact absurd rfl he
      | member h _ => exact absurd h (h1 _)
      | badMember _ => rfl
    · rw [ht]
      refine yields_err ⟨e, rfl⟩ fun o h => ?_
      cases h with
      | skip _ => exact absurd rfl he
      | member h _ => exact absurd h (h1 _)
      | badMember h => exact absurd h h2
  | succ n =>
    rw [if_neg (by omega), if_pos (by omega)]
    rcases three (typeOutcome hp) with ⟨t, ht, h1, h2⟩ | ⟨ht, h1, h2⟩ | ⟨e, ht, h1, h2⟩
    · have hi : kept[n]? = some (kept[n]'(by omega)) := List.getElem?_eq_getElem _
      have hj : (st.nested - 2).toNat = n := by omega
      have hiv : indexVec kept (st.nested - 2) = .ok (kept[n]'(by omega)) := by
        unfold indexVec
        rw [if_neg (by omega), hj, hi]
      rw [ht]
      simp only [Res.ok_bind, s2, hiv, hj]
      refine yields_same (ih r _ { st with
          subtuples := kept.set n (kept[n]'(by omega) ++ [t]), lastItem := before.length + p.length + 1 }
        (.inside (n + 1) (g.map (· ++ [p]))) (kept.set n (kept[n]'(by omega) ++ [t])) hr hrp hname'
        ⟨s1, rfl, elen, by simpa using s4, groupAt_comma s5 hpl (Or.inr ⟨t, (h1 t).2 rfl⟩)⟩) ?_
      intro o
      constructor
      · intro h
        cases h with
        | skip _ => exact absurd rfl he
        | keep h hk h' =>
          rw [hi] at hk
          cases hk
          rw [(h1 _).1 h] at h'
          exact h'
        | badMember h => exact absurd h h2
      · exact fun h => .keep ((h1 t).2 rfl) hi h
    · rw [ht]
      refine yields_panic rfl fun o => ⟨fun h => ?_, fun h => by rw [h]; exact .badMember h2⟩
      cases h with
      | skip _ => exact absurd rfl he
      | keep h _ _ => exact absurd h (h1 _)
      | badMember _ => rfl
    · rw [ht]
      refine yields_err ⟨e, rfl⟩ fun o h => ?_
      cases h with
      | skip _ => exact absurd rfl he
      | keep h _ _ => exact absurd h (h1 _)
      | badMember h => exact absurd h h2

/-- an opening parenthesis -/
theorem step_open {name : Str} {N : Nat} (ih : Works name N) {p : Str} {r : List Cut}
    {before : Str} {st : ReadSt} {n : Nat} {g : Option (List Str)} {kept : List (List ParamType)} (hr : r.length = N)
    (hp : NoDelimiter p) (hrp : ∀ c ∈ r, NoDelimiter c.text) (hname : name = before ++ cutsText (⟨p, .opening⟩ :: r))
    (hst : Matches before st kept (.inside n g)) :
    Yields (run name (⟨p, .opening⟩ :: r) before.length st) st.subtypes (.inside n g) kept (⟨p, .opening⟩ :: r) := by
  obtain ⟨s1, s2, s3, s4, s5⟩ := hst
  rw [cutsText_cons] at hname
  have hname' : name = (before ++ p ++ ['(']) ++ cutsText r := by rw [hname]; simp [Mark.char]
  have elen : before.length + p.length + 1 = (before ++ p ++ ['(']).length := by simp; omega
  rw [run, cutsText_cons, loop_plain read name (noDelimiter_plain hp)]
  simp only [Mark.char]
  rw [readLoop_open, readOpen_inner (by omega), elen]
  refine yields_same (ih r _ { st with
    topOpen := before.length + p.length, nested := st.nested + 1, subtuples := st.subtuples ++ [[]]
    lastItem := (before ++ p ++ ['(']).length } (.inside (n + 1) (some [])) (kept ++ [[]]) hr hrp hname'
    ⟨by simp only; omega, by simp only; rw [s2], rfl, by simpa using s4,
      before ++ p, [], by simp [commas], by simp, .nil⟩) ?_
  intro o
  constructor
  · intro h
    cases h with
    | «open» h => exact h
  · exact .open

/-- the place after a closing parenthesis -/
theorem matches_closed {before : Str} {st : ReadSt} {kept : List (List ParamType)} {n : Nat} (h1 : st.nested = n)
    (h2 : st.subtuples = kept) (h3 : st.lastItem = before.length) (h4 : n ≤ kept.length)
    (h5 : ∀ m, n = m + 1 → GroupAt before st.topOpen m none) : Matches before st kept (closed n) := by
  cases n with
  | zero => exact ⟨by simpa using h1, h2, by omega⟩
  | succ m => exact ⟨by simpa using h1, h2, h3, by omega, h5 m rfl⟩

theorem groupAt_close {before : Str} {top n m : Nat} {g : Option (List Str)} (h : GroupAt before top n g) (hn : n = m + 1) :
    GroupAt (before ++ [')']) top m none := by
  intro _
  cases g with
  | some ps =>
    obtain ⟨pre, ts, h1, h2, h3⟩ := h
    obtain ⟨us, h4⟩ := members_concat (p := []) h3 (Or.inl rfl)
    refine ⟨pre, ps, [], us, [], ?_, h2, h4, by simp⟩
    rw [h1, commaSeparated_concat]; simp
  | none =>
    obtain ⟨pre, ps, l, ts, w, h1, h2, h3, h4⟩ := h (by omega)
    refine ⟨pre, ps, l, ts, w ++ [')'], by rw [h1]; simp, h2, h3, ?_⟩
    simp only [List.mem_append, List.mem_singleton, not_or]
    exact ⟨h4, by decide⟩

theorem run_close {name : Str} {p : Str} {r : List Cut} {before : Str} {st : ReadSt} (hp : NoDelimiter p) :
    run name (⟨p, .closing⟩ :: r) before.length st =
      (readClose read name (cutsText r) (before.length + p.length) st >>= fun q =>
        readLoop read name (cutsText r) (before.length + p.length + 1) q.2 q.1 >>= fun s => .ok s.subtypes) := by
  rw [run, cutsText_cons, loop_plain read name (noDelimiter_plain hp)]
  simp only [Mark.char]
  rw [readLoop_close]
  cases readClose read name (cutsText r) (before.length + p.length) st <;> rfl

/-- a closing parenthesis with nothing before it, and that of the tuple itself -/
theorem step_close_outer {name : Str} {N : Nat} (hasc : ascii name) (ih : Works name N) {p : Str} {r : List Cut}
    {before : Str} {st : ReadSt} {n : Nat} {g : Option (List Str)} {kept : List (List ParamType)} (hr : r.length = N)
    (hp : NoDelimiter p) (hrp : ∀ c ∈ r, NoDelimiter c.text) (hname : name = before ++ cutsText (⟨p, .closing⟩ :: r))
    (hst : Matches before st kept (.inside n g)) (hc : p = [] ∨ n = 0) :
    Yields (run name (⟨p, .closing⟩ :: r) before.length st) st.subtypes (.inside n g) kept (⟨p, .closing⟩ :: r) := by
  obtain ⟨s1, s2, s3, s4, s5⟩ := hst
  rw [cutsText_cons] at hname
  have hname' : name = (before ++ p ++ [')']) ++ cutsText r := by rw [hname]; simp [Mark.char]
  have elen : before.length + p.length + 1 = (before ++ p ++ [')']).length := by simp; omega
  have hs : strSlice name st.lastItem (before.length + p.length) = .ok p := by rw [s3]; exact item_slice hasc hname
  rw [run_close hp]
  unfold readClose
  simp only []
  rw [if_neg (by omega), hs]
  simp only [Res.ok_bind]
  by_cases he : p = []
  · rw [if_pos he]
    simp only [Res.ok_bind]
    rw [elen]
    refine yields_same (ih r _ { st with nested := st.nested - 1, lastItem := (before ++ p ++ [')']).length }
      (closed n) kept hr hrp hname' (matches_closed (by simp only; omega) s2 rfl (by omega) fun m hm => ?_)) ?_
    · rw [he, List.append_nil]; exact groupAt_close s5 hm
    · intro o
      subst he
      constructor
      · intro h
        cases h with
        | close h => exact h
        | last h _ => exact absurd h typeText_ne_nil
        | badLast h => exact absurd h unopened_ne_nil
        | group h _ _ _ => exact absurd rfl h
        | deepGroup h _ _ _ _ => exact absurd rfl h
        | badGroup h _ _ => exact absurd rfl h
      · exact .close
  · obtain rfl : n = 0 := by rcases hc with h | h; exact absurd h he; exact h
    rw [if_neg he, if_pos (by omega)]
    rcases three (typeOutcome hp) with ⟨t, ht, h1, h2⟩ | ⟨ht, h1, h2⟩ | ⟨e, ht, h1, h2⟩
    · rw [ht]
      simp only [Res.ok_bind]
      rw [elen]
      refine yields_add (ih r _ { st with
        nested := st.nested - 1, subtypes := st.subtypes ++ [t], lastItem := (before ++ p ++ [')']).length }
        .outside kept hr hrp hname' ⟨by simp only; omega, s2, by simp only; omega⟩) ?_
      intro o
      constructor
      · intro h
        cases h with
        | close _ => exact absurd rfl he
        | last h h' => rw [(h1 _).1 h]; exact ⟨_, h', rfl⟩
        | badLast h => exact absurd h h2
      · rintro ⟨o', h, rfl⟩
        exact .last ((h1 t).2 rfl) h
    · rw [ht]
      refine yields_panic rfl fun o => ⟨fun h => ?_, fun h => by rw [h]; exact .badLast h2⟩
      cases h with
      | close _ => exact absurd rfl he
      | last h _ => exact absurd h (h1 _)
      | badLast _ => rfl
    · rw [ht]
      refine yields_err ⟨e, rfl⟩ fun o h => ?_
      cases h with
      | close _ => exact absurd rfl he
      | last h _ => exact absurd h (h1 _)
      | badLast h => exact absurd h h2

/-- the characters the inner loop consumes, behind an opening parenthesis -/
theorem trailing_open {a : Str} (h : plainText a) (s : Str) : trailing (a ++ '(' :: s) = a.length + 1 + trailing s := by
  induction a with
  | nil => simp [trailing]; omega
  | cons c a ih =>
    obtain ⟨h1, h2, h3⟩ := h c (by simp)
    simp only [List.cons_append, trailing]
    rw [if_neg (by simp [h2, h3]), ih (fun d hd => h d (by simp [hd]))]
    simp; omega

theorem trailing_take (s : Str) : ')' ∉ s.take (trailing s) ∧ trailing s ≤ s.length := by
  induction s with
  | nil => simp [trailing]
  | cons c s ih =>
    simp only [trailing]
    split
    · simp
    · rename_i h
      simp only [List.take_succ_cons, List.mem_cons, not_or, List.length_cons]
      refine ⟨⟨fun hc => h (Or.inr hc.symm), ih.1⟩, by omega⟩

/-- what `readClose` does with a text that is read and refused -/
theorem readClose_err {name rest : Str} {pos : Nat} {st : ReadSt} {item inner : Str} (hn : 2 ≤ st.nested)
    (h1 : strSlice name st.lastItem pos = .ok item) (h2 : item ≠ [])
    (h3 : strSlice name st.topOpen (pos + trailing rest + 1) = .ok inner) (h4 : ∃ e, read inner = .err e) :
    ∃ e, readClose read name rest pos st = .err e := by
  obtain ⟨e, h4⟩ := h4
  refine ⟨e, ?_⟩
  unfold readClose
  simp only []
  rw [if_neg (by omega), h1]
  simp only [Res.ok_bind]
  rw [if_neg h2, if_neg (by omega), h3]
  simp only [Res.ok_bind, h4]
  rfl

/-- the start of the text read at a closing parenthesis -/
theorem groupAt_start {before : Str} {top n : Nat} {g : Option (List Str)} (h : GroupAt before top (n + 1) g) :
    ∃ pre w, before = pre ++ '(' :: w ∧ top = pre.length := by
  cases g with
  | some ps => obtain ⟨pre, ts, h1, h2, _⟩ := h; exact ⟨pre, _, h1, h2⟩
  | none => obtain ⟨pre, ps, l, ts, w, h1, h2, _⟩ := h (by omega); exact ⟨pre, _, h1, h2⟩

/-- a closing parenthesis that belongs to no innermost list, or is followed by an opening one -/
theorem step_close_refused {name : Str} (hasc : ascii name) {p : Str} {r : List Cut}
    {before : Str} {st : ReadSt} {n : Nat} {g : Option (List Str)} {kept : List (List ParamType)}
    (hp : NoDelimiter p) (hrp : ∀ c ∈ r, NoDelimiter c.text) (hname : name = before ++ cutsText (⟨p, .closing⟩ :: r))
    (hst : Matches before st kept (.inside (n + 1) g)) (he : p ≠ [])
    (hc : g = none ∨ ∃ c ∈ r.head?, c.mark = .opening) :
    Yields (run name (⟨p, .closing⟩ :: r) before.length st) st.subtypes (.inside (n + 1) g) kept (⟨p, .closing⟩ :: r) := by
  obtain ⟨s1, s2, s3, s4, s5⟩ := hst
  rw [cutsText_cons] at hname
  have hs : strSlice name st.lastItem (before.length + p.length) = .ok p := by rw [s3]; exact item_slice hasc hname
  have key : ∃ inner, strSlice name st.topOpen (before.length + p.length + trailing (cutsText r) + 1) = .ok inner ∧
      ∃ e, read inner = .err e := by
    by_cases hop : ∃ c ∈ r.head?, c.mark = .opening
    · obtain ⟨c, hcr, hm⟩ := hop
      obtain ⟨pre, w, h1, h2⟩ := groupAt_start s5
      cases r with
      | nil => simp at hcr
      | cons c' r =>
        simp only [List.head?_cons, Option.mem_def, Option.some.injEq] at hcr
        subst hcr
        obtain ⟨a, d⟩ := c'
        simp only at hm
        subst hm
        have ha := noDelimiter_plain (hrp ⟨a, .opening⟩ (by simp))
        rw [cutsText_cons] at hname ⊢
        simp only [Mark.char] at hname ⊢
        rw [trailing_open ha]
        obtain ⟨t1, t2⟩ := trailing_take (cutsText r)
        obtain ⟨x, y, hxy, hx⟩ : ∃ x y, cutsText r = x ++ y ∧ x.length = trailing (cutsText r) :=
          ⟨(cutsText r).take (trailing (cutsText r)), (cutsText r).drop (trailing (cutsText r)), by simp, by simpa using t2⟩
        have hx' : ')' ∉ x := by
          rw [← hx, hxy, List.take_left' rfl] at t1; exact t1
        have e : name = pre ++ ('(' :: w ++ p ++ ')' :: a ++ '(' :: x) ++ y := by
          rw [hname, h1, hxy]; simp
        have hin : ascii ('(' :: w ++ p ++ ')' :: a ++ '(' :: x) := fun z hz => hasc z (by
          rw [e]; simp only [List.mem_append] at hz ⊢; tauto)
        refine ⟨'(' :: w ++ p ++ ')' :: a ++ '(' :: x, ?_, open_err _ _ x rfl hin hx'⟩
        rw [e] at hasc ⊢
        refine strSlice_mid hasc h2 ?_
        rw [h1, ← hx]
        simp; omega
    · obtain rfl : g = none := by rcases hc with h | h; exact h; exact absurd h hop
      obtain ⟨pre, ps, l, ts, w, h1, h2, h3, h4⟩ := s5 (by omega)
      obtain ⟨x, y, hxy, hx, hx1⟩ : ∃ x y, cutsText r = x ++ y ∧ x.length = trailing (cutsText r) ∧ '(' ∉ x := by
        cases r with
        | nil => exact ⟨[], [], rfl, rfl, by simp⟩
        | cons c r =>
          obtain ⟨a, d⟩ := c
          have ha := noDelimiter_plain (hrp ⟨a, d⟩ (by simp))
          refine ⟨a, d.char :: cutsText r, by rw [cutsText_cons], ?_, fun h => (ha _ h).1 rfl⟩
          rw [cutsText_cons, trailing_plain ha]
          cases d with
          | opening => exact absurd ⟨⟨a, .opening⟩, by simp, rfl⟩ hop
          | closing => exact Or.inr rfl
          | comma => exact Or.inl rfl
      have e : name = pre ++ ('(' :: (commaSeparated (ps ++ [l]) ++ ')' :: (w ++ p ++ ')' :: x))) ++ y := by
        rw [hname, h1, hxy]; simp [Mark.char]
      have hin : ascii ('(' :: (commaSeparated (ps ++ [l]) ++ ')' :: (w ++ p ++ ')' :: x))) := fun z hz => hasc z (by
        rw [e]; simp only [List.mem_append] at hz ⊢; tauto)
      refine ⟨_, ?_, spent_err _ ps l (w ++ p ++ ')' :: x) ts rfl h3 hin ?_ (by simp)⟩
      · rw [e] at hasc ⊢
        refine strSlice_mid hasc h2 ?_
        rw [h1, ← hx]
        simp; omega
      · simp only [List.mem_append, List.mem_cons, not_or]
        exact ⟨⟨h4, fun h => (noDelimiter_plain hp _ h).1 rfl⟩, by decide, hx1⟩
  obtain ⟨inner, k1, k2⟩ := key
  obtain ⟨e, hcl⟩ := readClose_err (by omega) hs he k1 k2
  rw [run_close hp, hcl]
  refine yields_err ⟨e, rfl⟩ fun o h => ?_
  have hno : ∀ {q : List Str}, g = some q → (∀ c ∈ r.head?, c.mark ≠ .opening) → False := by
    intro q hg hall
    rcases hc with h | ⟨c, h1, h2⟩
    · rw [hg] at h; cases h
    · exact hall c h1 h2
  cases h with
  | close _ => exact he rfl
  | group _ h _ _ => exact hno rfl h
  | deepGroup _ h _ _ _ => exact hno rfl h
  | badGroup _ h _ => exact hno rfl h

theorem withoutNext_length (r : List Cut) : (withoutNext r).length = r.length := by cases r <;> rfl

theorem withoutNext_text (r : List Cut) : cutsText r = nextText r ++ cutsText (withoutNext r) := by
  cases r with
  | nil => rfl
  | cons c r => obtain ⟨a, d⟩ := c; rw [withoutNext, cutsText_cons, cutsText_cons]; rfl

theorem withoutNext_plain {r : List Cut} (h : ∀ c ∈ r, NoDelimiter c.text) : ∀ c ∈ withoutNext r, NoDelimiter c.text := by
  cases r with
  | nil => exact h
  | cons c r =>
    intro c' hc'
    rcases List.mem_cons.1 hc' with rfl | hc'
    · intro x hx; simp at hx
    · exact h c' (by simp [hc'])

theorem nextText_plain {r : List Cut} (h : ∀ c ∈ r, NoDelimiter c.text) : NoDelimiter (nextText r) := by
  cases r with
  | nil => intro x hx; simp [nextText] at hx
  | cons c r => exact h c (by simp)

theorem trailing_next {r : List Cut} (h : ∀ c ∈ r, NoDelimiter c.text) (ho : ∀ c ∈ r.head?, c.mark ≠ .opening) :
    trailing (cutsText r) = (nextText r).length := by
  cases r with
  | nil => rfl
  | cons c r =>
    obtain ⟨a, d⟩ := c
    rw [cutsText_cons, trailing_plain (noDelimiter_plain (h ⟨a, d⟩ (by simp)))]
    · rfl
    · cases d with
      | opening => exact absurd rfl (ho ⟨a, .opening⟩ (by simp))
      | closing => exact Or.inr rfl
      | comma => exact Or.inl rfl

/-- the closing parenthesis of an innermost list -/
theorem step_close_group {name : Str} {N : Nat} (hasc : ascii name) (ih : Works name N) {p : Str} {r : List Cut}
    {before : Str} {st : ReadSt} {n : Nat} {ps : List Str} {kept : List (List ParamType)} (hr : r.length = N)
    (hp : NoDelimiter p) (hrp : ∀ c ∈ r, NoDelimiter c.text) (hname : name = before ++ cutsText (⟨p, .closing⟩ :: r))
    (hst : Matches before st kept (.inside (n + 1) (some ps))) (he : p ≠ []) (ho : ∀ c ∈ r.head?, c.mark ≠ .opening) :
    Yields (run name (⟨p, .closing⟩ :: r) before.length st) st.subtypes (.inside (n + 1) (some ps)) kept
      (⟨p, .closing⟩ :: r) := by
  obtain ⟨s1, s2, s3, s4, pre, us, g1, g2, g3⟩ := hst
  rw [cutsText_cons] at hname
  have hs : strSlice name st.lastItem (before.length + p.length) = .ok p := by rw [s3]; exact item_slice hasc hname
  have etr := trailing_next hrp ho
  have hnp := nextText_plain hrp
  have etext : listText ps p (nextText r) = '(' :: (commas ps ++ p ++ ')' :: nextText r) := by
    rw [listText, commaSeparated_concat]; simp
  have e : name = pre ++ listText ps p (nextText r) ++ cutsText (withoutNext r) := by
    rw [hname, g1, withoutNext_text r, etext]; simp [Mark.char]
  have hin : strSlice name st.topOpen (before.length + p.length + trailing (cutsText r) + 1) =
      .ok (listText ps p (nextText r)) := by
    rw [e] at hasc ⊢
    refine strSlice_mid hasc g2 ?_
    rw [etr, g1, etext]
    simp; omega
  have hpsd : ∀ q ∈ ps, NoDelimiter q := by
    intro q hq c hc
    refine ⟨hasc c ?_, members_plainText g3 q hq c hc⟩
    rw [hname, g1]
    have : c ∈ commas ps := List.mem_flatMap.2 ⟨q, hq, by simp [hc]⟩
    simp [this]
  have hout : TextOutcome FlatText FlatUnopened (listText ps p (nextText r)) := group_outcome hpsd hp hnp
  have hname' : name = (before ++ p ++ ')' :: nextText r) ++ cutsText (withoutNext r) := by
    rw [hname, withoutNext_text r]; simp [Mark.char]
  have elen : before.length + p.length + (nextText r).length + 1 = (before ++ p ++ ')' :: nextText r).length := by
    simp; omega
  have hskip : ∀ st' : ReadSt, readLoop read name (cutsText r) (before.length + p.length + 1) (trailing (cutsText r)) st' =
      readLoop read name (cutsText (withoutNext r)) (before ++ p ++ ')' :: nextText r).length 0 st' := by
    intro st'
    rw [etr, withoutNext_text r, loop_skip]
    congr 1
    rw [← elen]; omega
  have hgroup : ∀ t, FlatText (listText ps p (nextText r)) t → ∀ m, GroupAt (before ++ p ++ ')' :: nextText r) st.topOpen m none := by
    intro t ht m _
    obtain ⟨ts, hts⟩ := flatText_members ht (ps ++ [p]) (nextText r) (by rw [listText]; simp) (by
      intro q hq
      rcases List.mem_append.1 hq with hq | hq
      · exact hpsd q hq
      · simp only [List.mem_singleton] at hq; subst hq; exact hp) (noDelimiter_plain hnp)
    refine ⟨pre, ps, p, ts, nextText r, ?_, g2, hts, fun h => (hnp _ h).2.1 rfl⟩
    rw [g1, commaSeparated_concat]; simp
  rw [run_close hp]
  unfold readClose
  simp only []
  rw [if_neg (by omega), hs]
  simp only [Res.ok_bind]
  rw [if_neg he, if_neg (by omega), hin]
  simp only [Res.ok_bind]
  rcases three hout with ⟨t, ht, h1, h2⟩ | ⟨ht, h1, h2⟩ | ⟨e', ht, h1, h2⟩
  · rw [ht]
    simp only [Res.ok_bind]
    have hft := (h1 t).2 rfl
    cases n with
    | zero =>
      rw [if_neg (by omega)]
      simp only [Res.ok_bind]
      rw [hskip, etr, elen]
      refine yields_add (ih (withoutNext r) _ { st with
        nested := st.nested - 1, subtypes := st.subtypes ++ [t], lastItem := (before ++ p ++ ')' :: nextText r).length }
        (.inside 0 none) kept (by rw [withoutNext_length, hr]) (withoutNext_plain hrp) hname'
        ⟨by simp only; omega, s2, rfl, by omega, hgroup t hft 0⟩) ?_
      intro o
      constructor
      · intro h
        cases h with
        | close _ => exact absurd rfl he
        | group _ _ h h' => rw [(h1 _).1 h]; exact ⟨_, h', rfl⟩
        | badGroup _ _ h => exact absurd h h2
      · rintro ⟨o', h, rfl⟩
        exact .group he ho hft h
    | succ n =>
      rw [if_pos (by omega)]
      have hi : kept[n]? = some (kept[n]'(by omega)) := List.getElem?_eq_getElem _
      have hj : (st.nested - 1 - 2).toNat = n := by omega
      have hiv : indexVec kept (st.nested - 1 - 2) = .ok (kept[n]'(by omega)) := by
        unfold indexVec
        rw [if_neg (by omega), hj, hi]
      simp only [s2, hiv, Res.ok_bind, hj]
      rw [hskip, etr, elen]
      refine yields_add (ih (withoutNext r) _ { st with
        nested := st.nested - 1, subtuples := kept.set n []
        subtypes := st.subtypes ++ [.tuple (kept[n]'(by omega) ++ [t])]
        lastItem := (before ++ p ++ ')' :: nextText r).length }
        (.inside (n + 1) none) (kept.set n []) (by rw [withoutNext_length, hr]) (withoutNext_plain hrp) hname'
        ⟨by simp only; omega, rfl, rfl, by simp only [List.length_set]; omega, hgroup t hft (n + 1)⟩) ?_
      intro o
      constructor
      · intro h
        cases h with
        | close _ => exact absurd rfl he
        | deepGroup _ _ h hk h' =>
          rw [hi] at hk
          cases hk
          rw [(h1 _).1 h]; exact ⟨_, h', rfl⟩
        | badGroup _ _ h => exact absurd h h2
      · rintro ⟨o', h, rfl⟩
        exact .deepGroup he ho hft hi h
  · rw [ht]
    refine yields_panic rfl fun o => ⟨fun h => ?_, fun h => by rw [h]; exact .badGroup he ho h2⟩
    cases h with
    | close _ => exact absurd rfl he
    | group _ _ h _ => exact absurd h (h1 _)
    | deepGroup _ _ h _ _ => exact absurd h (h1 _)
    | badGroup _ _ _ => rfl
  · rw [ht]
    refine yields_err ⟨e', rfl⟩ fun o h => ?_
    cases h with
    | close _ => exact absurd rfl he
    | group _ _ h _ => exact absurd h (h1 _)
    | deepGroup _ _ h _ _ => exact absurd h (h1 _)
    | badGroup _ _ h => exact absurd h h2

/-- outside the tuple -/
theorem step_outside {name : Str} {N : Nat} (hasc : ascii name) (ih : Works name N) {p : Str} {d : Mark} {r : List Cut}
    {before : Str} {st : ReadSt} {kept : List (List ParamType)} (hr : r.length = N)
    (hp : NoDelimiter p) (hrp : ∀ c ∈ r, NoDelimiter c.text) (hname : name = before ++ cutsText (⟨p, d⟩ :: r))
    (hst : Matches before st kept .outside) :
    Yields (run name (⟨p, d⟩ :: r) before.length st) st.subtypes .outside kept (⟨p, d⟩ :: r) := by
  obtain ⟨s1, s2, s3⟩ := hst
  rw [cutsText_cons] at hname
  have hname' : name = (before ++ p ++ [d.char]) ++ cutsText r := by rw [hname]; simp
  have elen : before.length + p.length + 1 = (before ++ p ++ [d.char]).length := by simp; omega
  rw [run, cutsText_cons, loop_plain read name (noDelimiter_plain hp)]
  cases d with
  | opening =>
    simp only [Mark.char] at *
    rw [readLoop_open, elen, readOpen]
    rw [if_neg (by omega)]
    refine yields_same (ih r _ { st with topOpen := before.length + p.length, nested := st.nested + 1 } .reopened kept hr hrp hname'
      ⟨by simp only; omega, s2, before ++ p, rfl, by simp only [List.length_append]; omega⟩) ?_
    intro o
    constructor
    · intro h
      cases h with
      | reopen h => exact h
    · exact .reopen
  | closing =>
    simp only [Mark.char] at *
    rw [readLoop_close]
    unfold readClose
    simp only []
    rw [if_pos (by omega)]
    exact yields_err ⟨_, rfl⟩ nofun
  | comma =>
    simp only [Mark.char] at *
    rw [readLoop_comma]
    unfold readComma
    rw [strSlice_ascii hasc (by omega) (by rw [hname]; simp)]
    simp only [Res.ok_bind]
    have hinv : ∀ o, Understood .outside kept (⟨p, .comma⟩ :: r) o ↔ Understood .outside kept r o := by
      intro o
      constructor
      · intro h
        cases h with
        | passed h => exact h
      · exact .passed
    rw [elen]
    split
    · exact yields_same (ih r _ { st with lastItem := (before ++ p ++ [',']).length } .outside kept hr hrp hname'
        ⟨s1, s2, Nat.le_refl _⟩) hinv
    · rw [if_neg (by omega), if_neg (by omega)]
      exact yields_same (ih r _ st .outside kept hr hrp hname' ⟨s1, s2, by omega⟩) hinv

/-- behind a parenthesis opened outside the tuple -/
theorem step_reopened {name : Str} {N : Nat} (hasc : ascii name) (ih : Works name N) {p : Str} {d : Mark} {r : List Cut}
    {before : Str} {st : ReadSt} {kept : List (List ParamType)} (hr : r.length = N)
    (hp : NoDelimiter p) (hrp : ∀ c ∈ r, NoDelimiter c.text) (hname : name = before ++ cutsText (⟨p, d⟩ :: r))
    (hst : Matches before st kept .reopened) :
    Yields (run name (⟨p, d⟩ :: r) before.length st) st.subtypes .reopened kept (⟨p, d⟩ :: r) := by
  obtain ⟨s1, s2, pre, s3, s4⟩ := hst
  rw [cutsText_cons] at hname
  have hname' : name = (before ++ p ++ [d.char]) ++ cutsText r := by rw [hname]; simp
  have elen : before.length + p.length + 1 = (before ++ p ++ [d.char]).length := by simp; omega
  have hlen : before.length = pre.length + 1 := by rw [s3]; simp
  have e : (name.take (before.length + p.length)).drop st.lastItem = pre.drop st.lastItem ++ '(' :: p := by
    rw [hname, ← List.append_assoc, List.take_left' (by simp), s3, List.append_assoc, List.drop_append_of_le_length s4]
    rfl
  have hsl : strSlice name st.lastItem (before.length + p.length) = .ok (pre.drop st.lastItem ++ '(' :: p) := by
    rw [strSlice_ascii hasc (by omega) (by rw [hname]; simp), e]
  obtain ⟨err, herr⟩ := open_err _ (pre.drop st.lastItem) p rfl (fun c hc => hasc c (by
    rw [← e] at hc
    exact List.mem_of_mem_take (List.mem_of_mem_drop hc))) (fun h => (hp _ h).2.2.1 rfl)
  have hne : pre.drop st.lastItem ++ '(' :: p ≠ [] := by simp
  rw [run, cutsText_cons, loop_plain read name (noDelimiter_plain hp)]
  cases d with
  | opening =>
    simp only [Mark.char] at *
    rw [readLoop_open, readOpen_inner (by omega), elen]
    refine yields_same (ih r _ { st with
      topOpen := before.length + p.length, nested := st.nested + 1, subtuples := st.subtuples ++ [[]]
      lastItem := (before ++ p ++ ['(']).length } (.inside 1 (some [])) (kept ++ [[]]) hr hrp hname'
      ⟨by simp only; omega, by simp only; rw [s2], rfl, by simp, before ++ p, [], by simp [commas], by simp, .nil⟩) ?_
    intro o
    constructor
    · intro h
      cases h with
      | again h => exact h
    · exact .again
  | closing =>
    simp only [Mark.char] at *
    rw [readLoop_close]
    unfold readClose
    simp only []
    rw [if_neg (by omega), hsl]
    simp only [Res.ok_bind]
    rw [if_neg hne, if_pos (by omega), herr]
    exact yields_err ⟨_, rfl⟩ nofun
  | comma =>
    simp only [Mark.char] at *
    rw [readLoop_comma]
    unfold readComma
    rw [hsl]
    simp only [Res.ok_bind]
    rw [if_neg hne, if_pos (by omega), herr]
    exact yields_err ⟨_, rfl⟩ nofun

theorem works {name : Str} (hasc : ascii name) : ∀ N, Works name N := by
  intro N
  induction N with
  | zero =>
    intro cs before st pl kept hN _ _ _
    obtain rfl := List.eq_nil_of_length_eq_zero hN
    refine ⟨fun us => ?_, nofun, nofun⟩
    rw [show run name [] before.length st = .ok st.subtypes by rfl]
    constructor
    · intro h
      exact ⟨[], by rw [← Res.ok.inj h]; simp, .done⟩
    · rintro ⟨ts, rfl, h⟩
      cases h
      simp
  | succ N ih =>
    intro cs before st pl kept hN hcs hname hst
    obtain ⟨⟨p, d⟩, r, rfl⟩ := List.exists_cons_of_length_eq_add_one hN
    have hr : r.length = N := by simpa using hN
    have hp : NoDelimiter p := hcs ⟨p, d⟩ (by simp)
    have hrp : ∀ c ∈ r, NoDelimiter c.text := fun c hc => hcs c (by simp [hc])
    cases pl with
    | outside => exact step_outside hasc ih hr hp hrp hname hst
    | reopened => exact step_reopened hasc ih hr hp hrp hname hst
    | inside n g =>
      cases d with
      | comma => exact step_comma hasc ih hr hp hrp hname hst
      | opening => exact step_open ih hr hp hrp hname hst
      | closing =>
        by_cases he : p = []
        · exact step_close_outer hasc ih hr hp hrp hname hst (Or.inl he)
        cases n with
        | zero => exact step_close_outer hasc ih hr hp hrp hname hst (Or.inr rfl)
        | succ n =>
          by_cases ho : ∃ c ∈ r.head?, c.mark = .opening
          · exact step_close_refused hasc hp hrp hname hst he (Or.inr ho)
          · cases g with
            | none => exact step_close_refused hasc hp hrp hname hst he (Or.inl rfl)
            | some ps => exact step_close_group hasc ih hr hp hrp hname hst he (fun c hc h => ho ⟨c, hc, h⟩)

/-! ### cuts -/

theorem mark_char {c : Char} (h : c = '(' ∨ c = ')' ∨ c = ',') : ∃ d : Mark, d.char = c := by
  rcases h with rfl | rfl | rfl
  · exact ⟨.opening, rfl⟩
  · exact ⟨.closing, rfl⟩
  · exact ⟨.comma, rfl⟩

theorem char_mark (d : Mark) : d.char = '(' ∨ d.char = ')' ∨ d.char = ',' := by cases d <;> simp [Mark.char]

theorem char_inj {d d' : Mark} (h : d.char = d'.char) : d = d' := by
  cases d <;> cases d' <;> first | rfl | exact absurd h (by decide)

theorem cuts_exist : ∀ r : Str, ascii r → ∃ cs tail, r = cutsText cs ++ tail ∧ (∀ c ∈ cs, NoDelimiter c.text) ∧ NoDelimiter tail
  | [], _ => ⟨[], [], rfl, nofun, nofun⟩
  | c :: r, ha => by
    obtain ⟨cs, tail, h1, h2, h3⟩ := cuts_exist r (fun x hx => ha x (by simp [hx]))
    by_cases hc : c = '(' ∨ c = ')' ∨ c = ','
    · obtain ⟨d, hd⟩ := mark_char hc
      refine ⟨⟨[], d⟩ :: cs, tail, by rw [cutsText_cons, h1, hd]; rfl, ?_, h3⟩
      intro x hx
      rcases List.mem_cons.1 hx with rfl | hx
      · intro y hy; simp at hy
      · exact h2 x hx
    · have hcd : c.toNat < 128 ∧ c ≠ '(' ∧ c ≠ ')' ∧ c ≠ ',' := ⟨ha c (by simp), by tauto, by tauto, by tauto⟩
      cases cs with
      | nil =>
        refine ⟨[], c :: tail, by rw [h1]; rfl, nofun, ?_⟩
        intro y hy
        rcases List.mem_cons.1 hy with rfl | hy
        · exact hcd
        · exact h3 y hy
      | cons x cs =>
        obtain ⟨p, d⟩ := x
        refine ⟨⟨c :: p, d⟩ :: cs, tail, by rw [h1, cutsText_cons, cutsText_cons]; rfl, ?_, h3⟩
        intro x hx
        rcases List.mem_cons.1 hx with rfl | hx
        · intro y hy
          rcases List.mem_cons.1 hy with rfl | hy
          · exact hcd
          · exact h2 ⟨p, d⟩ (by simp) y hy
        · exact h2 x (by simp [hx])

theorem mark_inj : ∀ {p q : Str} {d e : Mark} {r s : Str}, plainText p → plainText q →
    p ++ d.char :: r = q ++ e.char :: s → p = q ∧ d = e ∧ r = s
  | [], [], d, e, r, s, _, _, h => by
    obtain ⟨h1, h2⟩ := List.cons.inj h
    exact ⟨rfl, char_inj h1, h2⟩
  | [], c :: q, d, e, r, s, _, hq, h => by
    obtain ⟨h1, h2⟩ := List.cons.inj h
    have := char_mark d
    have := hq c (by simp)
    rw [← h1] at this
    tauto
  | c :: p, [], d, e, r, s, hp, _, h => by
    obtain ⟨h1, h2⟩ := List.cons.inj h
    have := char_mark e
    have := hp c (by simp)
    rw [h1] at this
    tauto
  | c :: p, c' :: q, d, e, r, s, hp, hq, h => by
    obtain ⟨rfl, h2⟩ := List.cons.inj h
    obtain ⟨rfl, h3⟩ := mark_inj (fun x hx => hp x (by simp [hx])) (fun x hx => hq x (by simp [hx])) h2
    exact ⟨rfl, h3⟩

theorem cuts_unique : ∀ {cs cs' : List Cut}, (∀ c ∈ cs, NoDelimiter c.text) → (∀ c ∈ cs', NoDelimiter c.text) →
    cutsText cs = cutsText cs' → cs = cs'
  | [], [], _, _, _ => rfl
  | [], ⟨p, d⟩ :: cs', _, _, h => by rw [cutsText_cons] at h; exact absurd h (by simp [cutsText])
  | ⟨p, d⟩ :: cs, [], _, _, h => by rw [cutsText_cons] at h; exact absurd h (by simp [cutsText])
  | ⟨p, d⟩ :: cs, ⟨p', d'⟩ :: cs', h1, h2, h => by
    rw [cutsText_cons, cutsText_cons] at h
    have hp : plainText p := noDelimiter_plain (h1 ⟨p, d⟩ (by simp))
    have hp' : plainText p' := noDelimiter_plain (h2 ⟨p', d'⟩ (by simp))
    obtain ⟨rfl, rfl, h'⟩ := mark_inj hp hp' h
    rw [cuts_unique (fun c hc => h1 c (by simp [hc])) (fun c hc => h2 c (by simp [hc])) h']

theorem cutsText_concat (cs : List Cut) (c : Cut) : cutsText (cs ++ [c]) = cutsText cs ++ c.text ++ [c.mark.char] := by
  simp [cutsText]

theorem proper_last {cs : List Cut} (h : Proper cs) : ("(".toList ++ cutsText cs).getLast? = some ')' := by
  rcases List.eq_nil_or_concat cs with rfl | ⟨cs, c, rfl⟩
  · simp [Proper] at h
  · have h2 := h.2
    rw [List.concat_eq_append] at h2 ⊢
    simp only [List.getLast?_concat, Option.map_some, Option.some.injEq] at h2
    rw [cutsText_concat, ← List.append_assoc, List.getLast?_concat, h2]; rfl

theorem proper_exist {r : Str} (ha : ascii r) (h : r.getLast? = some ')') : ∃ cs, r = cutsText cs ∧ Proper cs := by
  obtain ⟨cs, tail, h1, h2, h3⟩ := cuts_exist r ha
  have ht : tail = [] := by
    rcases List.eq_nil_or_concat tail with rfl | ⟨t, c, rfl⟩
    · rfl
    · rw [h1, List.concat_eq_append, ← List.append_assoc, List.getLast?_concat] at h
      exact absurd (Option.some.inj h) (h3 c (by simp)).2.2.1
  subst ht
  rw [List.append_nil] at h1
  refine ⟨cs, h1, h2, ?_⟩
  rcases List.eq_nil_or_concat cs with rfl | ⟨cs, c, rfl⟩
  · rw [h1] at h; cases h
  · rw [List.concat_eq_append] at h1 ⊢
    rw [h1, cutsText_concat, List.getLast?_concat] at h
    rw [List.getLast?_concat, Option.map_some, char_inj (d := c.mark) (d' := .closing) (Option.some.inj h)]

/-- a tuple's text -/
theorem read_cuts {cs : List Cut} (h : Proper cs) :
    (∀ t, read ("(".toList ++ cutsText cs) = .ok t ↔ ∃ ts, Understood (.inside 0 (some [])) [] cs (some ts) ∧ t = .tuple ts) ∧
    (read ("(".toList ++ cutsText cs) = .panic ↔ Understood (.inside 0 (some [])) [] cs none) := by
  have hasc : ascii ("(".toList ++ cutsText cs) := by
    intro c hc
    simp only [List.mem_append, cutsText, List.mem_flatMap, List.mem_singleton] at hc
    rcases hc with hc | ⟨x, hx, hc | rfl⟩
    · revert hc; revert c; decide
    · exact (h.1 x hx c hc).1
    · cases x.mark <;> decide
  have hw := works hasc cs.length cs "(".toList
    { subtypes := [], subtuples := [], nested := 1, topOpen := 0, lastItem := 1 } (.inside 0 (some [])) [] rfl h.1 rfl
    ⟨rfl, rfl, rfl, by simp, [], [], by simp [commas], rfl, .nil⟩
  have e : read ("(".toList ++ cutsText cs) = (run ("(".toList ++ cutsText cs) cs 1
      { subtypes := [], subtuples := [], nested := 1, topOpen := 0, lastItem := 1 } >>= fun ts => .ok (.tuple ts)) := by
    rw [read_eq, readStep, if_pos (proper_last h), if_neg (by simp [lit, startsWith])]
    rw [show readLoop read ("(".toList ++ cutsText cs) ("(".toList ++ cutsText cs) 0 0
      { subtypes := [], subtuples := [], nested := 0, topOpen := 0, lastItem := 1 } = readLoop read ("(".toList ++ cutsText cs)
        (cutsText cs) 1 0 { subtypes := [], subtuples := [], nested := 1, topOpen := 0, lastItem := 1 } from readLoop_open ..]
    rw [run]
    cases readLoop read ("(".toList ++ cutsText cs)
        (cutsText cs) 1 0 { subtypes := [], subtuples := [], nested := 1, topOpen := 0, lastItem := 1 } <;> rfl
  rw [e]
  obtain ⟨w1, w2⟩ := hw
  constructor
  · intro t
    rw [Res.bind_eq_ok]
    constructor
    · rintro ⟨us, h1, h2⟩
      obtain ⟨ts, e', h3⟩ := (w1 us).1 h1
      exact ⟨ts, h3, by rw [← Res.ok.inj h2, e']; rfl⟩
    · rintro ⟨ts, h1, rfl⟩
      exact ⟨ts, (w1 ts).2 ⟨ts, rfl, h1⟩, rfl⟩
  · rw [← w2]
    cases hrun : run ("(".toList ++ cutsText cs) cs 1
      { subtypes := [], subtuples := [], nested := 1, topOpen := 0, lastItem := 1 } with
    | ok us => exact ⟨nofun, fun h => by rw [show "(".toList.length = 1 by rfl, hrun] at h; cases h⟩
    | err e => exact ⟨nofun, fun h => by rw [show "(".toList.length = 1 by rfl, hrun] at h; cases h⟩
    | panic => exact ⟨fun _ => hrun, fun _ => rfl⟩

/-! ### all texts -/

theorem text_suffix (q num : Str) (hb : '[' ∉ num) (t : ParamType) : Text (q ++ '[' :: (num ++ [']'])) t ↔
    (num = [] ∧ ∃ u, Text q u ∧ t = .array u) ∨ (∃ u n, Text q u ∧ numberText num n ∧ t = .fixedArray u n) := by
  constructor
  · intro h
    generalize hs : q ++ '[' :: (num ++ [']']) = s at h
    have hl : s.getLast? = some ']' := by rw [← hs]; exact last_suffix q num
    cases h with
    | elementary h => exact absurd hl (elementary_last h)
    | tuple h _ => rw [proper_last h] at hl; exact absurd hl (by decide)
    | array h =>
      rw [array_text] at hs
      obtain ⟨rfl, rfl⟩ := suffix_inj hb (by simp) hs
      exact Or.inl ⟨rfl, _, h, rfl⟩
    | fixedArray h hd =>
      rw [suffix_text] at hs
      obtain ⟨rfl, rfl⟩ := suffix_inj hb (fun h => (numberText_ne hd h).1 rfl) hs
      exact Or.inr ⟨_, _, h, hd, rfl⟩
  · rintro (⟨rfl, u, h, rfl⟩ | ⟨u, n, h, hd, rfl⟩)
    · rw [← array_text]; exact .array h
    · rw [← suffix_text]; exact .fixedArray h hd

theorem crash_suffix (q num : Str) (hb : '[' ∉ num) : Crash (q ++ '[' :: (num ++ [']'])) ↔
    Crash q ∧ (num = [] ∨ ∃ n, numberText num n) := by
  constructor
  · intro h
    generalize hs : q ++ '[' :: (num ++ [']']) = s at h
    have hl : s.getLast? = some ']' := by rw [← hs]; exact last_suffix q num
    cases h with
    | bare =>
      have := congrArg List.length hs
      simp at this
      omega
    | number hd =>
      have e1 : q ++ '[' :: num = _ := List.append_cancel_right (by rw [← hs]; simp : q ++ '[' :: num ++ [']'] = _ ++ "]".toList)
      exact absurd (by rw [← e1]; simp : '[' ∈ _) (fun h => (numberText_ne hd h).1 rfl)
    | tuple h _ => rw [proper_last h] at hl; exact absurd hl (by decide)
    | array h =>
      rw [array_text] at hs
      obtain ⟨rfl, rfl⟩ := suffix_inj hb (by simp) hs
      exact ⟨h, Or.inl rfl⟩
    | fixedArray h hd =>
      rw [suffix_text] at hs
      obtain ⟨rfl, rfl⟩ := suffix_inj hb (fun h => (numberText_ne hd h).1 rfl) hs
      exact ⟨h, Or.inr ⟨_, hd⟩⟩
  · rintro ⟨h, rfl | ⟨n, hd⟩⟩
    · rw [← array_text]; exact .array h
    · rw [← suffix_text]; exact .fixedArray h hd

theorem text_unopened {p : Str} (hb : '[' ∉ p) (t : ParamType) : ¬ Text (p ++ [']']) t := by
  intro h
  generalize hs : p ++ [']'] = s at h
  have hl : s.getLast? = some ']' := by rw [← hs]; exact List.getLast?_concat ..
  cases h with
  | elementary h => exact absurd hl (elementary_last h)
  | tuple h _ => rw [proper_last h] at hl; exact absurd hl (by decide)
  | array _ => rw [array_text] at hs; exact no_suffix hb _ _ hs
  | fixedArray _ _ => rw [suffix_text] at hs; exact no_suffix hb _ _ hs

theorem crash_start {p : Str} (hb : '[' ∉ p) : Crash (p ++ [']']) ↔ p = [] ∨ ∃ n, numberText p n := by
  constructor
  · intro h
    generalize hs : p ++ [']'] = s at h
    have hl : s.getLast? = some ']' := by rw [← hs]; exact List.getLast?_concat ..
    cases h with
    | bare =>
      left
      have := congrArg List.length hs
      simp at this
      exact this
    | number hd => exact Or.inr ⟨_, by rw [List.append_cancel_right hs]; exact hd⟩
    | tuple h _ => rw [proper_last h] at hl; exact absurd hl (by decide)
    | array _ => rw [array_text] at hs; exact absurd hs (no_suffix hb _ _)
    | fixedArray _ _ => rw [suffix_text] at hs; exact absurd hs (no_suffix hb _ _)
  · rintro (rfl | ⟨n, h⟩)
    · exact .bare
    · exact .number h

theorem text_close {s : Str} (hl : s.getLast? = some ')') :
    (∀ t, Text s t ↔ ∃ cs ts, s = "(".toList ++ cutsText cs ∧ Proper cs ∧
      Understood (.inside 0 (some [])) [] cs (some ts) ∧ t = .tuple ts) ∧
    (Crash s ↔ ∃ cs, s = "(".toList ++ cutsText cs ∧ Proper cs ∧ Understood (.inside 0 (some [])) [] cs none) := by
  constructor
  · intro t
    constructor
    · intro h
      cases h with
      | elementary h => exact absurd (List.mem_of_getLast? hl) (fun hc => (elementary_plain h _ hc).2.1 rfl)
      | tuple h h' => exact ⟨_, _, rfl, h, h', rfl⟩
      | array _ => rw [array_text, last_suffix] at hl; exact absurd hl (by decide)
      | fixedArray _ _ => rw [suffix_text, last_suffix] at hl; exact absurd hl (by decide)
    · rintro ⟨cs, ts, rfl, h, h', rfl⟩
      exact .tuple h h'
  · constructor
    · intro h
      cases h with
      | bare => exact absurd hl (by decide)
      | number _ => rw [show ∀ d : Str, (d ++ "]".toList).getLast? = some ']' from fun d => List.getLast?_concat ..] at hl; exact absurd hl (by decide)
      | tuple h h' => exact ⟨_, rfl, h, h'⟩
      | array _ => rw [array_text, last_suffix] at hl; exact absurd hl (by decide)
      | fixedArray _ _ => rw [suffix_text, last_suffix] at hl; exact absurd hl (by decide)
    · rintro ⟨cs, rfl, h, h'⟩
      exact .tuple h h'

theorem text_plain {s : Str} (h1 : s.getLast? ≠ some ')') (h : s.getLast? ≠ some ']') (t : ParamType) :
    Text s t ↔ Elementary s t := by
  constructor
  · intro ht
    cases ht with
    | elementary h => exact h
    | tuple h' _ => exact absurd (proper_last h') h1
    | array _ => exact absurd (by rw [array_text]; exact last_suffix _ _) h
    | fixedArray _ _ => exact absurd (by rw [suffix_text]; exact last_suffix _ _) h
  · exact .elementary

theorem crash_last {s : Str} (h : Crash s) : s.getLast? = some ']' ∨ s.getLast? = some ')' := by
  cases h with
  | bare => exact Or.inl rfl
  | number _ => exact Or.inl (List.getLast?_concat ..)
  | tuple h _ => exact Or.inr (proper_last h)
  | array _ => rw [array_text]; exact Or.inl (last_suffix _ _)
  | fixedArray _ _ => rw [suffix_text]; exact Or.inl (last_suffix _ _)

theorem anyOutcome : ∀ (n : Nat) (s : Str), s.length = n → ascii s → TextOutcome Text Crash s := by
  intro n
  induction n using Nat.strongRecOn with
  | _ n ih =>
  intro s hn ha
  by_cases hl : s.getLast? = some ']'
  · obtain ⟨p, rfl⟩ : ∃ p, s = p ++ [']'] := List.getLast?_eq_some_iff.1 hl
    have hap : ascii p := fun c hc => ha c (by simp [hc])
    by_cases hb : '[' ∈ p
    · obtain ⟨q, num, rfl, hnum⟩ := last_bracket p hb
      have haq : ascii q := fun c hc => hap c (by simp [hc])
      have hanum : ascii num := fun c hc => hap c (by simp [hc])
      rw [show q ++ '[' :: num ++ [']'] = q ++ '[' :: (num ++ [']']) by simp]
      exact outcome_suffix haq hanum hnum (text_suffix q num hnum) (crash_suffix q num hnum)
        (ih q.length (by rw [← hn]; simp) q rfl haq)
    · exact outcome_start hap hb (text_unopened hb) (crash_start hb)
  · by_cases hl' : s.getLast? = some ')'
    · obtain ⟨f1, f2⟩ := text_close hl'
      by_cases hs : ∃ r, s = "(".toList ++ r
      · obtain ⟨r, rfl⟩ := hs
        have har : ascii r := fun c hc => ha c (by simp [hc])
        have hr : r.getLast? = some ')' := by
          rcases List.eq_nil_or_concat r with rfl | ⟨r, c, rfl⟩
          · exact absurd hl' (by decide)
          · rw [List.concat_eq_append, ← List.append_assoc, List.getLast?_concat] at hl'
            rw [List.concat_eq_append, List.getLast?_concat, hl']
        obtain ⟨cs, rfl, hcs⟩ := proper_exist har hr
        obtain ⟨r1, r2⟩ := read_cuts hcs
        have huniq : ∀ cs', "(".toList ++ cutsText cs = "(".toList ++ cutsText cs' → Proper cs' → cs' = cs :=
          fun cs' h h' => (cuts_unique hcs.1 h'.1 (List.append_cancel_left h)).symm
        constructor
        · intro t
          rw [r1, f1]
          constructor
          · rintro ⟨ts, h, rfl⟩
            exact ⟨cs, ts, rfl, hcs, h, rfl⟩
          · rintro ⟨cs', ts, h, h1, h2, rfl⟩
            rw [huniq cs' h h1] at h2
            exact ⟨ts, h2, rfl⟩
        · rw [r2, f2]
          constructor
          · exact fun h => ⟨cs, rfl, hcs, h⟩
          · rintro ⟨cs', h, h1, h2⟩
            rw [huniq cs' h h1] at h2
            exact h2
      · have hsw : startsWith (lit "(") s = false := by
          cases s with
          | nil => exact absurd hl' (by decide)
          | cons c s =>
            rw [Bool.eq_false_iff]
            intro h
            simp [lit, startsWith] at h
            exact hs ⟨s, by rw [← h]; rfl⟩
        have hr : read s = .err (.invalidName s) := by
          rw [read_eq, readStep, if_pos hl', if_pos (by rw [hsw]; rfl)]
        constructor
        · intro t
          rw [hr, f1]
          refine ⟨nofun, ?_⟩
          rintro ⟨cs, _, h, _⟩
          exact absurd ⟨_, h⟩ hs
        · rw [hr, f2]
          refine ⟨nofun, ?_⟩
          rintro ⟨cs, h, _⟩
          exact absurd ⟨_, h⟩ hs
    · exact outcome_plain hl' hl (text_plain hl' hl) (fun h => (crash_last h).elim hl hl')

end Ethabi.AnyText

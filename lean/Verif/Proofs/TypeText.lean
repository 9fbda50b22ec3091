import Verif.Proofs.ReaderPanic
import Verif.Proofs.ReaderTuple
import Verif.Spec.TypeText
/-! `Reader::read` on texts without closing parentheses. -/
namespace Ethabi
open Spec

theorem numberText_iff (d : Str) (n : Nat) : numberText d n ↔ parseUsize d = .ok n := by
  have hd : ∀ ds : Str, (ds.all isDigit = true) ↔ ∀ c ∈ ds, c.isDigit = true := by
    intro ds
    rw [List.all_eq_true]
    constructor
    · intro h c hc; rw [← isDigit_eq]; exact h c hc
    · intro h c hc; rw [isDigit_eq]; exact h c hc
  have hstrip : ∀ ds : Str, (∀ c ∈ ds, c.isDigit = true) → stripPlus ds = ds := by
    intro ds h
    unfold stripPlus
    split
    · rename_i r
      have := h '+' (by simp)
      simp at this
    · rfl
  constructor
  · rintro ⟨ds, h1, h2, h3, rfl, h5⟩
    have hs : stripPlus d = ds := by
      rcases h1 with rfl | rfl
      · exact hstrip _ h3
      · rfl
    rw [parseUsize]
    simp only [hs, digitsVal_eq]
    rw [if_pos ⟨h2, (hd ds).2 h3, h5⟩]
  · intro h
    rw [parseUsize] at h
    simp only [digitsVal_eq] at h
    split at h
    · rename_i hc
      cases h
      refine ⟨stripPlus d, ?_, hc.1, (hd _).1 hc.2.1, rfl, hc.2.2⟩
      unfold stripPlus
      split
      · exact Or.inr rfl
      · exact Or.inl rfl
    · cases h

/-- no brackets in numbers -/
theorem numberText_ne {d : Str} {n : Nat} (h : numberText d n) {c : Char} (hc : c ∈ d) : c ≠ '[' ∧ c ≠ ']' := by
  obtain ⟨ds, h1, _, h3, _⟩ := h
  have : c.isDigit = true ∨ c = '+' := by
    rcases h1 with rfl | rfl
    · exact Or.inl (h3 c hc)
    · rcases List.mem_cons.1 hc with h | h
      · exact Or.inr h
      · exact Or.inl (h3 c h)
  constructor
  · rintro rfl; revert this; decide
  · rintro rfl; revert this; decide

theorem numberText_ne_nil {d : Str} {n : Nat} (h : numberText d n) : d ≠ [] := by
  obtain ⟨ds, h1, h2, _⟩ := h
  rcases h1 with rfl | rfl
  · exact h2
  · simp

theorem readElementary_iff (s : Str) (t : ParamType) : readElementary s = .ok t ↔ Elementary s t := by
  constructor
  · intro h
    unfold readElementary at h
    split at h
    · rename_i e; cases h; subst e; exact .address
    split at h
    · rename_i e; cases h; subst e; exact .bytes
    split at h
    · rename_i e; cases h; subst e; exact .bool
    split at h
    · rename_i e; cases h; subst e; exact .string
    split at h
    · rename_i e; cases h; subst e; exact .int
    split at h
    · rename_i e; cases h; subst e; exact .tuple
    split at h
    · rename_i e; cases h; subst e; exact .uint
    split at h
    · rename_i e
      obtain ⟨r, rfl⟩ := List.isPrefixOf_iff_prefix.1 e
      rw [Res.bind_eq_ok] at h
      obtain ⟨n, h1, h2⟩ := h
      cases h2
      exact .intN ((numberText_iff _ _).2 h1)
    split at h
    · rename_i e
      obtain ⟨r, rfl⟩ := List.isPrefixOf_iff_prefix.1 e
      rw [Res.bind_eq_ok] at h
      obtain ⟨n, h1, h2⟩ := h
      cases h2
      exact .uintN ((numberText_iff _ _).2 h1)
    split at h
    · rename_i e
      obtain ⟨r, rfl⟩ := List.isPrefixOf_iff_prefix.1 e
      rw [Res.bind_eq_ok] at h
      obtain ⟨n, h1, h2⟩ := h
      cases h2
      exact .bytesN ((numberText_iff _ _).2 h1)
    · cases h
  · have key : ∀ {d : Str} {n : Nat}, numberText d n → ∃ c r, d = c :: r ∧ parseUsize (c :: r) = .ok n := by
      intro d n h
      cases d with
      | nil => exact absurd rfl (numberText_ne_nil h)
      | cons c r => exact ⟨c, r, rfl, (numberText_iff _ _).1 h⟩
    intro h
    cases h with
    | address => decide
    | bytes => decide
    | bool => decide
    | string => decide
    | int => decide
    | uint => decide
    | tuple => decide
    | intN h => obtain ⟨c, r, rfl, hp⟩ := key h; simp [readElementary, lit, startsWith, hp]
    | uintN h => obtain ⟨c, r, rfl, hp⟩ := key h; simp [readElementary, lit, startsWith, hp]
    | bytesN h => obtain ⟨c, r, rfl, hp⟩ := key h; simp [readElementary, lit, startsWith, hp]

theorem getLast_append_ne {p d : Str} (hd : d ≠ []) : (p ++ d).getLast? = d.getLast? := by
  rw [List.getLast?_append]
  cases h : d.getLast? with
  | none => simp at h; exact absurd h hd
  | some c => rfl

/-- elementary names do not end in `]` -/
theorem elementary_last {s : Str} {t : ParamType} (h : Elementary s t) : s.getLast? ≠ some ']' := by
  have key : ∀ {p d : Str} {n : Nat}, numberText d n → (p ++ d).getLast? ≠ some ']' := by
    intro p d n h
    rw [getLast_append_ne (numberText_ne_nil h)]
    intro hl
    exact (numberText_ne h (List.mem_of_getLast? hl)).2 rfl
  cases h with
  | intN h => exact key h
  | uintN h => exact key h
  | bytesN h => exact key h
  | _ => decide

/-- the last opening bracket in front of a closing one -/
theorem suffix_inj {a b m n : Str} (hm : '[' ∉ m) (hn : '[' ∉ n)
    (h : a ++ '[' :: (m ++ [']']) = b ++ '[' :: (n ++ [']'])) : a = b ∧ m = n := by
  have h1 := arrayNum_append a m hm
  have h2 := arrayNum_append b n hn
  rw [h] at h1
  have : m = n := h1.symm.trans h2
  subst this
  exact ⟨List.append_cancel_right h, rfl⟩

theorem suffix_text (s d : Str) : s ++ "[".toList ++ d ++ "]".toList = s ++ '[' :: (d ++ [']']) := by simp

theorem array_text (s : Str) : s ++ "[]".toList = s ++ '[' :: ([] ++ [']']) := by simp

theorem last_suffix (q num : Str) : (q ++ '[' :: (num ++ [']'])).getLast? = some ']' := by
  rw [show q ++ '[' :: (num ++ [']']) = (q ++ '[' :: num) ++ [']'] by simp]
  exact List.getLast?_concat ..

theorem typeText_suffix (q num : Str) (hb : '[' ∉ num) (t : ParamType) :
    TypeText (q ++ '[' :: (num ++ [']'])) t ↔
      (num = [] ∧ ∃ u, TypeText q u ∧ t = .array u) ∨ (∃ u n, TypeText q u ∧ numberText num n ∧ t = .fixedArray u n) := by
  constructor
  · intro h
    generalize hs : q ++ '[' :: (num ++ [']']) = s at h
    cases h with
    | elementary h => exact absurd (by rw [← hs]; exact last_suffix q num) (elementary_last h)
    | array h =>
      rw [array_text] at hs
      obtain ⟨rfl, rfl⟩ := suffix_inj hb (by simp) hs
      exact Or.inl ⟨rfl, _, h, rfl⟩
    | fixedArray h hd =>
      rw [suffix_text] at hs
      obtain ⟨rfl, rfl⟩ := suffix_inj hb (fun hc => (numberText_ne hd hc).1 rfl) hs
      exact Or.inr ⟨_, _, h, hd, rfl⟩
  · rintro (⟨rfl, u, h, rfl⟩ | ⟨u, n, h, hd, rfl⟩)
    · rw [← array_text]; exact .array h
    · rw [← suffix_text]; exact .fixedArray h hd

theorem typeText_plain {s : Str} (h : s.getLast? ≠ some ']') (t : ParamType) : TypeText s t ↔ Elementary s t := by
  constructor
  · intro ht
    cases ht with
    | elementary h => exact h
    | array _ => exact absurd (by rw [array_text]; exact last_suffix _ _) h
    | fixedArray _ _ => exact absurd (by rw [suffix_text]; exact last_suffix _ _) h
  · exact .elementary

theorem typeText_unopened {p : Str} (hb : '[' ∉ p) (t : ParamType) : ¬ TypeText (p ++ [']']) t := by
  intro h
  generalize hs : p ++ [']'] = s at h
  have hno : ∀ q num : Str, p ++ [']'] ≠ q ++ '[' :: (num ++ [']']) := by
    intro q num e
    have : '[' ∈ p ++ [']'] := by rw [e]; simp
    simp only [List.mem_append, List.mem_singleton] at this
    rcases this with h | h
    · exact hb h
    · revert h; decide
  cases h with
  | elementary h => exact absurd (by rw [← hs]; exact List.getLast?_concat ..) (elementary_last h)
  | array _ => rw [array_text] at hs; exact hno _ _ hs
  | fixedArray _ _ => rw [suffix_text] at hs; exact hno _ _ hs

theorem unopened_suffix (q num : Str) (hb : '[' ∉ num) :
    Unopened (q ++ '[' :: (num ++ [']'])) ↔ Unopened q ∧ (num = [] ∨ ∃ n, numberText num n) := by
  constructor
  · intro h
    generalize hs : q ++ '[' :: (num ++ [']']) = s at h
    have hmem : '[' ∈ s := by rw [← hs]; simp
    cases h with
    | bare => exact absurd hmem (by decide)
    | number hd =>
      simp only [List.mem_append] at hmem
      rcases hmem with h | h
      · exact absurd rfl (numberText_ne hd h).1
      · exact absurd h (by decide)
    | array h =>
      rw [array_text] at hs
      obtain ⟨rfl, rfl⟩ := suffix_inj hb (by simp) hs
      exact ⟨h, Or.inl rfl⟩
    | fixedArray h hd =>
      rw [suffix_text] at hs
      obtain ⟨rfl, rfl⟩ := suffix_inj hb (fun hc => (numberText_ne hd hc).1 rfl) hs
      exact ⟨h, Or.inr ⟨_, hd⟩⟩
  · rintro ⟨h, rfl | ⟨n, hd⟩⟩
    · rw [← array_text]; exact .array h
    · rw [← suffix_text]; exact .fixedArray h hd

theorem unopened_last {s : Str} (h : Unopened s) : s.getLast? = some ']' := by
  cases h with
  | bare => rfl
  | number _ => exact List.getLast?_concat ..
  | array _ => rw [array_text]; exact last_suffix _ _
  | fixedArray _ _ => rw [suffix_text]; exact last_suffix _ _

theorem unopened_start {p : Str} (hb : '[' ∉ p) : Unopened (p ++ [']']) ↔ p = [] ∨ ∃ n, numberText p n := by
  constructor
  · intro h
    generalize hs : p ++ [']'] = s at h
    have hno : ∀ q num : Str, p ++ [']'] ≠ q ++ '[' :: (num ++ [']']) := by
      intro q num e
      have : '[' ∈ p ++ [']'] := by rw [e]; simp
      simp only [List.mem_append, List.mem_singleton] at this
      rcases this with h | h
      · exact hb h
      · revert h; decide
    cases h with
    | bare =>
      left
      have := congrArg List.length hs
      simp at this
      exact this
    | number hd => exact Or.inr ⟨_, by rw [List.append_cancel_right hs]; exact hd⟩
    | array _ => rw [array_text] at hs; exact absurd hs (hno _ _)
    | fixedArray _ _ => rw [suffix_text] at hs; exact absurd hs (hno _ _)
  · rintro (rfl | ⟨n, h⟩)
    · exact .bare
    · exact .number h

theorem takeWhile_all (f : Char → Bool) : ∀ l : Str, (∀ x ∈ l, f x = true) → l.takeWhile f = l
  | [], _ => rfl
  | a :: l, h => by
    rw [List.takeWhile_cons, h a (by simp), takeWhile_all f l (fun x hx => h x (by simp [hx]))]; rfl

theorem read_unopened {p : Str} (hb : '[' ∉ p) (ha : ascii p) :
    read (p ++ [']']) = (if p = [] then .panic else parseUsize p >>= fun _ => .panic) := by
  have hlast : (p ++ [']']).getLast? = some ']' := List.getLast?_concat ..
  have hnum : arrayNum (p ++ [']']) = p := by
    have : ∀ x ∈ p.reverse, (x != '[') = true := by
      intro x hx
      simp only [bne_iff_ne, ne_eq]
      rintro rfl
      exact hb (by simpa using hx)
    have e : (p ++ [']']).reverse.drop 1 = p.reverse := by simp
    rw [arrayNum, e, takeWhile_all _ _ this, List.reverse_reverse]
  rw [read_eq, readStep, if_neg (by rw [hlast]; simp), if_pos hlast]
  simp only [hnum]
  split
  · rename_i h; subst h; rfl
  · rw [byteLen_ascii ha]
    congr 1
    funext n
    simp [indexSub]

/-- the last opening bracket -/
theorem last_bracket : ∀ (p : Str), '[' ∈ p → ∃ q num, p = q ++ '[' :: num ∧ '[' ∉ num
  | [], h => by simp at h
  | c :: p, h => by
    by_cases hp : '[' ∈ p
    · obtain ⟨q, num, rfl, hn⟩ := last_bracket p hp
      exact ⟨c :: q, num, rfl, hn⟩
    · have : c = '[' := by
        rcases List.mem_cons.1 h with h | h
        · exact h.symm
        · exact absurd h hp
      subst this
      exact ⟨[], p, rfl, hp⟩

/-- the outcomes of `read` on a text -/
def TextOutcome (A : Str → ParamType → Prop) (P : Str → Prop) (s : Str) : Prop :=
  (∀ t, read s = .ok t ↔ A s t) ∧ (read s = .panic ↔ P s)

theorem outcome_suffix {A : Str → ParamType → Prop} {P : Str → Prop} {q num : Str} (haq : ascii q) (hanum : ascii num)
    (hnum : '[' ∉ num)
    (hA : ∀ t, A (q ++ '[' :: (num ++ [']'])) t ↔
      (num = [] ∧ ∃ u, A q u ∧ t = .array u) ∨ (∃ u n, A q u ∧ numberText num n ∧ t = .fixedArray u n))
    (hP : P (q ++ '[' :: (num ++ [']'])) ↔ P q ∧ (num = [] ∨ ∃ n, numberText num n))
    (ih : TextOutcome A P q) : TextOutcome A P (q ++ '[' :: (num ++ [']'])) := by
  obtain ⟨i1, i2⟩ := ih
  by_cases hne : num = []
  · subst hne
    have hr : read (q ++ '[' :: ([] ++ [']'])) = (read q >>= fun t => .ok (.array t)) := by
      rw [← read_array haq]; rfl
    constructor
    · intro t
      rw [hA, hr, Res.bind_eq_ok]
      constructor
      · rintro ⟨u, h, h'⟩
        cases h'
        exact Or.inl ⟨rfl, u, (i1 u).1 h, rfl⟩
      · rintro (⟨_, u, h, rfl⟩ | ⟨u, n, _, hd, _⟩)
        · exact ⟨u, (i1 u).2 h, rfl⟩
        · exact absurd rfl (numberText_ne_nil hd)
    · rw [hP, hr, ← i2]
      cases hq : read q <;> simp
  · have hr := read_fixedArray haq hanum hne hnum
    constructor
    · intro t
      rw [hA, hr, Res.bind_eq_ok]
      constructor
      · rintro ⟨k, hk, h⟩
        rw [Res.bind_eq_ok] at h
        obtain ⟨u, h, h'⟩ := h
        cases h'
        exact Or.inr ⟨u, k, (i1 u).1 h, (numberText_iff _ _).2 hk, rfl⟩
      · rintro (⟨h, _⟩ | ⟨u, k, h, hd, rfl⟩)
        · exact absurd h hne
        · refine ⟨k, (numberText_iff _ _).1 hd, ?_⟩
          rw [(i1 u).2 h]; rfl
    · rw [hP, hr, ← i2]
      cases hk : parseUsize num with
      | ok k =>
        have : ∃ n, numberText num n := ⟨k, (numberText_iff _ _).2 hk⟩
        simp only [this, or_true, and_true]
        cases hq : read q <;> simp
      | err e =>
        have : ¬ ∃ n, numberText num n := by
          rintro ⟨n, h⟩
          rw [(numberText_iff _ _).1 h] at hk; cases hk
        simp [this, hne]
      | panic => exact absurd hk (parseUsize_noPanic num)

theorem outcome_start {A : Str → ParamType → Prop} {P : Str → Prop} {p : Str} (hap : ascii p) (hb : '[' ∉ p)
    (hA : ∀ t, ¬ A (p ++ [']']) t) (hP : P (p ++ [']']) ↔ p = [] ∨ ∃ n, numberText p n) :
    TextOutcome A P (p ++ [']']) := by
  have hr := read_unopened hb hap
  constructor
  · intro t
    refine ⟨fun h => ?_, fun h => absurd h (hA t)⟩
    rw [hr] at h
    split at h
    · cases h
    · rw [Res.bind_eq_ok] at h
      obtain ⟨_, _, h⟩ := h
      cases h
  · rw [hP, hr]
    split
    · rename_i h; simp [h]
    · rename_i hne
      cases hk : parseUsize p with
      | ok k =>
        have : ∃ n, numberText p n := ⟨k, (numberText_iff _ _).2 hk⟩
        simp [this]
      | err e =>
        have : ¬ ∃ n, numberText p n := by
          rintro ⟨n, h⟩
          rw [(numberText_iff _ _).1 h] at hk; cases hk
        simp [this, hne]
      | panic => exact absurd hk (parseUsize_noPanic p)

theorem outcome_plain {A : Str → ParamType → Prop} {P : Str → Prop} {s : Str} (h1 : s.getLast? ≠ some ')')
    (h2 : s.getLast? ≠ some ']') (hA : ∀ t, A s t ↔ Elementary s t) (hP : ¬ P s) : TextOutcome A P s := by
  have hr := read_plain h1 h2
  constructor
  · intro t
    rw [hr, hA, readElementary_iff]
  · rw [hr]
    exact ⟨fun h => absurd h (readElementary_noPanic s), fun h => absurd h hP⟩

theorem textOutcome : ∀ (n : Nat) (s : Str), s.length = n → ascii s → ')' ∉ s → TextOutcome TypeText Unopened s := by
  intro n
  induction n using Nat.strongRecOn with
  | _ n ih =>
  intro s hn ha hp
  by_cases hl : s.getLast? = some ']'
  · obtain ⟨p, rfl⟩ : ∃ p, s = p ++ [']'] := List.getLast?_eq_some_iff.1 hl
    have hap : ascii p := fun c hc => ha c (by simp [hc])
    by_cases hb : '[' ∈ p
    · obtain ⟨q, num, rfl, hnum⟩ := last_bracket p hb
      have haq : ascii q := fun c hc => hap c (by simp [hc])
      have hanum : ascii num := fun c hc => hap c (by simp [hc])
      rw [show q ++ '[' :: num ++ [']'] = q ++ '[' :: (num ++ [']']) by simp]
      exact outcome_suffix haq hanum hnum (typeText_suffix q num hnum) (unopened_suffix q num hnum)
        (ih q.length (by rw [← hn]; simp) q rfl haq (fun h => hp (by simp [h])))
    · exact outcome_start hap hb (typeText_unopened hb) (unopened_start hb)
  · exact outcome_plain (fun h => hp (List.mem_of_getLast? h)) hl (typeText_plain hl) (fun h => hl (unopened_last h))

/-! ### one tuple -/

/-- reading pieces in order -/
def seqRead : List Str → Res (List ParamType)
  | [] => .ok []
  | p :: ps => if p = [] then seqRead ps else read p >>= fun t => seqRead ps >>= fun ts => .ok (t :: ts)

theorem commaSeparated_cons (p q : Str) (ps : List Str) :
    commaSeparated (p :: q :: ps) = p ++ ',' :: commaSeparated (q :: ps) := by
  simp [commaSeparated, List.intercalate]

theorem commaSeparated_one (p : Str) : commaSeparated [p] = p := by
  simp [commaSeparated, List.intercalate]

theorem loop_pieces {name : Str} (hasc : ascii name) : ∀ (ps : List Str) (p : Str) (pre : Str) (pos : Nat) (st : ReadSt),
    (∀ q ∈ p :: ps, plainText q) → name = pre ++ commaSeparated (p :: ps) ++ [')'] → pos = pre.length →
    st.lastItem = pos → st.nested = 1 →
    (readLoop read name (commaSeparated (p :: ps) ++ [')']) pos 0 st >>= fun st' => Res.ok (ParamType.tuple st'.subtypes))
      = (seqRead (p :: ps) >>= fun ts => .ok (.tuple (st.subtypes ++ ts)))
  | [], p, pre, pos, st, hpl, hname, hpos, hl, hn => by
    have hp := hpl p (by simp)
    rw [commaSeparated_one] at hname ⊢
    rw [loop_plain read name hp, readLoop_close]
    have hs : strSlice name st.lastItem (pos + p.length) = .ok p := by
      rw [hname] at hasc ⊢
      exact strSlice_mid hasc (by omega) (by omega)
    unfold readClose
    simp only [hn]
    rw [if_neg (by omega), hs]
    simp only [Res.ok_bind]
    by_cases he : p = []
    · rw [if_pos he]
      simp [seqRead, he, readLoop]
    · rw [if_neg he, if_pos (by omega)]
      simp only [seqRead, if_neg he]
      cases read p <;> simp [readLoop]
  | q :: ps, p, pre, pos, st, hpl, hname, hpos, hl, hn => by
    have hp := hpl p (by simp)
    rw [commaSeparated_cons] at hname ⊢
    rw [show p ++ ',' :: commaSeparated (q :: ps) ++ [')'] = p ++ ',' :: (commaSeparated (q :: ps) ++ [')']) by simp,
      loop_plain read name hp, readLoop_comma]
    have hs : strSlice name st.lastItem (pos + p.length) = .ok p := by
      have e : pre ++ (p ++ ',' :: commaSeparated (q :: ps)) ++ [')'] = pre ++ p ++ ',' :: (commaSeparated (q :: ps) ++ [')']) := by
        simp
      rw [e] at hname
      rw [hname] at hasc ⊢
      exact strSlice_mid hasc (by omega) (by omega)
    have hname' : name = (pre ++ p ++ [',']) ++ commaSeparated (q :: ps) ++ [')'] := by rw [hname]; simp
    have hpos' : pos + p.length + 1 = (pre ++ p ++ [',']).length := by simp; omega
    unfold readComma
    rw [hs]
    simp only [Res.ok_bind]
    by_cases he : p = []
    · rw [if_pos he]
      simp only [Res.ok_bind]
      rw [loop_pieces hasc ps q _ _ { st with lastItem := pos + p.length + 1 } (fun r hr => hpl r (by simp at hr ⊢; tauto))
        hname' hpos' rfl hn, he]
      rw [show seqRead ([] :: q :: ps) = seqRead (q :: ps) by rw [seqRead, if_pos rfl]]
    · rw [if_neg he, if_pos hn]
      rw [show seqRead (p :: q :: ps) = read p >>= fun t => seqRead (q :: ps) >>= fun ts => .ok (t :: ts) by
        rw [seqRead, if_neg he]]
      cases hr : read p with
      | err e => rfl
      | panic => rfl
      | ok t =>
        simp only [Res.ok_bind]
        rw [loop_pieces hasc ps q _ _ { st with subtypes := st.subtypes ++ [t], lastItem := pos + p.length + 1 }
          (fun r hr => hpl r (by simp at hr ⊢; tauto)) hname' hpos' rfl hn]
        cases seqRead (q :: ps) <;> simp

theorem ascii_commaSeparated : ∀ (ps : List Str), (∀ p ∈ ps, ascii p) → ascii (commaSeparated ps)
  | [], _ => by intro c hc; simp [commaSeparated, List.intercalate] at hc
  | [p], h => by rw [commaSeparated_one]; exact h p (by simp)
  | p :: q :: ps, h => by
    rw [commaSeparated_cons]
    intro c hc
    simp only [List.mem_cons, List.mem_append] at hc
    rcases hc with hc | rfl | hc
    · exact h p (by simp) c hc
    · decide
    · exact ascii_commaSeparated (q :: ps) (fun x hx => h x (by simp at hx ⊢; tauto)) c hc

theorem tuple_text (ps : List Str) : "(".toList ++ commaSeparated ps ++ ")".toList = '(' :: (commaSeparated ps ++ [')']) := by
  simp

theorem read_pieces {ps : List Str} (ha : ∀ p ∈ ps, ascii p) (hp : ∀ p ∈ ps, plainText p) :
    read ("(".toList ++ commaSeparated ps ++ ")".toList) = (seqRead ps >>= fun ts => .ok (.tuple ts)) := by
  cases ps with
  | nil => decide
  | cons p ps =>
    have hasc : ascii ('(' :: (commaSeparated (p :: ps) ++ [')'])) := by
      intro c hc
      simp only [List.mem_cons, List.mem_append, List.not_mem_nil, or_false] at hc
      rcases hc with rfl | hc | rfl
      · decide
      · exact ascii_commaSeparated _ ha c hc
      · decide
    have hlast : ('(' :: (commaSeparated (p :: ps) ++ [')'])).getLast? = some ')' := by
      rw [show '(' :: (commaSeparated (p :: ps) ++ [')']) = ('(' :: commaSeparated (p :: ps)) ++ [')'] by simp]
      exact List.getLast?_concat ..
    rw [tuple_text, read_eq, readStep, if_pos hlast, if_neg (by simp [lit, startsWith]), readLoop_open]
    exact loop_pieces hasc ps p ['('] 1
      { subtypes := [], subtuples := [], nested := 1, topOpen := 0, lastItem := 1 } hp (by simp) rfl rfl rfl

/-! ### texts with at most one tuple -/

theorem numberText_plain {d : Str} {n : Nat} (h : numberText d n) : plainText d := by
  obtain ⟨ds, h1, _, h3, _⟩ := h
  intro c hc
  have : c.isDigit = true ∨ c = '+' := by
    rcases h1 with rfl | rfl
    · exact Or.inl (h3 c hc)
    · rcases List.mem_cons.1 hc with h | h
      · exact Or.inr h
      · exact Or.inl (h3 c h)
  refine ⟨?_, ?_, ?_⟩ <;> · rintro rfl; revert this; decide

theorem elementary_plain {s : Str} {t : ParamType} (h : Elementary s t) : plainText s := by
  cases h with
  | intN h => exact plainText_append (plainText_of_all (by decide)) (numberText_plain h)
  | uintN h => exact plainText_append (plainText_of_all (by decide)) (numberText_plain h)
  | bytesN h => exact plainText_append (plainText_of_all (by decide)) (numberText_plain h)
  | _ => exact plainText_of_all (by decide)

theorem typeText_plainText {s : Str} {t : ParamType} (h : TypeText s t) : plainText s := by
  induction h with
  | elementary h => exact elementary_plain h
  | array _ ih => exact plainText_append ih (plainText_of_all (by decide))
  | fixedArray _ hd ih =>
    exact plainText_append (plainText_append (plainText_append ih (plainText_of_all (by decide))) (numberText_plain hd))
      (plainText_of_all (by decide))

theorem unopened_plainText {s : Str} (h : Unopened s) : plainText s := by
  induction h with
  | bare => exact plainText_of_all (by decide)
  | number h => exact plainText_append (numberText_plain h) (plainText_of_all (by decide))
  | array _ ih => exact plainText_append ih (plainText_of_all (by decide))
  | fixedArray _ hd ih =>
    exact plainText_append (plainText_append (plainText_append ih (plainText_of_all (by decide))) (numberText_plain hd))
      (plainText_of_all (by decide))

theorem members_plainText {ps : List Str} {ts : List ParamType} (h : Members ps ts) : ∀ p ∈ ps, plainText p := by
  induction h with
  | nil => simp
  | skip _ ih =>
    intro p hp
    rcases List.mem_cons.1 hp with rfl | hp
    · intro c hc; simp at hc
    · exact ih p hp
  | cons ht _ ih =>
    intro p hp
    rcases List.mem_cons.1 hp with rfl | hp
    · exact typeText_plainText ht
    · exact ih p hp

theorem typeText_ne_nil {t : ParamType} : ¬ TypeText [] t := by
  intro h
  have := (typeText_plain (s := []) (by simp) t).1 h
  rw [← readElementary_iff] at this
  revert this
  simp [readElementary, lit, startsWith]

theorem unopened_ne_nil : ¬ Unopened [] := fun h => by have := unopened_last h; simp at this

theorem plainText_outcome {p : Str} (ha : ascii p) (hp : plainText p) : TextOutcome TypeText Unopened p :=
  textOutcome _ p rfl ha (fun h => (hp _ h).2.1 rfl)

theorem seqRead_ok {ps : List Str} (ha : ∀ p ∈ ps, ascii p) (hp : ∀ p ∈ ps, plainText p) :
    ∀ ts, seqRead ps = .ok ts ↔ Members ps ts := by
  induction ps with
  | nil =>
    intro ts
    constructor
    · intro h; cases h; exact .nil
    · intro h; cases h; rfl
  | cons p ps ih =>
    intro ts
    have ih := ih (fun x hx => ha x (by simp [hx])) (fun x hx => hp x (by simp [hx]))
    by_cases he : p = []
    · subst he
      rw [show seqRead ([] :: ps) = seqRead ps by rw [seqRead, if_pos rfl], ih]
      constructor
      · exact .skip
      · intro h
        cases h with
        | skip h => exact h
        | cons h _ => exact absurd h typeText_ne_nil
    · obtain ⟨o1, _⟩ := plainText_outcome (ha p (by simp)) (hp p (by simp))
      rw [seqRead, if_neg he, Res.bind_eq_ok]
      constructor
      · rintro ⟨t, h1, h2⟩
        rw [Res.bind_eq_ok] at h2
        obtain ⟨us, h2, h3⟩ := h2
        cases h3
        exact .cons ((o1 t).1 h1) ((ih us).1 h2)
      · intro h
        cases h with
        | skip _ => exact absurd rfl he
        | cons h1 h2 =>
          refine ⟨_, (o1 _).2 h1, ?_⟩
          rw [(ih _).2 h2]; rfl

theorem seqRead_panic {ps : List Str} (ha : ∀ p ∈ ps, ascii p) (hp : ∀ p ∈ ps, plainText p) :
    seqRead ps = .panic ↔ ∃ xs p ys ts, ps = xs ++ p :: ys ∧ Members xs ts ∧ Unopened p := by
  induction ps with
  | nil => simp [seqRead]
  | cons p ps ih =>
    have ih := ih (fun x hx => ha x (by simp [hx])) (fun x hx => hp x (by simp [hx]))
    by_cases he : p = []
    · subst he
      rw [show seqRead ([] :: ps) = seqRead ps by rw [seqRead, if_pos rfl], ih]
      constructor
      · rintro ⟨xs, p, ys, ts, rfl, h1, h2⟩
        exact ⟨[] :: xs, p, ys, ts, rfl, .skip h1, h2⟩
      · rintro ⟨xs, p, ys, ts, h, h1, h2⟩
        cases xs with
        | nil =>
          obtain ⟨rfl, rfl⟩ := List.cons.inj h
          exact absurd h2 unopened_ne_nil
        | cons x xs =>
          obtain ⟨rfl, rfl⟩ := List.cons.inj h
          cases h1 with
          | skip h1 => exact ⟨xs, p, ys, ts, rfl, h1, h2⟩
          | cons h1 _ => exact absurd h1 typeText_ne_nil
    · obtain ⟨o1, o2⟩ := plainText_outcome (ha p (by simp)) (hp p (by simp))
      rw [seqRead, if_neg he]
      constructor
      · intro h
        cases hr : read p with
        | panic => exact ⟨[], p, ps, [], rfl, .nil, o2.1 hr⟩
        | err e => rw [hr] at h; cases h
        | ok t =>
          rw [hr, Res.ok_bind] at h
          have hps : seqRead ps = .panic := by
            cases hq : seqRead ps with
            | panic => rfl
            | ok us => rw [hq] at h; cases h
            | err e => rw [hq] at h; cases h
          obtain ⟨xs, q, ys, ts, rfl, h1, h2⟩ := ih.1 hps
          exact ⟨p :: xs, q, ys, t :: ts, rfl, .cons ((o1 t).1 hr) h1, h2⟩
      · rintro ⟨xs, q, ys, ts, h, h1, h2⟩
        cases xs with
        | nil =>
          obtain ⟨rfl, rfl⟩ := List.cons.inj h
          rw [o2.2 h2]; rfl
        | cons x xs =>
          obtain ⟨rfl, rfl⟩ := List.cons.inj h
          cases h1 with
          | skip _ => exact absurd rfl he
          | cons h1 h3 =>
            rw [(o1 _).2 h1, Res.ok_bind, ih.2 ⟨xs, q, ys, _, rfl, h3, h2⟩]; rfl

/-- every text is pieces separated by commas -/
theorem pieces_exist : ∀ r : Str, ∃ p ps, r = commaSeparated (p :: ps) ∧ ∀ q ∈ p :: ps, (∀ c ∈ q, c ≠ ',' ∧ c ∈ r)
  | [] => ⟨[], [], by rw [commaSeparated_one], by simp⟩
  | c :: r => by
    obtain ⟨p, ps, h, hp⟩ := pieces_exist r
    by_cases hc : c = ','
    · subst hc
      refine ⟨[], p :: ps, by rw [commaSeparated_cons, ← h]; rfl, ?_⟩
      intro q hq x hx
      rcases List.mem_cons.1 hq with rfl | hq
      · simp at hx
      · exact ⟨(hp q hq x hx).1, by simp [(hp q hq x hx).2]⟩
    · refine ⟨c :: p, ps, ?_, ?_⟩
      · cases ps with
        | nil => rw [commaSeparated_one] at h ⊢; rw [h]
        | cons q ps => rw [commaSeparated_cons] at h ⊢; rw [h]; rfl
      · intro q hq x hx
        rcases List.mem_cons.1 hq with rfl | hq
        · rcases List.mem_cons.1 hx with rfl | hx
          · exact ⟨hc, by simp⟩
          · exact ⟨(hp p (by simp) x hx).1, by simp [(hp p (by simp) x hx).2]⟩
        · exact ⟨(hp q (by simp [hq]) x hx).1, by simp [(hp q (by simp [hq]) x hx).2]⟩

theorem tuple_last (ps : List Str) : ("(".toList ++ commaSeparated ps ++ ")".toList).getLast? = some ')' :=
  List.getLast?_concat ..

theorem flatText_suffix (q num : Str) (hb : '[' ∉ num) (t : ParamType) :
    FlatText (q ++ '[' :: (num ++ [']'])) t ↔
      (num = [] ∧ ∃ u, FlatText q u ∧ t = .array u) ∨ (∃ u n, FlatText q u ∧ numberText num n ∧ t = .fixedArray u n) := by
  constructor
  · intro h
    generalize hs : q ++ '[' :: (num ++ [']']) = s at h
    have hl : s.getLast? = some ']' := by rw [← hs]; exact last_suffix q num
    cases h with
    | elementary h => exact absurd hl (elementary_last h)
    | tuple _ => rw [tuple_last] at hl; exact absurd hl (by decide)
    | array h =>
      rw [array_text] at hs
      obtain ⟨rfl, rfl⟩ := suffix_inj hb (by simp) hs
      exact Or.inl ⟨rfl, _, h, rfl⟩
    | fixedArray h hd =>
      rw [suffix_text] at hs
      obtain ⟨rfl, rfl⟩ := suffix_inj hb (fun hc => (numberText_ne hd hc).1 rfl) hs
      exact Or.inr ⟨_, _, h, hd, rfl⟩
  · rintro (⟨rfl, u, h, rfl⟩ | ⟨u, n, h, hd, rfl⟩)
    · rw [← array_text]; exact .array h
    · rw [← suffix_text]; exact .fixedArray h hd

theorem flatUnopened_suffix (q num : Str) (hb : '[' ∉ num) :
    FlatUnopened (q ++ '[' :: (num ++ [']'])) ↔ FlatUnopened q ∧ (num = [] ∨ ∃ n, numberText num n) := by
  constructor
  · intro h
    generalize hs : q ++ '[' :: (num ++ [']']) = s at h
    have hl : s.getLast? = some ']' := by rw [← hs]; exact last_suffix q num
    have hmem : '[' ∈ s := by rw [← hs]; simp
    cases h with
    | bare => exact absurd hmem (by decide)
    | number hd =>
      simp only [List.mem_append] at hmem
      rcases hmem with h | h
      · exact absurd rfl (numberText_ne hd h).1
      · exact absurd h (by decide)
    | tuple _ _ _ => rw [tuple_last] at hl; exact absurd hl (by decide)
    | array h =>
      rw [array_text] at hs
      obtain ⟨rfl, rfl⟩ := suffix_inj hb (by simp) hs
      exact ⟨h, Or.inl rfl⟩
    | fixedArray h hd =>
      rw [suffix_text] at hs
      obtain ⟨rfl, rfl⟩ := suffix_inj hb (fun hc => (numberText_ne hd hc).1 rfl) hs
      exact ⟨h, Or.inr ⟨_, hd⟩⟩
  · rintro ⟨h, rfl | ⟨n, hd⟩⟩
    · rw [← array_text]; exact .array h
    · rw [← suffix_text]; exact .fixedArray h hd

theorem no_suffix {p : Str} (hb : '[' ∉ p) (q num : Str) : p ++ [']'] ≠ q ++ '[' :: (num ++ [']']) := by
  intro e
  have : '[' ∈ p ++ [']'] := by rw [e]; simp
  simp only [List.mem_append, List.mem_singleton] at this
  rcases this with h | h
  · exact hb h
  · revert h; decide

theorem flatText_unopened {p : Str} (hb : '[' ∉ p) (t : ParamType) : ¬ FlatText (p ++ [']']) t := by
  intro h
  generalize hs : p ++ [']'] = s at h
  have hl : s.getLast? = some ']' := by rw [← hs]; exact List.getLast?_concat ..
  cases h with
  | elementary h => exact absurd hl (elementary_last h)
  | tuple _ => rw [tuple_last] at hl; exact absurd hl (by decide)
  | array _ => rw [array_text] at hs; exact no_suffix hb _ _ hs
  | fixedArray _ _ => rw [suffix_text] at hs; exact no_suffix hb _ _ hs

theorem flatUnopened_start {p : Str} (hb : '[' ∉ p) : FlatUnopened (p ++ [']']) ↔ p = [] ∨ ∃ n, numberText p n := by
  constructor
  · intro h
    generalize hs : p ++ [']'] = s at h
    have hl : s.getLast? = some ']' := by rw [← hs]; exact List.getLast?_concat ..
    cases h with
    | bare =>
      left
      have := congrArg List.length hs
      simp at this
      exact this
    | number hd => exact Or.inr ⟨_, by rw [List.append_cancel_right hs]; exact hd⟩
    | tuple _ _ _ => rw [tuple_last] at hl; exact absurd hl (by decide)
    | array _ => rw [array_text] at hs; exact absurd hs (no_suffix hb _ _)
    | fixedArray _ _ => rw [suffix_text] at hs; exact absurd hs (no_suffix hb _ _)
  · rintro (rfl | ⟨n, h⟩)
    · exact .bare
    · exact .number h

theorem flatText_plain {s : Str} (h1 : s.getLast? ≠ some ')') (h : s.getLast? ≠ some ']') (t : ParamType) :
    FlatText s t ↔ Elementary s t := by
  constructor
  · intro ht
    cases ht with
    | elementary h => exact h
    | tuple _ => exact absurd (tuple_last _) h1
    | array _ => exact absurd (by rw [array_text]; exact last_suffix _ _) h
    | fixedArray _ _ => exact absurd (by rw [suffix_text]; exact last_suffix _ _) h
  · exact .elementary

theorem flatUnopened_last {s : Str} (h : FlatUnopened s) : s.getLast? = some ']' ∨ s.getLast? = some ')' := by
  cases h with
  | bare => exact Or.inl rfl
  | number _ => exact Or.inl (List.getLast?_concat ..)
  | tuple _ _ _ => exact Or.inr (tuple_last _)
  | array _ => rw [array_text]; exact Or.inl (last_suffix _ _)
  | fixedArray _ _ => rw [suffix_text]; exact Or.inl (last_suffix _ _)

/-- a text ending in `)` that is accepted or panics is a tuple -/
theorem flat_close {s : Str} (hl : s.getLast? = some ')') :
    (∀ t, FlatText s t ↔ ∃ ps ts, s = "(".toList ++ commaSeparated ps ++ ")".toList ∧ Members ps ts ∧ t = .tuple ts) ∧
    (FlatUnopened s ↔ ∃ ps p qs ts, s = "(".toList ++ commaSeparated (ps ++ p :: qs) ++ ")".toList ∧ Members ps ts ∧
      Unopened p ∧ ∀ q ∈ qs, plainText q) := by
  constructor
  · intro t
    constructor
    · intro h
      cases h with
      | elementary h => exact absurd (List.mem_of_getLast? hl) (fun hc => (elementary_plain h _ hc).2.1 rfl)
      | tuple h => exact ⟨_, _, rfl, h, rfl⟩
      | array _ => rw [array_text, last_suffix] at hl; exact absurd hl (by decide)
      | fixedArray _ _ => rw [suffix_text, last_suffix] at hl; exact absurd hl (by decide)
    · rintro ⟨ps, ts, rfl, h, rfl⟩
      exact .tuple h
  · constructor
    · intro h
      cases h with
      | bare => exact absurd hl (by decide)
      | number _ => rw [show ∀ d : Str, (d ++ "]".toList).getLast? = some ']' from fun d => List.getLast?_concat ..] at hl; exact absurd hl (by decide)
      | tuple h1 h2 h3 => exact ⟨_, _, _, _, rfl, h1, h2, h3⟩
      | array _ => rw [array_text, last_suffix] at hl; exact absurd hl (by decide)
      | fixedArray _ _ => rw [suffix_text, last_suffix] at hl; exact absurd hl (by decide)
    · rintro ⟨ps, p, qs, ts, rfl, h1, h2, h3⟩
      exact .tuple h1 h2 h3

/-- pieces of an ASCII text are ASCII -/
theorem ascii_pieces : ∀ {ps : List Str}, ascii (commaSeparated ps) → ∀ p ∈ ps, ascii p
  | [], _, p, hp => by simp at hp
  | [q], h, p, hp => by
    rw [commaSeparated_one] at h
    simp only [List.mem_singleton] at hp
    subst hp; exact h
  | q :: r :: ps, h, p, hp => by
    rw [commaSeparated_cons] at h
    rcases List.mem_cons.1 hp with rfl | hp
    · exact fun c hc => h c (by simp [hc])
    · exact ascii_pieces (fun c hc => h c (by simp [hc])) p hp

theorem flatOutcome : ∀ (n : Nat) (s : Str), s.length = n → ascii s → s.count '(' ≤ 1 → s.count ')' ≤ 1 →
    TextOutcome FlatText FlatUnopened s := by
  intro n
  induction n using Nat.strongRecOn with
  | _ n ih =>
  intro s hn ha hp1 hp2
  by_cases hl : s.getLast? = some ']'
  · obtain ⟨p, rfl⟩ : ∃ p, s = p ++ [']'] := List.getLast?_eq_some_iff.1 hl
    have hap : ascii p := fun c hc => ha c (by simp [hc])
    by_cases hb : '[' ∈ p
    · obtain ⟨q, num, rfl, hnum⟩ := last_bracket p hb
      have haq : ascii q := fun c hc => hap c (by simp [hc])
      have hanum : ascii num := fun c hc => hap c (by simp [hc])
      simp only [List.count_append] at hp1 hp2
      rw [show q ++ '[' :: num ++ [']'] = q ++ '[' :: (num ++ [']']) by simp]
      exact outcome_suffix haq hanum hnum (flatText_suffix q num hnum) (flatUnopened_suffix q num hnum)
        (ih q.length (by rw [← hn]; simp) q rfl haq (by omega) (by omega))
    · exact outcome_start hap hb (flatText_unopened hb) (flatUnopened_start hb)
  · by_cases hl' : s.getLast? = some ')'
    · obtain ⟨f1, f2⟩ := flat_close hl'
      obtain ⟨r, rfl⟩ : ∃ r, s = r ++ [')'] := List.getLast?_eq_some_iff.1 hl'
      by_cases hs : startsWith (lit "(") (r ++ [')']) = true
      · obtain ⟨r, rfl⟩ : ∃ r', r = '(' :: r' := by
          cases r with
          | nil => exact absurd hs (by decide)
          | cons c r =>
            simp [lit, startsWith] at hs
            exact ⟨r, by rw [← hs]⟩
        obtain ⟨p, ps, rfl, hps⟩ := pieces_exist r
        have hpl : ∀ q ∈ p :: ps, plainText q := by
          intro q hq c hc
          obtain ⟨h1, h2⟩ := hps q hq c hc
          refine ⟨?_, ?_, h1⟩
          · rintro rfl
            have := List.count_pos_iff.2 h2
            simp only [List.cons_append, List.count_cons, List.count_append] at hp1
            simp at hp1; omega
          · rintro rfl
            have := List.count_pos_iff.2 h2
            simp only [List.cons_append, List.count_cons, List.count_append] at hp2
            simp at hp2; omega
        have hasc : ∀ q ∈ p :: ps, ascii q := ascii_pieces (fun c hc => ha c (by simp [hc]))
        have e : '(' :: commaSeparated (p :: ps) ++ [')'] = "(".toList ++ commaSeparated (p :: ps) ++ ")".toList := rfl
        have hr := read_pieces hasc hpl
        rw [e] at f1 f2 ⊢
        constructor
        · intro t
          rw [f1, hr, Res.bind_eq_ok]
          constructor
          · rintro ⟨ts, h, h'⟩
            cases h'
            exact ⟨_, ts, rfl, (seqRead_ok hasc hpl ts).1 h, rfl⟩
          · rintro ⟨qs, ts, h, h1, rfl⟩
            have := read_pieces (ps := qs) (by
              apply ascii_pieces
              have : commaSeparated (p :: ps) = commaSeparated qs := by simpa using h
              rw [← this]
              exact ascii_commaSeparated _ hasc) (members_plainText h1)
            rw [← h, hr] at this
            have h2 := (seqRead_ok (ps := qs) (by
              apply ascii_pieces
              have : commaSeparated (p :: ps) = commaSeparated qs := by simpa using h
              rw [← this]
              exact ascii_commaSeparated _ hasc) (members_plainText h1) ts).2 h1
            rw [h2, Res.ok_bind, Res.bind_eq_ok] at this
            exact this
        · rw [f2, hr]
          constructor
          · intro h
            have : seqRead (p :: ps) = .panic := by
              cases hq : seqRead (p :: ps) with
              | panic => rfl
              | ok us => rw [hq] at h; cases h
              | err e => rw [hq] at h; cases h
            obtain ⟨xs, q, ys, ts, h3, h4, h5⟩ := (seqRead_panic hasc hpl).1 this
            exact ⟨xs, q, ys, ts, by rw [h3], h4, h5, fun y hy => hpl y (by rw [h3]; simp [hy])⟩
          · rintro ⟨xs, q, ys, ts, h, h1, h2, h3⟩
            have ha' : ∀ x ∈ xs ++ q :: ys, ascii x := by
              apply ascii_pieces
              have : commaSeparated (p :: ps) = commaSeparated (xs ++ q :: ys) := by simpa using h
              rw [← this]
              exact ascii_commaSeparated _ hasc
            have hp' : ∀ x ∈ xs ++ q :: ys, plainText x := by
              intro x hx
              rcases List.mem_append.1 hx with hx | hx
              · exact members_plainText h1 x hx
              · rcases List.mem_cons.1 hx with rfl | hx
                · exact unopened_plainText h2
                · exact h3 x hx
            rw [← hr, h, read_pieces ha' hp', (seqRead_panic ha' hp').2 ⟨xs, q, ys, ts, rfl, h1, h2⟩]
            rfl
      · have hr : read (r ++ [')']) = .err (.invalidName (r ++ [')'])) := by
          rw [read_eq, readStep, if_pos hl', if_pos (by simpa using hs)]
        have hno : ∀ ps : List Str, r ++ [')'] ≠ "(".toList ++ commaSeparated ps ++ ")".toList := by
          intro ps h
          apply hs
          rw [h]
          simp [lit, startsWith]
        constructor
        · intro t
          rw [hr, f1]
          refine ⟨nofun, ?_⟩
          rintro ⟨ps, _, h, _⟩
          exact absurd h (hno ps)
        · rw [hr, f2]
          refine ⟨nofun, ?_⟩
          rintro ⟨ps, p, qs, _, h, _⟩
          exact absurd h (hno _)
    · exact outcome_plain hl' hl (flatText_plain hl' hl) (fun h => (flatUnopened_last h).elim hl hl')

/-! ### errors of `read` -/

/-- the errors of `read` -/
def OnlyNames {α : Type} (x : Res α) : Prop := ∀ e, x = .err e → e = .parseInt ∨ ∃ n, e = .invalidName n

theorem onlyNames_ok {α : Type} (a : α) : OnlyNames (Res.ok a) := fun _ h => nomatch h

theorem onlyNames_panic {α : Type} : OnlyNames (Res.panic : Res α) := fun _ h => nomatch h

theorem onlyNames_bind {α β : Type} {x : Res α} {f : α → Res β} (h : OnlyNames x) (hf : ∀ a, OnlyNames (f a)) :
    OnlyNames (x >>= f) := by
  cases x with
  | ok a => exact hf a
  | err e => intro e' he; cases he; exact h e rfl
  | panic => exact onlyNames_panic

theorem onlyNames_ite {α : Type} {c : Prop} [Decidable c] {x y : Res α} (hx : OnlyNames x) (hy : OnlyNames y) :
    OnlyNames (if c then x else y) := by
  split
  · exact hx
  · exact hy

theorem onlyNames_slice (s : Str) (a b : Nat) : OnlyNames (strSlice s a b) := by
  unfold strSlice
  repeat' split
  all_goals first | exact onlyNames_panic | exact onlyNames_ok _

theorem onlyNames_index {α : Type} (v : List α) (i : Int) : OnlyNames (indexVec v i) := by
  unfold indexVec
  repeat' split
  all_goals first | exact onlyNames_panic | exact onlyNames_ok _

theorem onlyNames_name {α : Type} (n : Str) : OnlyNames (Res.err (.invalidName n) : Res α) := by
  intro e h; cases h; exact Or.inr ⟨n, rfl⟩

theorem onlyNames_parse (s : Str) : OnlyNames (parseUsize s) := by
  unfold parseUsize
  simp only []
  split
  · exact onlyNames_ok _
  · intro e h; cases h; exact Or.inl rfl

theorem onlyNames_elementary (s : Str) : OnlyNames (readElementary s) := by
  unfold readElementary
  iterate 7 refine onlyNames_ite (onlyNames_ok _) ?_
  iterate 3 refine onlyNames_ite (onlyNames_bind (onlyNames_parse _) fun _ => onlyNames_ok _) ?_
  exact onlyNames_name _

theorem onlyNames_close {rec : Str → Res ParamType} (hr : ∀ s, OnlyNames (rec s)) (name rest : Str) (pos : Nat)
    (st : ReadSt) : OnlyNames (readClose rec name rest pos st) := by
  unfold readClose
  simp only []
  refine onlyNames_ite (onlyNames_name _) (onlyNames_bind (onlyNames_slice _ _ _) fun item => ?_)
  refine onlyNames_ite (onlyNames_ok _) (onlyNames_ite ?_ ?_)
  · exact onlyNames_bind (hr _) fun _ => onlyNames_ok _
  · refine onlyNames_bind (onlyNames_slice _ _ _) fun _ => onlyNames_bind (hr _) fun _ => onlyNames_ite ?_ (onlyNames_ok _)
    exact onlyNames_bind (onlyNames_index _ _) fun _ => onlyNames_ok _

theorem onlyNames_comma {rec : Str → Res ParamType} (hr : ∀ s, OnlyNames (rec s)) (name : Str) (pos : Nat)
    (st : ReadSt) : OnlyNames (readComma rec name pos st) := by
  unfold readComma
  refine onlyNames_bind (onlyNames_slice _ _ _) fun item => ?_
  refine onlyNames_ite (onlyNames_ok _) (onlyNames_ite ?_ (onlyNames_ite ?_ (onlyNames_ok _)))
  · exact onlyNames_bind (hr _) fun _ => onlyNames_ok _
  · exact onlyNames_bind (hr _) fun _ => onlyNames_bind (onlyNames_index _ _) fun _ => onlyNames_ok _

theorem onlyNames_loop {rec : Str → Res ParamType} (hr : ∀ s, OnlyNames (rec s)) (name : Str) :
    ∀ (cs : Str) (pos skip : Nat) (st : ReadSt), OnlyNames (readLoop rec name cs pos skip st)
  | [], _, _, _ => by unfold readLoop; exact onlyNames_ok _
  | _ :: cs, pos, skip + 1, st => by unfold readLoop; exact onlyNames_loop hr name cs _ _ _
  | c :: cs, pos, 0, st => by
    unfold readLoop
    refine onlyNames_ite (onlyNames_loop hr name cs _ _ _) (onlyNames_ite ?_ (onlyNames_ite ?_ (onlyNames_loop hr name cs _ _ _)))
    · exact onlyNames_bind (onlyNames_close hr _ _ _ _) fun r => onlyNames_loop hr name cs _ _ _
    · exact onlyNames_bind (onlyNames_comma hr _ _ _) fun r => onlyNames_loop hr name cs _ _ _

theorem onlyNames_sub (a b : Nat) : OnlyNames (indexSub a b) := by
  unfold indexSub
  split
  all_goals first | exact onlyNames_panic | exact onlyNames_ok _

theorem onlyNames_step {rec : Str → Res ParamType} (hr : ∀ s, OnlyNames (rec s)) (name : Str) :
    OnlyNames (readStep rec name) := by
  unfold readStep
  refine onlyNames_ite (onlyNames_ite (onlyNames_name _) ?_) (onlyNames_ite ?_ (onlyNames_elementary _))
  · exact onlyNames_bind (onlyNames_loop hr _ _ _ _ _) fun _ => onlyNames_ok _
  · simp only []
    refine onlyNames_ite ?_ ?_
    · exact onlyNames_bind (onlyNames_sub _ _) fun _ => onlyNames_bind (onlyNames_slice _ _ _) fun _ =>
        onlyNames_bind (hr _) fun _ => onlyNames_ok _
    · exact onlyNames_bind (onlyNames_parse _) fun _ => onlyNames_bind (onlyNames_sub _ _) fun _ =>
        onlyNames_bind (onlyNames_sub _ _) fun _ => onlyNames_bind (onlyNames_slice _ _ _) fun _ =>
        onlyNames_bind (hr _) fun _ => onlyNames_ok _

theorem onlyNames_read (s : Str) : OnlyNames (read s) := by
  unfold read
  generalize byteLen s + 1 = n
  induction n generalizing s with
  | zero => exact onlyNames_panic
  | succ n ih => exact onlyNames_step ih s

end Ethabi

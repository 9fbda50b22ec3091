import Verif.Proofs.Heck
/-!
# Where words start
-/
namespace Ethabi.Heck
open Names

/-- the letters of a word, the first one marked -/
def marksOf : Str → List (Bool × Char)
  | [] => []
  | c :: w => (true, c) :: w.map fun d => (false, d)

theorem marksOf_append (w : Str) (c : Char) : marksOf (w ++ [c]) = marksOf w ++ [(w.isEmpty, c)] := by
  cases w <;> simp [marksOf]

/-- the state of the loop in terms of the characters before -/
structure Ctx (m : WordMode) (cur : Str) (prev last : Option Char) (s : Str) : Prop where
  digit : ∀ c t, s = c :: t → c.isAlpha = false → c ≠ '_' →
    (m = .lowercase ↔ last.any Char.isLower = true) ∧ (m = .uppercase ↔ last.any Char.isUpper = true)
  fresh : cur = [] → m = .boundary ∧ ∀ c t, s = c :: t → c ≠ '_' → startsWord prev last c t = true
  going : cur ≠ [] → prev.any Char.isAlphanum = true ∧ ∀ c t, s = c :: t → c.isUpper = true →
    last.any Char.isLower = false ∧ (m = .uppercase ↔ last.any Char.isUpper = true)

theorem upper_not_lower {c : Char} (h : c.isUpper = true) : c.isLower = false := by
  have key : ∀ n, n < 128 → (Char.ofNat n).isUpper = true → (Char.ofNat n).isLower = false := by decide +kernel
  have := key c.toNat (isUpper_lt h)
  rw [Char.ofNat_toNat] at this
  exact this h

theorem Ctx.starts {m : WordMode} {cur : Str} {prev last : Option Char} {c : Char} {t : Str} (h : Ctx m cur prev last (c :: t))
    (hu : c ≠ '_') : startsWord prev last c t = (cur.isEmpty || (decide (m = .uppercase) && c.isUpper && t.head?.any Char.isLower)) := by
  cases cur with
  | nil => rw [(h.fresh rfl).2 c t rfl hu]; rfl
  | cons a cur =>
    obtain ⟨h1, h2⟩ := h.going (by simp)
    have h2 := h2 c t rfl
    rw [startsWord, h1]
    cases hc : c.isUpper with
    | false => simp
    | true =>
      obtain ⟨h3, h4⟩ := h2 hc
      rw [h3]
      cases hl : last.any Char.isUpper with
      | false =>
        have : m ≠ .uppercase := fun e => by rw [h4.1 e] at hl; exact absurd hl (by decide)
        simp [this]
      | true => simp [h4.2 hl]

/-- the mode after `c` and the last letter after `c` -/
theorem Ctx.after {m : WordMode} {cur : Str} {prev last : Option Char} {c : Char} {t : Str} (h : Ctx m cur prev last (c :: t))
    (hu : c ≠ '_') :
    (m.next c = .lowercase ↔ (if c.isAlpha then some c else last).any Char.isLower = true) ∧
    (m.next c = .uppercase ↔ (if c.isAlpha then some c else last).any Char.isUpper = true) := by
  cases hl : c.isLower with
  | true =>
    have hup : c.isUpper = false := by
      cases hup : c.isUpper with
      | false => rfl
      | true => rw [upper_not_lower hup] at hl; exact absurd hl (by decide)
    simp [WordMode.next, hl, hup, Char.isAlpha]
  | false =>
    cases hup : c.isUpper with
    | true => simp [WordMode.next, hl, hup, Char.isAlpha]
    | false =>
      have ha : c.isAlpha = false := by simp [Char.isAlpha, hl, hup]
      have := h.digit c t rfl ha hu
      simpa [WordMode.next, hl, hup, ha] using this

theorem pieces_marks (s : Str) : ∀ m cur prev last, (∀ c ∈ s, Part c) → Inv m cur s → Ctx m cur prev last s →
    (pieces m cur s).flatMap marksOf = marksOf cur ++ marked prev last s := by
  induction s with
  | nil =>
    intro m cur prev last _ hi _
    have : cur = [] := Decidable.byContradiction fun hne => by
      obtain ⟨c, t, h, _⟩ := hi.goes_on hne; cases h
    subst this; simp [pieces, marked, marksOf]
  | cons c rest ih =>
    intro m cur prev last hp hi hx
    have hp' : ∀ d ∈ rest, Part d := fun d hd => hp d (List.mem_cons_of_mem _ hd)
    by_cases hu : c = '_'
    · subst hu
      have hcur : cur = [] := Decidable.byContradiction fun hne => by
        obtain ⟨d, t, h, h'⟩ := hi.goes_on hne
        cases h; exact h' rfl
      subst hcur
      have hm := (hx.fresh rfl).1
      subst hm
      rw [pieces.eq_def]
      simp only [if_true, List.isEmpty_nil]
      rw [marked, if_neg (by decide), ih .boundary [] (some '_') none hp' (Inv.start rest)]
      refine ⟨?_, ?_, ?_⟩
      · intro d t _ _ _; simp
      · intro _; exact ⟨rfl, fun d t _ _ => by simp [startsWord, underscore_not_alnum]⟩
      · intro h; exact absurd rfl h
    · have hc : c.isAlphanum = true := (hp c List.mem_cons_self).resolve_right hu
      have hst := hx.starts hu
      have haft := hx.after hu
      rw [marked, if_pos hc, hst]
      have hcur : ∀ d ∈ cur ++ [c], Char.isAlphanum d = true := by
        intro d hd
        rcases List.mem_append.1 hd with hd | hd
        · exact hi.alnum d hd
        · rw [List.mem_singleton] at hd; subst hd; exact hc
      rw [pieces.eq_def]
      simp only [if_neg hu]
      cases rest with
      | nil => simp [marksOf_append, marked]
      | cons d rest' =>
        dsimp only
        by_cases h1 : (decide (d = '_') || (decide (m.next c = .lowercase) && d.isUpper)) = true
        · rw [if_pos h1]
          have hdl : d.isLower = false := by
            rw [Bool.or_eq_true, Bool.and_eq_true] at h1
            rcases h1 with h1 | h1
            · rw [of_decide_eq_true h1]; decide
            · exact upper_not_lower h1.2
          rw [List.flatMap_cons, ih .boundary [] (some c) (if c.isAlpha then some c else last) hp' (Inv.start _)]
          · have : (decide (m = .uppercase) && c.isUpper && (d :: rest').head?.any Char.isLower) = false := by simp [hdl]
            rw [this, Bool.or_false, marksOf_append, List.append_assoc]; rfl
          · refine ⟨?_, ?_, ?_⟩
            · intro d' t e ha hne
              cases e
              rw [Bool.or_eq_true, Bool.and_eq_true] at h1
              rcases h1 with h1 | h1
              · exact absurd (of_decide_eq_true h1) hne
              · rw [Char.isAlpha, h1.2] at ha; simp at ha
            · intro _
              refine ⟨rfl, fun d' t e hne => ?_⟩
              cases e
              rw [Bool.or_eq_true, Bool.and_eq_true] at h1
              rcases h1 with h1 | h1
              · exact absurd (of_decide_eq_true h1) hne
              · rw [startsWord, h1.2, haft.1.1 (of_decide_eq_true h1.1)]; simp
            · intro h; exact absurd rfl h
        · rw [if_neg h1]
          by_cases h2 : (decide (m = .uppercase) && c.isUpper && d.isLower) = true
          · rw [if_pos h2]
            simp only [Bool.and_eq_true, decide_eq_true_eq] at h2
            obtain ⟨⟨h2, h3⟩, h4⟩ := h2
            have hdu : d.isUpper = false := by
              cases hup : d.isUpper with
              | false => rfl
              | true => rw [upper_not_lower hup] at h4; exact absurd h4 (by decide)
            have ha : c.isAlpha = true := by simp [Char.isAlpha, h3]
            rw [List.flatMap_cons, ih .boundary [c] (some c) (if c.isAlpha then some c else last) hp']
            · simp [marksOf, h2, h3, h4]
            · refine ⟨?_, ?_, ?_⟩
              · intro d' hd'; rw [List.mem_singleton] at hd'; subst hd'; exact hc
              · intro _
                refine ⟨d, rest', rfl, ?_⟩
                intro e; subst e; exact absurd h4 (by decide)
              · intro _; simp
            · refine ⟨?_, ?_, ?_⟩
              · intro d' t e hna _
                cases e
                rw [Char.isAlpha, h4] at hna; simp at hna
              · intro e; simp at e
              · intro _
                refine ⟨by simpa using hc, fun d' t e hup => ?_⟩
                cases e
                rw [hdu] at hup; exact absurd hup (by decide)
          · rw [if_neg h2, ih (m.next c) (cur ++ [c]) (some c) (if c.isAlpha then some c else last) hp']
            · have : (decide (m = .uppercase) && c.isUpper && (d :: rest').head?.any Char.isLower) = false := by
                simpa using h2
              rw [this, Bool.or_false, marksOf_append]; simp
            · refine ⟨hcur, ?_, by simp⟩
              intro _
              refine ⟨d, rest', rfl, ?_⟩
              intro e; subst e; simp at h1
            · refine ⟨fun _ _ _ _ _ => haft, fun e => by simp at e, ?_⟩
              intro _
              refine ⟨by simpa using hc, fun d' t e hup => ⟨?_, haft.2⟩⟩
              cases e
              cases hl : (if c.isAlpha = true then some c else last).any Char.isLower with
              | false => rfl
              | true =>
                refine absurd ?_ h1
                rw [hup, decide_eq_true (haft.1.2 hl)]; simp

theorem pieces_marked (s : Str) (h : ∀ c ∈ s, Part c) : (pieces .boundary [] s).flatMap marksOf = marked none none s := by
  rw [pieces_marks s .boundary [] none none h (Inv.start s)]
  · rfl
  · exact ⟨fun _ _ _ _ _ => by simp, fun _ => ⟨rfl, fun _ _ _ _ => by simp [startsWord]⟩, fun h => absurd rfl h⟩

theorem marked_dollar (s : Str) : marked (some '$') none s = marked none none s := by
  cases s with
  | nil => rfl
  | cons c s => simp [marked, startsWord, dollar_not_alnum]

theorem unicodeWords_marks (s : Str) : ∀ prev last w ws, unicodeWords s = w :: ws →
    marked prev last s = marked prev last w ++ ws.flatMap (marked none none) := by
  induction s with
  | nil => intro prev last w ws h; cases h; rfl
  | cons c s ih =>
    intro prev last w ws h
    have hne : unicodeWords s ≠ [] := by
      cases s with
      | nil => simp [unicodeWords]
      | cons d s => rw [unicodeWords]; split
                    · simp
                    · split <;> simp
    rw [unicodeWords] at h
    by_cases hd : c = '$'
    · rw [if_pos hd] at h
      cases h
      subst hd
      have e : marked prev last ('$' :: s) = marked (some '$') none s := by
        rw [marked, if_neg (by decide)]
      rw [e, marked_dollar]
      obtain ⟨v, vs, hv⟩ := List.exists_cons_of_ne_nil hne
      rw [hv, ih none none v vs hv]
      rfl
    · rw [if_neg hd] at h
      obtain ⟨v, vs, hv⟩ := List.exists_cons_of_ne_nil hne
      rw [hv] at h
      cases h
      have hh : s.head?.any Char.isLower = v.head?.any Char.isLower := by
        cases s with
        | nil => cases hv; rfl
        | cons e s =>
          rw [unicodeWords] at hv
          by_cases he : e = '$'
          · rw [if_pos he] at hv; cases hv; subst he; rfl
          · rw [if_neg he] at hv
            split at hv <;> (cases hv; rfl)
      rw [marked, marked]
      split
      · rw [ih _ _ _ _ hv, startsWord, startsWord, hh]; rfl
      · exact ih _ _ _ _ hv

theorem words_marked (s : Str) (h : identifier s = true) : (words s).flatMap marksOf = marked none none s := by
  obtain ⟨h1, h2, -⟩ := unicodeWords_parts s h
  obtain ⟨w, ws, hw⟩ := List.exists_cons_of_ne_nil h2
  rw [unicodeWords_marks s none none w ws hw, words, hw, List.flatMap_cons, List.flatMap_append,
    pieces_marked w (h1 w (by rw [hw]; exact List.mem_cons_self))]
  congr 1
  have : ∀ v ∈ ws, ∀ c ∈ v, Part c := fun v hv => h1 v (by rw [hw]; exact List.mem_cons_of_mem _ hv)
  clear hw h1 h2
  induction ws with
  | nil => rfl
  | cons v ws ih =>
    rw [List.flatMap_cons, List.flatMap_append, List.flatMap_cons, pieces_marked v (this v List.mem_cons_self),
      ih fun v' hv => this v' (List.mem_cons_of_mem _ hv)]

theorem camel_text (s : Str) (h : identifier s = true) : camel s = camelText s := by
  rw [camelText, ← words_marked s h, camel]
  generalize words s = ws
  induction ws with
  | nil => rfl
  | cons w ws ih =>
    rw [List.flatMap_cons, ih, List.flatMap_cons, List.map_append]
    congr 1
    cases w with
    | nil => rfl
    | cons c w => simp [capitalize, lower, marksOf]

theorem snake_text (s : Str) (h : identifier s = true) : snake s = snakeText s := by
  rw [snakeText, ← words_marked s h, snake]
  have hw := (words_spec s h).2
  have tail : ∀ vs : List Str, (∀ v ∈ vs, Word' v) →
      (if (vs.map lower).isEmpty then [] else '_' :: underscored (vs.map lower)) =
        (vs.flatMap marksOf).flatMap fun m => if m.1 then ['_', m.2.toLower] else [m.2.toLower] := by
    intro vs
    induction vs with
    | nil => intro _; rfl
    | cons v vs ih =>
      intro hv
      rw [List.map_cons, underscored_cons, ih fun v' hv' => hv v' (List.mem_cons_of_mem _ hv'), List.flatMap_cons, List.flatMap_append]
      obtain ⟨c, w, rfl⟩ := List.exists_cons_of_ne_nil (hv v List.mem_cons_self).1
      simp [marksOf, lower, List.flatMap_map, ← List.map_eq_flatMap]
  cases hws : words s with
  | nil => rfl
  | cons w ws =>
    rw [hws] at hw
    obtain ⟨c, w', rfl⟩ := List.exists_cons_of_ne_nil (hw w List.mem_cons_self).1
    rw [List.map_cons, underscored_cons, tail ws fun v hv => hw v (List.mem_cons_of_mem _ hv)]
    simp [marksOf, lower, List.flatMap_map, ← List.map_eq_flatMap]

end Ethabi.Heck

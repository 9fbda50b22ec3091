import Verif.Model.Heck
import Verif.Spec.Names
/-!
# Lemmas about the case conversions
-/
namespace Ethabi.Heck
open Names

/-! ## Characters -/

theorem isDigit_lt {c : Char} (h : c.isDigit = true) : c.toNat < 128 := by
  simp only [Char.isDigit, Bool.and_eq_true, decide_eq_true_eq] at h
  have := UInt32.le_iff_toNat_le.1 h.2
  simp only [Char.toNat]; have e : ('9' : Char).val.toNat = 57 := rfl
  omega

theorem isUpper_lt {c : Char} (h : c.isUpper = true) : c.toNat < 128 := by
  simp only [Char.isUpper, Bool.and_eq_true, decide_eq_true_eq] at h
  have := UInt32.le_iff_toNat_le.1 h.2
  simp only [Char.toNat]; have e : ('Z' : Char).val.toNat = 90 := rfl
  omega

theorem isLower_lt {c : Char} (h : c.isLower = true) : c.toNat < 128 := by
  simp only [Char.isLower, Bool.and_eq_true, decide_eq_true_eq] at h
  have := UInt32.le_iff_toNat_le.1 h.2
  simp only [Char.toNat]; have e : ('z' : Char).val.toNat = 122 := rfl
  omega

theorem alnum_lt {c : Char} (h : c.isAlphanum = true) : c.toNat < 128 := by
  simp only [Char.isAlphanum, Char.isAlpha, Bool.or_eq_true] at h
  rcases h with (h | h) | h
  · exact isUpper_lt h
  · exact isLower_lt h
  · exact isDigit_lt h

/-- what is used about a character that is a letter or digit -/
structure CharFacts (c : Char) : Prop where
  ne_underscore : c ≠ '_'
  ne_dollar : c ≠ '$'
  lower_alnum : c.toLower.isAlphanum = true
  upper_alnum : c.toUpper.isAlphanum = true
  lower_lower : c.toLower.toLower = c.toLower
  upper_lower : c.toUpper.toLower = c.toLower
  lower_upper : c.toLower.toUpper = c.toUpper
  lower_not_upper : c.toLower.isUpper = false
  lower_small : (c.toLower.isLower || c.toLower.isDigit) = true
  lower_alpha : c.toLower.isAlpha = c.isAlpha
  upper_alpha : c.toUpper.isAlpha = c.isAlpha
  upper_fixed : c.toUpper = c ↔ c.isLower = false
  lower_fixed : c.toLower = c ↔ c.isUpper = false
  exclusive : c.isUpper = true → c.isLower = false
  alpha : c.isAlpha = (c.isUpper || c.isLower)

theorem charTable {P : Char → Prop} (h : ∀ n, n < 128 → (Char.ofNat n).isAlphanum = true → P (Char.ofNat n)) {c : Char}
    (hc : c.isAlphanum = true) : P c := by
  have e : Char.ofNat c.toNat = c := Char.ofNat_toNat c
  have := h c.toNat (alnum_lt hc)
  rw [e] at this
  exact this hc

theorem charFacts {c : Char} (h : c.isAlphanum = true) : CharFacts c where
  ne_underscore := charTable (P := fun c => c ≠ '_') (by decide +kernel) h
  ne_dollar := charTable (P := fun c => c ≠ '$') (by decide +kernel) h
  lower_alnum := charTable (P := fun c => c.toLower.isAlphanum = true) (by decide +kernel) h
  upper_alnum := charTable (P := fun c => c.toUpper.isAlphanum = true) (by decide +kernel) h
  lower_lower := charTable (P := fun c => c.toLower.toLower = c.toLower) (by decide +kernel) h
  upper_lower := charTable (P := fun c => c.toUpper.toLower = c.toLower) (by decide +kernel) h
  lower_upper := charTable (P := fun c => c.toLower.toUpper = c.toUpper) (by decide +kernel) h
  lower_not_upper := charTable (P := fun c => c.toLower.isUpper = false) (by decide +kernel) h
  lower_small := charTable (P := fun c => (c.toLower.isLower || c.toLower.isDigit) = true) (by decide +kernel) h
  lower_alpha := charTable (P := fun c => c.toLower.isAlpha = c.isAlpha) (by decide +kernel) h
  upper_alpha := charTable (P := fun c => c.toUpper.isAlpha = c.isAlpha) (by decide +kernel) h
  upper_fixed := charTable (P := fun c => c.toUpper = c ↔ c.isLower = false) (by decide +kernel) h
  lower_fixed := charTable (P := fun c => c.toLower = c ↔ c.isUpper = false) (by decide +kernel) h
  exclusive := charTable (P := fun c => c.isUpper = true → c.isLower = false) (by decide +kernel) h
  alpha := rfl

theorem small_alnum {c : Char} (h : (c.isLower || c.isDigit) = true) : c.isAlphanum = true := by
  simp only [Char.isAlphanum, Char.isAlpha, Bool.or_eq_true] at h ⊢
  rcases h with h | h
  · exact .inl (.inr h)
  · exact .inr h

theorem small_not_upper {c : Char} (h : (c.isLower || c.isDigit) = true) : c.isUpper = false := by
  have key : ∀ n, n < 128 → ((Char.ofNat n).isLower || (Char.ofNat n).isDigit) = true → (Char.ofNat n).isUpper = false := by
    decide +kernel
  have := key c.toNat (alnum_lt (small_alnum h))
  rw [Char.ofNat_toNat] at this
  exact this h

/-- a word: not empty, letters and digits -/
def Word' (w : Str) : Prop := w ≠ [] ∧ ∀ c ∈ w, c.isAlphanum = true

/-- a character of one word of Unicode -/
def Part (c : Char) : Prop := c.isAlphanum = true ∨ c = '_'

theorem underscore_not_alnum : Char.isAlphanum '_' = false := by decide
theorem dollar_not_alnum : Char.isAlphanum '$' = false := by decide

/-! ## The pieces of a name -/

/-- Invariant of the loop: `cur` is part of a word, which goes on. -/
structure Inv (m : WordMode) (cur s : Str) : Prop where
  alnum : ∀ c ∈ cur, c.isAlphanum = true
  goes_on : cur ≠ [] → ∃ c t, s = c :: t ∧ c ≠ '_'
  mode : m ≠ .boundary → cur ≠ []

theorem Inv.start (s : Str) : Inv .boundary [] s := ⟨by simp, by simp, by simp⟩

theorem pieces_words (s : Str) : ∀ m cur, (∀ c ∈ s, Part c) → Inv m cur s →
    (pieces m cur s).flatten = cur ++ s.filter Char.isAlphanum ∧ ∀ w ∈ pieces m cur s, Word' w := by
  induction s with
  | nil =>
    intro m cur _ hi
    have : cur = [] := by
      refine Decidable.byContradiction fun hne => ?_
      obtain ⟨c, t, h, _⟩ := hi.goes_on hne
      simp at h
    simp [pieces, this]
  | cons c rest ih =>
    intro m cur hp hi
    have hp' : ∀ d ∈ rest, Part d := fun d hd => hp d (List.mem_cons_of_mem _ hd)
    by_cases hc : c = '_'
    · have hcur : cur = [] := by
        refine Decidable.byContradiction fun hne => ?_
        obtain ⟨d, t, h, hd⟩ := hi.goes_on hne
        simp only [List.cons.injEq] at h
        exact hd (h.1 ▸ hc)
      have hm : m = .boundary := by
        refine Decidable.byContradiction fun hne => ?_
        exact hi.mode hne hcur
      subst hcur hm
      have := ih .boundary [] hp' (Inv.start _)
      rw [pieces.eq_def]
      simp only [hc, if_true]
      simp only [List.isEmpty_nil, if_true]
      rw [List.filter_cons_of_neg (by decide)]
      exact this
    · have hca : c.isAlphanum = true := (hp c List.mem_cons_self).resolve_right hc
      have hf : List.filter Char.isAlphanum (c :: rest) = c :: List.filter Char.isAlphanum rest :=
        List.filter_cons_of_pos hca
      have halnum : ∀ d ∈ cur ++ [c], d.isAlphanum = true := by
        intro d hd
        rcases List.mem_append.1 hd with hd | hd
        · exact hi.alnum d hd
        · simp only [List.mem_singleton] at hd; exact hd ▸ hca
      have hword : Word' (cur ++ [c]) := ⟨by simp, halnum⟩
      rw [pieces.eq_def]
      simp only [hc, if_false]
      cases rest with
      | nil => simp only [List.flatten_cons, List.flatten_nil, List.append_nil, hf, List.filter_nil, List.mem_singleton]
               exact ⟨trivial, fun w hw => hw ▸ hword⟩
      | cons d rest' =>
        simp only
        split
        · have := ih .boundary [] hp' (Inv.start _)
          refine ⟨by rw [List.flatten_cons, this.1, hf]; simp, ?_⟩
          intro w hw
          rcases List.mem_cons.1 hw with rfl | hw
          · exact hword
          · exact this.2 w hw
        · rename_i hnb
          have hd : d ≠ '_' := by
            intro h; apply hnb; simp [h]
          split
          · rename_i hb
            simp only [Bool.and_eq_true, decide_eq_true_eq] at hb
            have hcur : cur ≠ [] := hi.mode (by rw [hb.1.1]; decide)
            have := ih .boundary [c] hp' ⟨by simpa using hca, fun _ => ⟨d, rest', rfl, hd⟩, by simp⟩
            refine ⟨by rw [List.flatten_cons, this.1, hf]; simp, ?_⟩
            intro w hw
            rcases List.mem_cons.1 hw with rfl | hw
            · exact ⟨hcur, hi.alnum⟩
            · exact this.2 w hw
          · have := ih (m.next c) (cur ++ [c]) hp' ⟨halnum, fun _ => ⟨d, rest', rfl, hd⟩, fun _ => by simp⟩
            exact ⟨by rw [this.1, hf]; simp, this.2⟩

theorem unicodeWords_parts (s : Str) (h : identifier s = true) :
    (∀ w ∈ unicodeWords s, ∀ c ∈ w, Part c) ∧ unicodeWords s ≠ [] ∧
      ((unicodeWords s).map (List.filter Char.isAlphanum)).flatten = s.filter Char.isAlphanum := by
  induction s with
  | nil => simp [unicodeWords]
  | cons c s ih =>
    simp only [identifier, List.all_cons, Bool.and_eq_true] at h
    obtain ⟨hc, hs⟩ := h
    obtain ⟨ih1, ih2, ih3⟩ := ih hs
    rw [unicodeWords]
    split
    · rename_i hd
      refine ⟨by simpa using ih1, by simp, ?_⟩
      rw [hd, List.filter_cons_of_neg (by decide)]
      simpa using ih3
    · rename_i hd
      have hp : Part c := by
        simp only [Bool.or_eq_true, decide_eq_true_eq] at hc
        rcases hc with (hc | hc) | hc
        · exact .inl hc
        · exact .inr hc
        · exact absurd hc hd
      cases e : unicodeWords s with
      | nil => exact absurd e ih2
      | cons w ws =>
        rw [e] at ih1 ih3
        refine ⟨?_, by simp, ?_⟩
        · intro v hv
          rcases List.mem_cons.1 hv with rfl | hv
          · intro d hd
            rcases List.mem_cons.1 hd with rfl | hd
            · exact hp
            · exact ih1 w List.mem_cons_self d hd
          · exact ih1 v (List.mem_cons_of_mem _ hv)
        · simp only [List.map_cons, List.flatten_cons, List.filter_cons] at ih3 ⊢
          split <;> simp_all

theorem words_spec (s : Str) (h : identifier s = true) :
    (words s).flatten = s.filter Char.isAlphanum ∧ ∀ w ∈ words s, Word' w := by
  obtain ⟨h1, -, h3⟩ := unicodeWords_parts s h
  rw [← h3, words]
  generalize unicodeWords s = ws at h1
  clear h3
  induction ws with
  | nil => simp
  | cons w ws ih =>
    have a := pieces_words w .boundary [] (h1 w List.mem_cons_self) (Inv.start w)
    have b := ih fun v hv => h1 v (List.mem_cons_of_mem _ hv)
    refine ⟨?_, ?_⟩
    · rw [List.flatMap_cons, List.flatten_append, a.1, b.1]; simp
    · intro v hv
      rw [List.flatMap_cons] at hv
      rcases List.mem_append.1 hv with hv | hv
      · exact a.2 v hv
      · exact b.2 v hv

/-! ## Snake case -/

/-- a word of small letters and digits -/
def Small (w : Str) : Prop := w ≠ [] ∧ ∀ c ∈ w, (c.isLower || c.isDigit) = true

theorem Small.word {w : Str} (h : Small w) : Word' w := ⟨h.1, fun c hc => small_alnum (h.2 c hc)⟩

theorem lower_small {w : Str} (h : Word' w) : Small (lower w) := by
  refine ⟨by simpa [lower] using h.1, ?_⟩
  intro c hc
  simp only [lower, List.mem_map] at hc
  obtain ⟨d, hd, rfl⟩ := hc
  exact (charFacts (h.2 d hd)).lower_small

theorem lower_lower {w : Str} (h : ∀ c ∈ w, c.isAlphanum = true) : lower (lower w) = lower w := by
  simp only [lower, List.map_map]
  exact List.map_congr_left fun c hc => (charFacts (h c hc)).lower_lower

theorem lower_fixed {w : Str} (h : Small w) : lower w = w := by
  have : ∀ c ∈ w, Char.toLower c = id c := fun c hc =>
    (charFacts (small_alnum (h.2 c hc))).lower_fixed.2 (small_not_upper (h.2 c hc))
  rw [lower, List.map_congr_left this, List.map_id]

theorem underscored_cons (w : Str) (ws : List Str) :
    underscored (w :: ws) = w ++ if ws.isEmpty then [] else '_' :: underscored ws := by
  cases ws <;> simp [underscored]

theorem filter_word {w : Str} (h : Word' w) : w.filter Char.isAlphanum = w := List.filter_eq_self.2 h.2

theorem underscored_filter (ws : List Str) (h : ∀ w ∈ ws, Word' w) : (underscored ws).filter Char.isAlphanum = ws.flatten := by
  induction ws with
  | nil => rfl
  | cons w ws ih =>
    have hw := h w List.mem_cons_self
    have ih := ih fun v hv => h v (List.mem_cons_of_mem _ hv)
    rw [underscored_cons, List.filter_append, filter_word hw, List.flatten_cons, ← ih]
    cases ws with
    | nil => rfl
    | cons v vs => simp [underscore_not_alnum]

theorem snakeShaped_append (w : Str) (t : Str) (h : ∀ c ∈ w, (c.isLower || c.isDigit) = true) :
    ∀ gap, snakeShapedFrom gap (w ++ t) = snakeShapedFrom (gap && w.isEmpty) t := by
  induction w with
  | nil => intro gap; simp
  | cons c w ih =>
    intro gap
    have hc := h c List.mem_cons_self
    rw [List.cons_append, snakeShapedFrom, if_neg (charFacts (small_alnum hc)).ne_underscore, hc,
      ih (fun d hd => h d (List.mem_cons_of_mem _ hd))]
    simp

theorem underscored_shaped (ws : List Str) (h : ∀ w ∈ ws, Small w) : snakeShaped (underscored ws) = true := by
  cases ws with
  | nil => rfl
  | cons w ws =>
    have : snakeShapedFrom true (underscored (w :: ws)) = true := by
      induction ws generalizing w with
      | nil =>
        have hw := h w List.mem_cons_self
        have := snakeShaped_append w [] hw.2 true
        rw [underscored, ← List.append_nil w, this]
        have e : w.isEmpty = false := by simpa using hw.1
        rw [e]; rfl
      | cons v vs ih =>
        have hw := h w List.mem_cons_self
        have e : w.isEmpty = false := by simpa using hw.1
        rw [underscored, snakeShaped_append w _ hw.2, e, snakeShapedFrom]
        simpa using ih v (fun u hu => h u (List.mem_cons_of_mem _ hu))
    rw [snakeShaped, this, Bool.or_true]

/-- texts of the shape are words with underscores between them -/
theorem shaped_words (s : Str) :
    (snakeShapedFrom true s = true → ∃ w ws, (∀ v ∈ w :: ws, Small v) ∧ s = underscored (w :: ws)) ∧
    (snakeShapedFrom false s = true → ∃ (w : Str) (ws : List Str), (∀ c ∈ w, (c.isLower || c.isDigit) = true) ∧
      (∀ v ∈ ws, Small v) ∧ s = underscored (w :: ws)) := by
  induction s with
  | nil => exact ⟨by simp [snakeShapedFrom], fun _ => ⟨[], [], by simp, by simp, rfl⟩⟩
  | cons c s ih =>
    have step : c ≠ '_' → (c.isLower || c.isDigit) = true → snakeShapedFrom false s = true →
        ∃ w ws, (∀ v ∈ w :: ws, Small v) ∧ c :: s = underscored (w :: ws) := by
      intro _ h1 h2
      obtain ⟨w, ws, hw, hws, e⟩ := ih.2 h2
      refine ⟨c :: w, ws, ?_, by rw [e, underscored_cons, underscored_cons]; rfl⟩
      intro v hv
      rcases List.mem_cons.1 hv with rfl | hv
      · refine ⟨by simp, fun d hd => ?_⟩
        rcases List.mem_cons.1 hd with rfl | hd
        · exact h1
        · exact hw d hd
      · exact hws v hv
    constructor
    · intro h
      rw [snakeShapedFrom] at h
      split at h
      · simp at h
      · simp only [Bool.and_eq_true] at h
        exact step (by assumption) h.1 h.2
    · intro h
      rw [snakeShapedFrom] at h
      split at h
      · rename_i hc
        obtain ⟨w, ws, hw, e⟩ := ih.1 (by simpa using h)
        exact ⟨[], w :: ws, by simp, hw, by rw [underscored_cons, ← e, hc]; simp⟩
      · simp only [Bool.and_eq_true] at h
        obtain ⟨w, ws, hw, e⟩ := step (by assumption) h.1 h.2
        exact ⟨w, ws, (hw w List.mem_cons_self).2, fun v hv => hw v (List.mem_cons_of_mem _ hv), e⟩

/-- text of small letters is not taken apart -/
theorem pieces_small (w t : Str) (h : ∀ c ∈ w, (c.isLower || c.isDigit) = true) (hw : w ≠ [])
    (ht : t = [] ∨ ∃ t', t = '_' :: t') : ∀ m cur, m ≠ .uppercase →
    pieces m cur (w ++ t) = (cur ++ w) :: pieces .boundary [] t := by
  induction w with
  | nil => exact absurd rfl hw
  | cons c w ih =>
    intro m cur hm
    have hc := h c List.mem_cons_self
    have hf := charFacts (small_alnum hc)
    have hu := small_not_upper hc
    cases w with
    | nil =>
      rw [List.cons_append, List.nil_append, pieces.eq_def]
      simp only [hf.ne_underscore, if_false]
      rcases ht with rfl | ⟨t', rfl⟩
      · simp [pieces]
      · simp
    | cons d w =>
      have hd := h d (by simp)
      have hdu := small_not_upper hd
      have hdn := (charFacts (small_alnum hd)).ne_underscore
      have hm' : m.next c ≠ .uppercase := by
        rw [WordMode.next, hu]
        split
        · decide
        · simpa using hm
      rw [List.cons_append, List.cons_append, pieces.eq_def]
      simp only [hf.ne_underscore, if_false]
      simp only [hdn, hdu, hu, decide_false, Bool.and_false, Bool.or_false, Bool.false_and, Bool.false_eq_true, if_false]
      have := ih (fun e he => h e (List.mem_cons_of_mem _ he)) (by simp) (m.next c) (cur ++ [c]) hm'
      rw [List.cons_append] at this
      rw [this]; simp

theorem pieces_underscore (s : Str) : pieces .boundary [] ('_' :: s) = pieces .boundary [] s := by
  rw [pieces.eq_def]; simp

theorem pieces_underscored (ws : List Str) (h : ∀ w ∈ ws, Small w) : pieces .boundary [] (underscored ws) = ws := by
  induction ws with
  | nil => rfl
  | cons w ws ih =>
    have hw := h w List.mem_cons_self
    have ih := ih fun v hv => h v (List.mem_cons_of_mem _ hv)
    cases ws with
    | nil =>
      have := pieces_small w [] hw.2 hw.1 (.inl rfl) .boundary [] (by decide)
      rw [List.append_nil, List.nil_append] at this
      rw [underscored, this]; rfl
    | cons v vs =>
      have := pieces_small w ('_' :: underscored (v :: vs)) hw.2 hw.1 (.inr ⟨_, rfl⟩) .boundary [] (by decide)
      rw [underscored, this, pieces_underscore, ih]; rfl

theorem unicodeWords_one (s : Str) (h : ∀ c ∈ s, c ≠ '$') : unicodeWords s = [s] := by
  induction s with
  | nil => rfl
  | cons c s ih =>
    rw [unicodeWords, if_neg (h c List.mem_cons_self), ih fun d hd => h d (List.mem_cons_of_mem _ hd)]

theorem underscored_chars (ws : List Str) (h : ∀ w ∈ ws, Word' w) : ∀ c ∈ underscored ws, Part c := by
  induction ws with
  | nil => simp [underscored]
  | cons w ws ih =>
    intro c hc
    rw [underscored_cons] at hc
    rcases List.mem_append.1 hc with hc | hc
    · exact .inl ((h w List.mem_cons_self).2 c hc)
    · split at hc
      · simp at hc
      · rcases List.mem_cons.1 hc with rfl | hc
        · exact .inr rfl
        · exact ih (fun v hv => h v (List.mem_cons_of_mem _ hv)) c hc

theorem words_underscored (ws : List Str) (h : ∀ w ∈ ws, Small w) : words (underscored ws) = ws := by
  rw [words, unicodeWords_one]
  · simp [pieces_underscored ws h]
  · intro c hc
    rcases underscored_chars ws (fun w hw => (h w hw).word) c hc with hc | hc
    · exact (charFacts hc).ne_dollar
    · rw [hc]; decide

/-- the words in lower case -/
theorem small_words (s : Str) (h : identifier s = true) : ∀ w ∈ (words s).map lower, Small w := by
  intro w hw
  simp only [List.mem_map] at hw
  obtain ⟨v, hv, rfl⟩ := hw
  exact lower_small ((words_spec s h).2 v hv)

theorem flatten_lower (ws : List Str) : (ws.map lower).flatten = lower ws.flatten := by
  simp only [lower, List.map_flatten]
  rfl

theorem snake_letters (s : Str) (h : identifier s = true) : (snake s).filter Char.isAlphanum = letters s := by
  rw [snake, underscored_filter _ fun w hw => (small_words s h w hw).word, flatten_lower, (words_spec s h).1]
  rfl

theorem snake_shaped (s : Str) (h : identifier s = true) : snakeShaped (snake s) = true :=
  underscored_shaped _ (small_words s h)

theorem words_snake (s : Str) (h : identifier s = true) : words (snake s) = (words s).map lower :=
  words_underscored _ (small_words s h)

theorem shaped_fixed (s : Str) (h : snakeShaped s = true) : snake s = s := by
  simp only [snakeShaped, Bool.or_eq_true] at h
  rcases h with h | h
  · rw [List.isEmpty_iff.1 h]; rfl
  · obtain ⟨w, ws, hw, rfl⟩ := (shaped_words s).1 h
    rw [snake, words_underscored _ hw]
    congr 1
    have : ∀ v ∈ w :: ws, lower v = id v := fun v hv => lower_fixed (hw v hv)
    rw [List.map_congr_left this, List.map_id]

/-! ## Camel case -/

theorem capitalize_lower {w : Str} (h : ∀ c ∈ w, c.isAlphanum = true) : capitalize (lower w) = capitalize w := by
  cases w with
  | nil => rfl
  | cons c w =>
    show (c.toLower).toUpper :: lower (lower w) = c.toUpper :: lower w
    rw [(charFacts (h c List.mem_cons_self)).lower_upper, lower_lower fun d hd => h d (List.mem_cons_of_mem _ hd)]

theorem lower_capitalize {w : Str} (h : ∀ c ∈ w, c.isAlphanum = true) : lower (capitalize w) = lower w := by
  cases w with
  | nil => rfl
  | cons c w =>
    show c.toUpper.toLower :: lower (lower w) = c.toLower :: lower w
    rw [(charFacts (h c List.mem_cons_self)).upper_lower, lower_lower fun d hd => h d (List.mem_cons_of_mem _ hd)]

theorem capitalize_alnum {w : Str} (h : ∀ c ∈ w, c.isAlphanum = true) : ∀ c ∈ capitalize w, c.isAlphanum = true := by
  cases w with
  | nil => simp [capitalize]
  | cons c w =>
    intro d hd
    rcases List.mem_cons.1 hd with rfl | hd
    · exact (charFacts (h c List.mem_cons_self)).upper_alnum
    · simp only [lower, List.mem_map] at hd
      obtain ⟨e, he, rfl⟩ := hd
      exact (charFacts (h e (List.mem_cons_of_mem _ he))).lower_alnum

theorem camel_snake (s : Str) (h : identifier s = true) : camel (snake s) = camel s := by
  rw [camel, words_snake s h, camel, List.flatMap_map]
  have hw := (words_spec s h).2
  generalize words s = ws at hw
  induction ws with
  | nil => rfl
  | cons w ws ih =>
    rw [List.flatMap_cons, List.flatMap_cons, ih fun v hv => hw v (List.mem_cons_of_mem _ hv)]
    show capitalize (lower w) ++ _ = _
    rw [capitalize_lower (hw w List.mem_cons_self).2]

theorem camel_letters (s : Str) (h : identifier s = true) : lower (camel s) = letters s ∧ ∀ c ∈ camel s, c.isAlphanum = true := by
  have e : letters s = lower (words s).flatten := by rw [(words_spec s h).1]; rfl
  have hw := (words_spec s h).2
  rw [e, camel]
  generalize words s = ws at hw
  clear e
  induction ws with
  | nil => simp [lower]
  | cons w ws ih =>
    have hw0 := (hw w List.mem_cons_self).2
    have ih := ih fun v hv => hw v (List.mem_cons_of_mem _ hv)
    constructor
    · rw [List.flatMap_cons, List.flatten_cons]
      have a1 : ∀ a b : Str, lower (a ++ b) = lower a ++ lower b := fun a b => by simp [lower]
      rw [a1, a1, ih.1, lower_capitalize hw0]
    · intro c hc
      rw [List.flatMap_cons] at hc
      rcases List.mem_append.1 hc with hc | hc
      · exact capitalize_alnum hw0 c hc
      · exact ih.2 c hc

end Ethabi.Heck

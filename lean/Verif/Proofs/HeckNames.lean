import Verif.Proofs.Heck
/-!
# Which converted names are identifiers, and which names are kept
-/
namespace Ethabi.Heck
open Names

/-! ## Identifiers -/

theorem startsWithLetter_eq (s : Str) : startsWithLetter s = (s.filter Char.isAlphanum).head?.any Char.isAlpha := by
  rw [startsWithLetter, ← List.head?_filter]

theorem alpha_alnum {c : Char} (h : c.isAlpha = true) : c.isAlphanum = true := by simp [Char.isAlphanum, h]

theorem identOk_parts (s : Str) (h : ∀ c ∈ s, Part c) (h0 : s.head? ≠ some '_') :
    identOk s = (s.head?.any Char.isAlpha) := by
  cases s with
  | nil => rfl
  | cons c s =>
    have hc : c ≠ '_' := by simpa using h0
    have : (s.all fun d => d.isAlphanum || d = '_') = true := by
      simp only [List.all_eq_true, Bool.or_eq_true, decide_eq_true_eq]
      exact fun d hd => h d (List.mem_cons_of_mem _ hd)
    simp [identOk, this, hc]

theorem head_filter {s : Str} (h : ∀ c ∈ s, Part c) (h0 : s.head? ≠ some '_') :
    s.head? = (s.filter Char.isAlphanum).head? := by
  cases s with
  | nil => rfl
  | cons c s =>
    have hc : c ≠ '_' := by simpa using h0
    rw [List.filter_cons_of_pos ((h c List.mem_cons_self).resolve_right hc)]
    rfl

theorem letters_head (s : Str) : (letters s).head?.any Char.isAlpha = startsWithLetter s := by
  rw [startsWithLetter_eq, letters]
  cases e : s.filter Char.isAlphanum with
  | nil => rfl
  | cons c t =>
    have hc : c.isAlphanum = true := (List.mem_filter.1 (e ▸ List.mem_cons_self : c ∈ s.filter Char.isAlphanum)).2
    simp [(charFacts hc).lower_alpha]

theorem underscored_head (ws : List Str) (h : ∀ w ∈ ws, Word' w) : (underscored ws).head? ≠ some '_' := by
  cases ws with
  | nil => simp [underscored]
  | cons w ws =>
    have hw := h w List.mem_cons_self
    rw [underscored_cons]
    cases w with
    | nil => exact absurd rfl hw.1
    | cons c w =>
      have := (charFacts (hw.2 c List.mem_cons_self)).ne_underscore
      simpa using this

theorem identOk_snake (s : Str) (h : identifier s = true) : identOk (snake s) = startsWithLetter s := by
  have hw : ∀ w ∈ (words s).map lower, Word' w := fun w hw => (small_words s h w hw).word
  have hp := underscored_chars _ hw
  have h0 := underscored_head _ hw
  show identOk (underscored _) = _
  rw [identOk_parts _ hp h0, head_filter hp h0, ← letters_head, ← snake_letters s h]
  rfl

theorem identOk_camel (s : Str) (h : identifier s = true) : identOk (camel s) = startsWithLetter s := by
  obtain ⟨h1, h2⟩ := camel_letters s h
  have h0 : (camel s).head? ≠ some '_' := by
    intro e
    have : '_' ∈ camel s := List.mem_of_mem_head? (by rw [e]; rfl)
    exact absurd (h2 _ this) (by decide)
  rw [identOk_parts _ (fun c hc => .inl (h2 c hc)) h0, ← letters_head, ← h1]
  cases e : camel s with
  | nil => rfl
  | cons c t => simp [lower, (charFacts (h2 c (e ▸ List.mem_cons_self))).lower_alpha]

/-! ## Underscores around a name -/

theorem words_underscore_before (s : Str) (h : identifier s = true) : words ('_' :: s) = words s := by
  rw [words, words, unicodeWords, if_neg (by decide)]
  cases e : unicodeWords s with
  | nil => exact absurd e (unicodeWords_parts s h).2.1
  | cons w ws => simp [pieces_underscore]

theorem pieces_underscore_after (s : Str) : ∀ m cur, (cur ≠ [] → s ≠ []) → pieces m cur (s ++ ['_']) = pieces m cur s := by
  induction s with
  | nil =>
    intro m cur h
    have : cur = [] := Decidable.byContradiction fun hne => h hne rfl
    subst this
    rw [List.nil_append, pieces.eq_def]
    simp [pieces]
  | cons c rest ih =>
    intro m cur _
    rw [List.cons_append, pieces.eq_def, pieces.eq_def m cur (c :: rest)]
    simp only
    split
    · cases rest with
      | nil =>
        by_cases hcur : cur = []
        · simpa [hcur] using ih m [] (by simp)
        · rw [List.nil_append, pieces.eq_def]; simp [pieces]
      | cons d rest' => exact ih _ _ (by simp)
    · cases rest with
      | nil => simp [pieces]
      | cons d rest' =>
        have i1 := ih .boundary [] (by simp)
        have i2 := ih .boundary [c] (by simp)
        have i3 := ih (m.next c) (cur ++ [c]) (by simp)
        simp only [List.cons_append] at i1 i2 i3 ⊢
        rw [i1, i2, i3]

theorem unicodeWords_after (s : Str) : ∃ front last, unicodeWords s = front ++ [last] ∧
    unicodeWords (s ++ ['_']) = front ++ [last ++ ['_']] := by
  induction s with
  | nil => exact ⟨[], [], rfl, rfl⟩
  | cons c s ih =>
    obtain ⟨front, last, h1, h2⟩ := ih
    rw [List.cons_append, unicodeWords, unicodeWords, h1, h2]
    split
    · exact ⟨[] :: front, last, rfl, rfl⟩
    · cases front with
      | nil => exact ⟨[], c :: last, rfl, rfl⟩
      | cons w ws => exact ⟨(c :: w) :: ws, last, rfl, rfl⟩

theorem words_underscore_after (s : Str) : words (s ++ ['_']) = words s := by
  obtain ⟨front, last, h1, h2⟩ := unicodeWords_after s
  rw [words, words, h1, h2]
  simp [pieces_underscore_after last .boundary [] (by simp)]

/-! ## Names that are kept in camel case -/

theorem capitalize_length (w : Str) : (capitalize w).length = w.length := by
  cases w <;> simp [capitalize, lower]

theorem append_eq {a b c d : Str} (h : a.length = c.length) : a ++ b = c ++ d ↔ a = c ∧ b = d :=
  ⟨fun e => List.append_inj e h, fun ⟨e, f⟩ => by rw [e, f]⟩

theorem flatMap_capitalize_fixed (ws : List Str) : ws.flatMap capitalize = ws.flatten ↔ ∀ w ∈ ws, capitalize w = w := by
  induction ws with
  | nil => simp
  | cons w ws ih =>
    rw [List.flatMap_cons, List.flatten_cons, append_eq (capitalize_length w), ih]
    simp

theorem capitalize_snoc (cur : Str) (c : Char) (hc : c.isAlphanum = true) (h : cur ≠ []) :
    capitalize (cur ++ [c]) = cur ++ [c] ↔ capitalize cur = cur ∧ c.isUpper = false := by
  cases cur with
  | nil => exact absurd rfl h
  | cons d w =>
    simp only [List.cons_append, capitalize, lower, List.map_append, List.map_cons, List.map_nil, List.cons.injEq]
    rw [append_eq (by simp)]
    simp only [List.cons.injEq, and_true, (charFacts hc).lower_fixed, and_assoc]

theorem capitalize_single (c : Char) (hc : c.isAlphanum = true) : capitalize [c] = [c] ↔ c.isLower = false := by
  simp [capitalize, lower, (charFacts hc).upper_fixed]

/-- `last` is the last letter of the part of the name that has been read -/
inductive Rel : WordMode → Str → Option Char → Str → Prop where
  | none (cur s) : Rel .boundary cur none s
  | lower (cur l s) : l.isLower = true → l.isUpper = false → (∀ c t, s = c :: t → c.isUpper = false) →
      Rel .lowercase cur (some l) s
  | upper (cur u s) : u.isUpper = true → u.isLower = false → Rel .uppercase cur (some u) s
  | split (u d t) : u.isUpper = true → u.isLower = false → d.isLower = true → d.isUpper = false → Rel .boundary [u] (some u) (d :: t)

theorem Rel.next {m cur last c d t} (hc : c.isAlphanum = true) (h : Rel m cur last (c :: d :: t))
    (hb : ¬ (m.next c = .lowercase ∧ d.isUpper = true)) :
    Rel (m.next c) (cur ++ [c]) (if c.isAlpha then some c else last) (d :: t) := by
  have hf := charFacts hc
  have ha := hf.alpha
  cases hl : c.isLower with
  | true =>
    have hu : c.isUpper = false := by
      cases hu : c.isUpper with
      | false => rfl
      | true => rw [hf.exclusive hu] at hl; cases hl
    rw [ha, hu, hl]
    simp only [WordMode.next, hl, if_true, Bool.or_true, true_and] at hb ⊢
    refine .lower _ _ _ hl hu ?_
    intro e t' he
    simp only [List.cons.injEq] at he
    simpa [he.1] using hb
  | false =>
    cases hu : c.isUpper with
    | true =>
      rw [ha, hu, hl]
      simp only [WordMode.next, hl, hu, if_true, Bool.false_eq_true, if_false, Bool.or_false]
      exact .upper _ _ _ hu hl
    | false =>
      rw [ha, hu, hl]
      simp only [WordMode.next, hl, hu, Bool.false_eq_true, if_false, Bool.or_false] at hb ⊢
      cases h with
      | none => exact .none _ _
      | lower _ l _ h1 h2 h3 =>
        refine .lower _ _ _ h1 h2 ?_
        intro e t' he
        simp only [List.cons.injEq] at he
        simpa [he.1] using hb
      | upper _ u _ h1 h2 => exact .upper _ _ _ h1 h2
      | split u _ _ h1 h2 h3 h4 => rw [hl] at h3; cases h3

theorem pieces_fixed (s : Str) (hs : ∀ c ∈ s, c.isAlphanum = true) :
    ((∀ w ∈ pieces .boundary [] s, capitalize w = w) ↔ camelShaped s = true) ∧
    ∀ m cur last, (∀ c ∈ cur, c.isAlphanum = true) → cur ≠ [] → s ≠ [] → Rel m cur last s →
      ((∀ w ∈ pieces m cur s, capitalize w = w) ↔ capitalize cur = cur ∧ camelShapedFrom last s = true) := by
  induction s with
  | nil => exact ⟨by simp [pieces, camelShaped], fun _ _ _ _ _ h => absurd rfl h⟩
  | cons c rest ih =>
    have hc := hs c List.mem_cons_self
    have hs' : ∀ d ∈ rest, d.isAlphanum = true := fun d hd => hs d (List.mem_cons_of_mem _ hd)
    obtain ⟨ihB, ih⟩ := ih hs'
    have hfc := charFacts hc
    constructor
    · rw [pieces.eq_def, camelShaped]
      simp only [hfc.ne_underscore, if_false, hc, Bool.true_and]
      cases rest with
      | nil => simp [capitalize_single c hc, camelShapedFrom]
      | cons d t =>
        have hd := charFacts (hs' d List.mem_cons_self)
        simp only [hd.ne_underscore, decide_false, Bool.false_or]
        split
        · rename_i hb
          simp only [Bool.and_eq_true, decide_eq_true_eq] at hb
          have hl : c.isLower = true := by
            cases hl : c.isLower with
            | true => rfl
            | false =>
              have := hb.1
              simp only [WordMode.next, hl, Bool.false_eq_true, if_false] at this
              split at this <;> simp at this
          rw [List.forall_mem_cons, List.nil_append, capitalize_single c hc, hl]
          simp
        · rename_i hb
          simp only [Bool.and_eq_true, decide_eq_true_eq] at hb
          simp only [show (WordMode.boundary = WordMode.uppercase) = False from by simp, decide_false, Bool.false_and,
            Bool.false_eq_true, if_false]
          have := ih _ _ _ (by simpa using hc) (by simp) (by simp) (Rel.next (cur := []) hc (.none _ _) hb)
          rw [this, List.nil_append, capitalize_single c hc]
          simp
    intro m cur last hcur hne _ hr
    have hf := charFacts hc
    have hcur' : ∀ d ∈ cur ++ [c], d.isAlphanum = true := by
      intro d hd
      rcases List.mem_append.1 hd with hd | hd
      · exact hcur d hd
      · simp only [List.mem_singleton] at hd; exact hd ▸ hc
    rw [pieces.eq_def, camelShapedFrom]
    simp only [hf.ne_underscore, if_false, hc, Bool.true_and]
    cases rest with
    | nil =>
      simp only [List.mem_singleton, forall_eq, capitalize_snoc cur c hc hne, camelShapedFrom, List.head?_nil, Option.any_none,
        Bool.and_false, Bool.or_false, Bool.and_true]
      refine and_congr_right fun _ => ?_
      cases hr with
      | none => simp
      | lower _ l _ h1 h2 h3 => simp [h3 c [] rfl]
      | upper _ u _ h1 h2 => simp [h2]
      | split u _ _ h1 h2 h3 h4 => simp [h4]
    | cons d t =>
      have hd := hs' d List.mem_cons_self
      have hfd := charFacts hd
      simp only [hfd.ne_underscore, decide_false, Bool.false_or, List.head?_cons, Option.any_some]
      split
      · -- the piece ends after `c`
        rename_i hb
        simp only [Bool.and_eq_true, decide_eq_true_eq] at hb
        have hcu : c.isUpper = false := by
          cases hu : c.isUpper with
          | false => rfl
          | true => have := hb.1; simp [WordMode.next, hu, hf.exclusive hu] at this
        have hlast : (if c.isAlpha = true then some c else last).any Char.isLower = true := by
          rw [hf.alpha, hcu]
          cases hl : c.isLower with
          | true => simp [hl]
          | false =>
            have hm := hb.1
            simp only [WordMode.next, hl, hcu, Bool.false_eq_true, if_false] at hm
            subst hm
            cases hr with
            | lower _ l _ h1 h2 h3 => simpa using h1
        have hdl := hfd.exclusive hb.2
        have key : (∀ w ∈ pieces .boundary [] (d :: t), capitalize w = w) ↔ camelShapedFrom (some d) t = true := by
          rw [ihB, camelShaped, hd, hdl, hfd.alpha, hb.2]
          simp
        rw [List.forall_mem_cons, key, capitalize_snoc cur c hc hne, hcu]
        rw [camelShapedFrom]
        have hda : d.isAlpha = true := by rw [hfd.alpha, hb.2]; rfl
        simp only [hd, hlast, hda, if_true]
        simp
      · rename_i hb
        simp only [Bool.and_eq_true, decide_eq_true_eq] at hb
        split
        · -- the piece ends before `c`
          rename_i hb'
          simp only [Bool.and_eq_true, decide_eq_true_eq] at hb'
          obtain ⟨⟨hm, hcu⟩, hdl⟩ := hb'
          subst hm
          have hcl := hf.exclusive hcu
          have hdu : d.isUpper = false := by
            cases hu : d.isUpper with
            | false => rfl
            | true => rw [hfd.exclusive hu] at hdl; cases hdl
          have hca : c.isAlpha = true := by rw [hf.alpha, hcu]; rfl
          have := ih .boundary [c] (some c) (by simpa using hc) (by simp) (by simp) (.split c d t hcu hcl hdl hdu)
          rw [List.forall_mem_cons, this, capitalize_single c hc]
          cases hr with
          | upper _ u _ h1 h2 => simp [h1, hdl, hca, hcl]
        · -- the piece goes on
          rename_i hb'
          simp only [Bool.and_eq_true, decide_eq_true_eq] at hb'
          have := ih (m.next c) (cur ++ [c]) _ hcur' (by simp) (by simp) (hr.next hc hb)
          rw [this, capitalize_snoc cur c hc hne]
          cases hcu : c.isUpper with
          | false => simp
          | true =>
            have : (last.any Char.isLower || (last.any Char.isUpper && d.isLower)) = false := by
              cases hr with
              | none => rfl
              | lower _ l _ h1 h2 h3 => rw [h3 c _ rfl] at hcu; cases hcu
              | upper _ u _ h1 h2 =>
                simp only [Option.any_some, h1, h2, Bool.true_and, Bool.false_or]
                cases hdl : d.isLower with
                | false => rfl
                | true => exact absurd ⟨⟨rfl, hcu⟩, hdl⟩ hb'
              | split u _ _ h1 h2 h3 h4 => rw [h4] at hcu; cases hcu
            simp only [this, Bool.not_true, Bool.false_or, Bool.false_and]
            simp

theorem camel_fixed (s : Str) (h : identifier s = true) : camel s = s ↔ camelShaped s = true := by
  have shaped_alnum : ∀ (t : Str) last, camelShapedFrom last t = true → ∀ c ∈ t, c.isAlphanum = true := by
    intro t
    induction t with
    | nil => simp
    | cons c t ih =>
      intro last ht d hd
      simp only [camelShapedFrom, Bool.and_eq_true] at ht
      rcases List.mem_cons.1 hd with rfl | hd
      · exact ht.1.1
      · exact ih _ ht.2 d hd
  have main : (∀ c ∈ s, c.isAlphanum = true) → (camel s = s ↔ camelShaped s = true) := by
    intro hs
    have hu := unicodeWords_one s fun c hc => (charFacts (hs c hc)).ne_dollar
    have hw : words s = pieces .boundary [] s := by simp [words, hu]
    have hfl : (words s).flatten = s := by rw [(words_spec s h).1]; exact List.filter_eq_self.2 hs
    rw [← (pieces_fixed s hs).1, ← hw, ← flatMap_capitalize_fixed, hfl]
    rfl
  constructor
  · intro e
    exact (main fun c hc => (camel_letters s h).2 c (by rw [e]; exact hc)).1 e
  · intro e
    refine (main ?_).2 e
    cases s with
    | nil => simp
    | cons c t =>
      simp only [camelShaped, Bool.and_eq_true] at e
      intro d hd
      rcases List.mem_cons.1 hd with rfl | hd
      · exact e.1.1
      · exact shaped_alnum t _ e.2 d hd

/-! ## Contracts -/

theorem and_eq {a b c d : Bool} (h : a = c) (k : b = d) : (a && b) = (c && d) := by rw [h, k]

open Spec in
theorem contractOk_heck (c : Contract) (h : ∀ s ∈ namesOf c, identifier s = true) : contractOk naming c = generates c := by
  have hsnake : ∀ s, identifier s = true → naming.valid (naming.snake s) = startsWithLetter s :=
    identOk_snake
  have hcamel : ∀ s, identifier s = true → naming.valid (naming.camel s) = startsWithLetter s :=
    identOk_camel
  have hfield : ∀ s, identifier s = true → nameOk naming naming.snake s = paramNameOk s := by
    intro s hs
    rw [nameOk, hsnake s hs, paramNameOk]
  have hinput : ∀ s, identifier s = true → nameOk naming (inputIdent naming) s = paramNameOk s := by
    intro s hs
    rw [nameOk, inputIdent, paramNameOk]
    split
    · rename_i e
      subst e
      decide
    · rw [hsnake s hs]
  have allCongr : ∀ {α : Type} {l : List α} {p q : α → Bool}, (∀ a ∈ l, p a = q a) → l.all p = l.all q := by
    intro α l p q hl
    induction l with
    | nil => rfl
    | cons a l ih =>
      rw [List.all_cons, List.all_cons, hl a List.mem_cons_self, ih fun b hb => hl b (List.mem_cons_of_mem _ hb)]
  have hinputs : ∀ ps : List Param, (∀ p ∈ ps, identifier p.name = true) →
      inputsOk naming ps = ps.all fun p => tupleFree p.kind && paramNameOk p.name := by
    intro ps hps
    exact allCongr fun p hp => by rw [hinput _ (hps p hp)]
  simp only [namesOf, List.mem_append, List.mem_flatMap, List.mem_cons, List.mem_map] at h
  have hk : ∀ k, c.constructor = some k → ∀ p ∈ k.inputs, identifier p.name = true := by
    intro k hk p hp
    refine h _ (.inl (.inl ?_))
    rw [hk]
    exact List.mem_map.2 ⟨p, hp, rfl⟩
  have hf : ∀ f ∈ c.allFunctions, identifier f.name = true ∧ ∀ p ∈ f.inputs, identifier p.name = true :=
    fun f hf => ⟨h _ (.inl (.inr ⟨f, hf, .inl rfl⟩)), fun p hp => h _ (.inl (.inr ⟨f, hf, .inr ⟨p, hp, rfl⟩⟩))⟩
  have he : ∀ e ∈ c.allEvents, identifier e.name = true ∧ ∀ p ∈ e.inputs, identifier p.name = true :=
    fun e he => ⟨h _ (.inr ⟨e, he, .inl rfl⟩), fun p hp => h _ (.inr ⟨e, he, .inr ⟨p, hp, rfl⟩⟩)⟩
  rw [contractOk, generates]
  refine and_eq (and_eq ?_ ?_) ?_
  · cases e : c.constructor with
    | none => rfl
    | some k => exact hinputs k.inputs (hk k e)
  · refine allCongr fun f hm => ?_
    rw [functionOk, hinputs f.inputs (hf f hm).2, hsnake _ (hf f hm).1]
  · refine allCongr fun e hm => ?_
    rw [eventOk, hsnake _ (he e hm).1, hcamel _ (he e hm).1, Bool.and_assoc, Bool.and_self]
    refine congrArg (· && _) (allCongr fun p hp => ?_)
    rw [hfield _ ((he e hm).2 p hp)]

end Ethabi.Heck

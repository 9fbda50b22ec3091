import Verif.Proofs.JsonText
/-!
# The parser of JSON texts accepts the grammar: values
-/
namespace Ethabi.JsonText
open JsonGrammar

theorem word_sound : ∀ {w s r : Str}, word w s = some r → s = w ++ r
  | [], s, r, h => by cases h; rfl
  | _ :: _, [], r, h => by cases h
  | a :: w, c :: s, r, h => by
      rw [word] at h
      split at h
      · rename_i e
        rw [word_sound h, e]; rfl
      · cases h

theorem word_complete (w r : Str) : word w (w ++ r) = some r := by
  induction w with
  | nil => cases r <;> rfl
  | cons a w ih => rw [List.cons_append, word, if_pos rfl, ih]

theorem head_tail {s : Str} {c : Char} (h : s.head? = some c) : ∃ r, s = c :: r := by
  cases s with
  | nil => cases h
  | cons d s => simp only [List.head?_cons, Option.some.injEq] at h; exact ⟨s, by rw [h]⟩

theorem Blank.nil : Blank [] := fun _ h => by cases h

/-- what the three parsers return is the grammar -/
theorem sound (fits : Str → Bool) (n : Nat) :
    (∀ d s j r, value fits n (d + 1) s = some (j, r) → ∃ a v, Blank a ∧ Value fits d j v ∧ s = a ++ (v ++ r)) ∧
    (∀ d s xs r, items fits n (d + 1) s = some (xs, r) → ∃ t, Items fits d xs t ∧ s = t ++ ']' :: r) ∧
    (∀ d s fs r, entries fits n (d + 1) s = some (fs, r) → ∃ t, Entries fits d fs t ∧ s = t ++ '}' :: r) := by
  induction n with
  | zero => refine ⟨?_, ?_, ?_⟩ <;> (intro _ _ _ _ h; cases h)
  | succ n ih =>
    obtain ⟨ihv, ihi, ihe⟩ := ih
    refine ⟨?_, ?_, ?_⟩
    · intro d s j r h
      rw [value] at h
      obtain ⟨a, ha, es⟩ := skipWs_split s
      cases hs : skipWs s with
      | nil => rw [hs] at h; cases h
      | cons c s' =>
        rw [hs] at h es
        dsimp only at h
        suffices hv : ∃ v, Value fits d j v ∧ c :: s' = v ++ r by
          obtain ⟨v, h1, h2⟩ := hv
          exact ⟨a, v, ha, h1, by rw [es, h2]⟩
        clear hs es
        by_cases c1 : c = 'n'
        · rw [if_pos c1, Option.map_eq_some_iff] at h
          obtain ⟨r', h1, h2⟩ := h
          cases h2; subst c1
          exact ⟨_, .null d, by rw [word_sound h1]; rfl⟩
        rw [if_neg c1] at h
        by_cases c2 : c = 't'
        · rw [if_pos c2, Option.map_eq_some_iff] at h
          obtain ⟨r', h1, h2⟩ := h
          cases h2; subst c2
          exact ⟨_, .true d, by rw [word_sound h1]; rfl⟩
        rw [if_neg c2] at h
        by_cases c3 : c = 'f'
        · rw [if_pos c3, Option.map_eq_some_iff] at h
          obtain ⟨r', h1, h2⟩ := h
          cases h2; subst c3
          exact ⟨_, .false d, by rw [word_sound h1]; rfl⟩
        rw [if_neg c3] at h
        by_cases c4 : c = '"'
        · rw [if_pos c4, Option.map_eq_some_iff] at h
          obtain ⟨⟨t, r'⟩, h1, h2⟩ := h
          cases h2; subst c4
          obtain ⟨q, hq, rfl⟩ := string_sound n h1
          exact ⟨_, .string hq, by simp⟩
        rw [if_neg c4] at h
        by_cases c5 : c = '['
        · rw [if_pos c5] at h
          subst c5
          split at h
          · cases h
          · rename_i hd
            obtain ⟨d', rfl⟩ : ∃ d', d = d' + 1 := ⟨d - 1, by omega⟩
            obtain ⟨b, hb, eb⟩ := skipWs_split s'
            split at h
            · rename_i hr
              cases h
              obtain ⟨r', hr⟩ := head_tail hr
              exact ⟨_, .noItems hb, by rw [hr] at eb ⊢; rw [eb]; simp⟩
            · rw [Option.map_eq_some_iff] at h
              obtain ⟨⟨xs, r'⟩, h1, h2⟩ := h
              cases h2
              obtain ⟨t, ht, rfl⟩ := ihi d' s' xs r' h1
              exact ⟨_, .array ht, by simp⟩
        rw [if_neg c5] at h
        by_cases c6 : c = '{'
        · rw [if_pos c6] at h
          subst c6
          split at h
          · cases h
          · rename_i hd
            obtain ⟨d', rfl⟩ : ∃ d', d = d' + 1 := ⟨d - 1, by omega⟩
            obtain ⟨b, hb, eb⟩ := skipWs_split s'
            split at h
            · rename_i hr
              cases h
              obtain ⟨r', hr⟩ := head_tail hr
              exact ⟨_, .noEntries hb, by rw [hr] at eb ⊢; rw [eb]; simp⟩
            · rw [Option.map_eq_some_iff] at h
              obtain ⟨⟨fs, r'⟩, h1, h2⟩ := h
              cases h2
              obtain ⟨t, ht, rfl⟩ := ihe d' s' fs r' h1
              exact ⟨_, .object ht, by simp⟩
        rw [if_neg c6] at h
        obtain ⟨m, t, rfl, h1, h2, h3⟩ := number_sound h
        exact ⟨t, .number h1 h2, h3⟩
    · intro d s xs r h
      rw [items] at h
      cases hv : value fits n (d + 1) s with
      | none => rw [hv] at h; cases h
      | some p =>
        obtain ⟨x, s'⟩ := p
        rw [hv] at h
        obtain ⟨a, v, ha, h1, rfl⟩ := ihv d s x s' hv
        obtain ⟨b, hb, eb⟩ := skipWs_split s'
        dsimp only at h
        split at h
        · cases h
        · rename_i c s'' hs
          split at h
          · rename_i hc
            subst hc
            rw [Option.map_eq_some_iff] at h
            obtain ⟨⟨xs', r'⟩, h2, h3⟩ := h
            cases h3
            obtain ⟨t, ht, rfl⟩ := ihi d s'' xs' r' h2
            exact ⟨_, .more ha h1 hb ht, by rw [eb, hs]; simp⟩
          · split at h
            · rename_i hc
              subst hc
              cases h
              exact ⟨_, .one ha h1 hb, by rw [eb, hs]; simp⟩
            · cases h
    · intro d s fs r h
      rw [entries] at h
      obtain ⟨a, ha, ea⟩ := skipWs_split s
      split at h
      · cases h
      rename_i c1 s1 hs1
      split at h
      · cases h
      rename_i hc1
      have hc1 : c1 = '"' := Decidable.not_not.1 hc1
      subst hc1
      split at h
      · cases h
      rename_i k s2 hk
      obtain ⟨q, hq, rfl⟩ := string_sound n hk
      obtain ⟨b, hb, eb⟩ := skipWs_split s2
      split at h
      · cases h
      rename_i c3 s3 hs3
      split at h
      · cases h
      rename_i hc3
      have hc3 : c3 = ':' := Decidable.not_not.1 hc3
      subst hc3
      split at h
      · cases h
      rename_i x s4 hv
      obtain ⟨c, v, hc, h1, rfl⟩ := ihv d s3 x s4 hv
      obtain ⟨e, he, ee⟩ := skipWs_split s4
      split at h
      · cases h
      rename_i c5 s5 hs5
      split at h
      · rename_i hc5
        subst hc5
        rw [Option.map_eq_some_iff] at h
        obtain ⟨⟨fs', r'⟩, h2, h3⟩ := h
        cases h3
        obtain ⟨t, ht, rfl⟩ := ihe d s5 _ _ h2
        refine ⟨_, .more ha hq hb hc h1 he ht, ?_⟩
        rw [ea, hs1, eb, hs3, ee, hs5]; simp
      · split at h
        · rename_i hc5
          subst hc5
          cases h
          refine ⟨_, .one ha hq hb hc h1 he, ?_⟩
          rw [ea, hs1, eb, hs3, ee, hs5]; simp
        · cases h

/-! ## Completeness -/

theorem tight_cons {c : Char} {s : Str} (h : isWs c = false) : Tight (c :: s) := by
  intro d t e; cases e; exact h

theorem value_head {fits : Str → Bool} {d : Nat} {j : Json} {v : Str} (h : Value fits d j v) :
    ∃ c t, v = c :: t ∧ isWs c = false ∧ c ≠ ']' := by
  cases h with
  | null => exact ⟨_, _, rfl, by decide, by decide⟩
  | true => exact ⟨_, _, rfl, by decide, by decide⟩
  | false => exact ⟨_, _, rfl, by decide, by decide⟩
  | number h hf =>
    obtain ⟨c, u, rfl, hc⟩ := number_head h
    have key : ∀ c ∈ "-0123456789".toList, isWs c = false ∧ c ≠ ']' := by decide
    exact ⟨c, u, rfl, key c hc⟩
  | string h => exact ⟨_, _, rfl, by decide, by decide⟩
  | noItems h => exact ⟨_, _, rfl, by decide, by decide⟩
  | array h => exact ⟨_, _, rfl, by decide, by decide⟩
  | noEntries h => exact ⟨_, _, rfl, by decide, by decide⟩
  | object h => exact ⟨_, _, rfl, by decide, by decide⟩

theorem stops_blank {b : Str} {c : Char} {t : Str} (hb : Blank b) (hc : c = ',' ∨ c = ']' ∨ c = '}') : Stops (b ++ c :: t) := by
  intro x u e
  cases b with
  | nil => cases e; rcases hc with rfl | rfl | rfl <;> decide
  | cons y b =>
    cases e
    rcases hb x List.mem_cons_self with rfl | rfl | rfl | rfl <;> decide

theorem items_head {fits : Str → Bool} {d : Nat} {xs : List Json} {s : Str} (h : Items fits d xs s) :
    ∃ a c t, Blank a ∧ s = a ++ c :: t ∧ isWs c = false ∧ c ≠ ']' := by
  cases h with
  | one ha h hb =>
    obtain ⟨c, t, rfl, h1, h2⟩ := value_head h
    exact ⟨_, c, _, ha, rfl, h1, h2⟩
  | more ha h hb ht =>
    obtain ⟨c, t, rfl, h1, h2⟩ := value_head h
    exact ⟨_, c, _, ha, rfl, h1, h2⟩

theorem entries_head {fits : Str → Bool} {d : Nat} {fs : List (Str × Json)} {s : Str} (h : Entries fits d fs s) :
    ∃ a t, Blank a ∧ s = a ++ '"' :: t := by
  cases h with
  | one ha => exact ⟨_, _, ha, rfl⟩
  | more ha => exact ⟨_, _, ha, rfl⟩

mutual
theorem value_complete {fits : Str → Bool} : ∀ {d : Nat} {j : Json} {v : Str}, Value fits d j v →
    ∀ (n : Nat) (a r : Str), Blank a → Stops r ∨ (∀ m, j ≠ .num m) → 2 * v.length ≤ n →
    value fits n (d + 1) (a ++ (v ++ r)) = some (j, r)
  | d, _, _, .null _, n, a, r, ha, _, hn => by
      obtain ⟨n, rfl⟩ : ∃ m, n = m + 1 := ⟨n - 1, by simp at hn; omega⟩
      have e : "null".toList ++ r = 'n' :: (lit "ull" ++ r) := rfl
      rw [e, value, skipWs_blank ha (tight_cons (by decide))]
      dsimp only
      rw [if_pos rfl, word_complete]; rfl
  | d, _, _, .true _, n, a, r, ha, _, hn => by
      obtain ⟨n, rfl⟩ : ∃ m, n = m + 1 := ⟨n - 1, by simp at hn; omega⟩
      have e : "true".toList ++ r = 't' :: (lit "rue" ++ r) := rfl
      rw [e, value, skipWs_blank ha (tight_cons (by decide))]
      dsimp only
      rw [if_neg (by decide), if_pos rfl, word_complete]; rfl
  | d, _, _, .false _, n, a, r, ha, _, hn => by
      obtain ⟨n, rfl⟩ : ∃ m, n = m + 1 := ⟨n - 1, by simp at hn; omega⟩
      have e : "false".toList ++ r = 'f' :: (lit "alse" ++ r) := rfl
      rw [e, value, skipWs_blank ha (tight_cons (by decide))]
      dsimp only
      rw [if_neg (by decide), if_neg (by decide), if_pos rfl, word_complete]; rfl
  | d, _, v, .number h hf, n, a, r, ha, hr, hn => by
      obtain ⟨c, u, hv, hc⟩ := number_head h
      obtain ⟨n, rfl⟩ : ∃ m, n = m + 1 := ⟨n - 1, by rw [hv] at hn; simp at hn; omega⟩
      have key : ∀ c ∈ "-0123456789".toList, isWs c = Bool.false ∧ c ≠ 'n' ∧ c ≠ 't' ∧ c ≠ 'f' ∧ c ≠ '"' ∧ c ≠ '[' ∧ c ≠ '{' := by decide
      obtain ⟨k0, k1, k2, k3, k4, k5, k6⟩ := key c hc
      have hr : Stops r := hr.resolve_right fun h => h _ rfl
      have hnum := number_complete h hf hr
      rw [hv] at hnum ⊢
      rw [List.cons_append] at hnum ⊢
      rw [value, skipWs_blank ha (tight_cons k0)]
      dsimp only
      rw [if_neg k1, if_neg k2, if_neg k3, if_neg k4, if_neg k5, if_neg k6, hnum]
  | d, _, _, .string (s := s) h, n, a, r, ha, _, hn => by
      obtain ⟨n, rfl⟩ : ∃ m, n = m + 1 := ⟨n - 1, by simp at hn; omega⟩
      have e : '"' :: (s ++ ['"']) ++ r = '"' :: (s ++ '"' :: r) := by simp
      rw [e, value, skipWs_blank ha (tight_cons (by decide))]
      dsimp only
      rw [if_neg (by decide), if_neg (by decide), if_neg (by decide), if_pos rfl, string_complete h n r (by simp at hn; omega)]; rfl
  | _, _, _, .noItems (d := d) (w := w) h, n, a, r, ha, _, hn => by
      obtain ⟨n, rfl⟩ : ∃ m, n = m + 1 := ⟨n - 1, by simp at hn; omega⟩
      have e : '[' :: (w ++ [']']) ++ r = '[' :: (w ++ ']' :: r) := by simp
      rw [e, value, skipWs_blank ha (tight_cons (by decide))]
      dsimp only
      rw [if_neg (by decide), if_neg (by decide), if_neg (by decide), if_neg (by decide), if_pos rfl, if_neg (by omega), skipWs_blank h (tight_cons (by decide)), List.head?_cons, if_pos rfl]
      rfl
  | _, _, _, .array (d := d) (s := s) h, n, a, r, ha, _, hn => by
      obtain ⟨n, rfl⟩ : ∃ m, n = m + 1 := ⟨n - 1, by simp at hn; omega⟩
      have e : '[' :: (s ++ [']']) ++ r = '[' :: (s ++ ']' :: r) := by simp
      have hi := items_complete h n r (by simp at hn; omega)
      obtain ⟨b, c, t, hb, hs, h1, h2⟩ := items_head h
      rw [e, value, skipWs_blank ha (tight_cons (by decide))]
      dsimp only
      rw [if_neg (by decide), if_neg (by decide), if_neg (by decide), if_neg (by decide), if_pos rfl, if_neg (by omega)]
      have hw : skipWs (s ++ ']' :: r) = c :: (t ++ ']' :: r) := by
        rw [hs, List.append_assoc, List.cons_append, skipWs_blank hb (tight_cons h1)]
      rw [hw, if_neg (by simpa using h2), Nat.add_sub_cancel, hi]
      rfl
  | _, _, _, .noEntries (d := d) (w := w) h, n, a, r, ha, _, hn => by
      obtain ⟨n, rfl⟩ : ∃ m, n = m + 1 := ⟨n - 1, by simp at hn; omega⟩
      have e : '{' :: (w ++ ['}']) ++ r = '{' :: (w ++ '}' :: r) := by simp
      rw [e, value, skipWs_blank ha (tight_cons (by decide))]
      dsimp only
      rw [if_neg (by decide), if_neg (by decide), if_neg (by decide), if_neg (by decide), if_neg (by decide), if_pos rfl, if_neg (by omega), skipWs_blank h (tight_cons (by decide)), List.head?_cons, if_pos rfl]
      rfl
  | _, _, _, .object (d := d) (s := s) h, n, a, r, ha, _, hn => by
      obtain ⟨n, rfl⟩ : ∃ m, n = m + 1 := ⟨n - 1, by simp at hn; omega⟩
      have e : '{' :: (s ++ ['}']) ++ r = '{' :: (s ++ '}' :: r) := by simp
      have hi := entries_complete h n r (by simp at hn; omega)
      obtain ⟨b, t, hb, hs⟩ := entries_head h
      rw [e, value, skipWs_blank ha (tight_cons (by decide))]
      dsimp only
      rw [if_neg (by decide), if_neg (by decide), if_neg (by decide), if_neg (by decide), if_neg (by decide), if_pos rfl, if_neg (by omega)]
      have hw : skipWs (s ++ '}' :: r) = '"' :: (t ++ '}' :: r) := by
        rw [hs, List.append_assoc, List.cons_append, skipWs_blank hb (tight_cons (by decide))]
      rw [hw, if_neg (by simp), Nat.add_sub_cancel, hi]
      rfl
theorem items_complete {fits : Str → Bool} : ∀ {d : Nat} {xs : List Json} {s : Str}, Items fits d xs s →
    ∀ (n : Nat) (r : Str), 2 * s.length + 1 ≤ n → items fits n (d + 1) (s ++ ']' :: r) = some (xs, r)
  | d, _, _, .one (a := a) (s := s) (b := b) ha h hb, n, r, hn => by
      obtain ⟨n, rfl⟩ : ∃ m, n = m + 1 := ⟨n - 1, by omega⟩
      simp only [List.length_append] at hn
      have e : a ++ (s ++ b) ++ ']' :: r = a ++ (s ++ (b ++ ']' :: r)) := by simp
      rw [e, items, value_complete h n a (b ++ ']' :: r) ha (.inl <| stops_blank hb (.inr (.inl rfl))) (by omega)]
      dsimp only
      rw [skipWs_blank hb (tight_cons (by decide))]
      dsimp only
      rw [if_neg (by decide), if_pos rfl]
  | d, _, _, .more (a := a) (s := s) (b := b) (t := t) ha h hb ht, n, r, hn => by
      obtain ⟨n, rfl⟩ : ∃ m, n = m + 1 := ⟨n - 1, by omega⟩
      simp only [List.length_append, List.length_cons] at hn
      have e : a ++ (s ++ (b ++ ',' :: t)) ++ ']' :: r = a ++ (s ++ (b ++ ',' :: (t ++ ']' :: r))) := by simp
      rw [e, items, value_complete h n a (b ++ ',' :: (t ++ ']' :: r)) ha (.inl <| stops_blank hb (.inl rfl)) (by omega)]
      dsimp only
      rw [skipWs_blank hb (tight_cons (by decide))]
      dsimp only
      rw [if_pos rfl, items_complete ht n r (by omega)]; rfl
theorem entries_complete {fits : Str → Bool} : ∀ {d : Nat} {fs : List (Str × Json)} {s : Str}, Entries fits d fs s →
    ∀ (n : Nat) (r : Str), 2 * s.length + 1 ≤ n → entries fits n (d + 1) (s ++ '}' :: r) = some (fs, r)
  | d, _, _, .one (a := a) (q := q) (b := b) (c := c) (s := s) (e := e) ha hk hb hc h he, n, r, hn => by
      obtain ⟨n, rfl⟩ : ∃ m, n = m + 1 := ⟨n - 1, by omega⟩
      simp only [List.length_append, List.length_cons] at hn
      have e0 : a ++ '"' :: (q ++ '"' :: (b ++ ':' :: (c ++ (s ++ e)))) ++ '}' :: r =
          a ++ '"' :: (q ++ '"' :: (b ++ ':' :: (c ++ (s ++ (e ++ '}' :: r))))) := by simp
      rw [e0, entries, skipWs_blank ha (tight_cons (by decide))]
      dsimp only
      rw [if_neg (by decide), string_complete hk n _ (by omega)]
      dsimp only
      rw [skipWs_blank hb (tight_cons (by decide))]
      dsimp only
      rw [if_neg (by decide), value_complete h n c (e ++ '}' :: r) hc (.inl <| stops_blank he (.inr (.inr rfl))) (by omega)]
      dsimp only
      rw [skipWs_blank he (tight_cons (by decide))]
      dsimp only
      rw [if_neg (by decide), if_pos rfl]
  | d, _, _, .more (a := a) (q := q) (b := b) (c := c) (s := s) (e := e) (t := t) ha hk hb hc h he ht, n, r, hn => by
      obtain ⟨n, rfl⟩ : ∃ m, n = m + 1 := ⟨n - 1, by omega⟩
      simp only [List.length_append, List.length_cons] at hn
      have e0 : a ++ '"' :: (q ++ '"' :: (b ++ ':' :: (c ++ (s ++ (e ++ ',' :: t))))) ++ '}' :: r =
          a ++ '"' :: (q ++ '"' :: (b ++ ':' :: (c ++ (s ++ (e ++ ',' :: (t ++ '}' :: r)))))) := by simp
      rw [e0, entries, skipWs_blank ha (tight_cons (by decide))]
      dsimp only
      rw [if_neg (by decide), string_complete hk n _ (by omega)]
      dsimp only
      rw [skipWs_blank hb (tight_cons (by decide))]
      dsimp only
      rw [if_neg (by decide), value_complete h n c (e ++ ',' :: (t ++ '}' :: r)) hc (.inl <| stops_blank he (.inl rfl)) (by omega)]
      dsimp only
      rw [skipWs_blank he (tight_cons (by decide))]
      dsimp only
      rw [if_pos rfl, entries_complete ht n r (by omega)]; rfl
end

end Ethabi.JsonText

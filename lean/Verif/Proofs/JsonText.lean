import Verif.Model.JsonText
import Verif.Spec.JsonText
/-!
# The parser of JSON texts accepts the grammar: strings and numbers
-/
namespace Ethabi.JsonText
open JsonGrammar

/-! ## White space -/

theorem isWs_iff (c : Char) : isWs c = true ↔ c = ' ' ∨ c = '\n' ∨ c = '\t' ∨ c = '\r' := by
  simp [isWs, or_assoc]

theorem blank_iff (w : Str) : Blank w ↔ ∀ c ∈ w, isWs c = true := by
  simp only [Blank, isWs_iff]

/-- no white space at the start -/
def Tight (s : Str) : Prop := ∀ c t, s = c :: t → isWs c = false

theorem skipWs_blank {w s : Str} (hw : Blank w) (hs : Tight s) : skipWs (w ++ s) = s := by
  rw [blank_iff] at hw
  induction w with
  | nil =>
    cases s with
    | nil => rfl
    | cons c s => simp [skipWs, List.dropWhile, hs c s rfl]
  | cons c w ih =>
    have h1 := hw c List.mem_cons_self
    have h2 := ih fun d hd => hw d (List.mem_cons_of_mem _ hd)
    simpa [skipWs, List.dropWhile, h1] using h2

theorem skipWs_split (s : Str) : ∃ w, Blank w ∧ s = w ++ skipWs s :=
  ⟨s.takeWhile isWs, (blank_iff _).2 fun c hc => by
    have := List.all_takeWhile (p := isWs) (l := s)
    exact List.all_eq_true.1 this c hc, (List.takeWhile_append_dropWhile).symm⟩

theorem skipWs_tight (s : Str) : Tight (skipWs s) := by
  intro c t h
  have := List.head?_dropWhile_not isWs s
  rw [skipWs] at h
  rw [h] at this
  simpa using this

theorem skipWs_nil {s : Str} : skipWs s = [] ↔ Blank s := by
  constructor
  · intro h
    obtain ⟨w, hw, e⟩ := skipWs_split s
    rw [h, List.append_nil] at e
    rw [e]; exact hw
  · intro h
    have := skipWs_blank h (s := []) (by intro c t e; cases e)
    simpa using this

/-! ## Strings -/

theorem hexTable : ∀ n, n < 128 → (hexVal (Char.ofNat n)).all (fun v =>
    decide ("0123456789abcdef".toList[v]? = some (Char.ofNat n)) ||
      decide ("0123456789ABCDEF".toList[v]? = some (Char.ofNat n))) = true := by decide +kernel

theorem hexTable' : ∀ v, v < 16 → ("0123456789abcdef".toList[v]?).all (fun c => hexVal c == some v) = true ∧
    ("0123456789ABCDEF".toList[v]?).all (fun c => hexVal c == some v) = true := by decide +kernel

theorem hexVal_iff (c : Char) (v : Nat) : hexVal c = some v ↔ HexDigit c v := by
  constructor
  · intro h
    have hlt : c.toNat < 128 := by
      simp only [hexVal] at h
      split at h
      · omega
      · split at h
        · omega
        · split at h
          · omega
          · cases h
    have := hexTable c.toNat hlt
    rw [Char.ofNat_toNat, h, Option.all_some, Bool.or_eq_true, decide_eq_true_eq, decide_eq_true_eq] at this
    exact this
  · intro h
    have hv : v < 16 := by
      rcases h with h | h
      · have := (List.getElem?_eq_some_iff.1 h).1; exact this
      · have := (List.getElem?_eq_some_iff.1 h).1; exact this
    obtain ⟨k1, k2⟩ := hexTable' v hv
    rcases h with h | h
    · rw [h, Option.all_some, beq_iff_eq] at k1; exact k1
    · rw [h, Option.all_some, beq_iff_eq] at k2; exact k2

theorem hex4_sound {s r : Str} {n : Nat} (h : hex4 s = some (n, r)) : ∃ k, Hex4 n k ∧ s = k ++ r := by
  rcases s with _ | ⟨a, _ | ⟨b, _ | ⟨c, _ | ⟨d, s⟩⟩⟩⟩ <;> simp only [hex4] at h <;> try cases h
  split at h
  · rename_i w x y z h1 h2 h3 h4
    simp only [Option.some.injEq, Prod.mk.injEq] at h
    obtain ⟨rfl, rfl⟩ := h
    refine ⟨[a, b, c, d], ?_, rfl⟩
    have e : ((w * 16 + x) * 16 + y) * 16 + z = 4096 * w + 256 * x + 16 * y + z := by omega
    rw [e]
    exact .mk ((hexVal_iff _ _).1 h1) ((hexVal_iff _ _).1 h2) ((hexVal_iff _ _).1 h3) ((hexVal_iff _ _).1 h4)
  · cases h

theorem hex4_complete {k r : Str} {n : Nat} (h : Hex4 n k) : hex4 (k ++ r) = some (n, r) := by
  cases h with
  | mk ha hb hc hd =>
    simp only [List.cons_append, List.nil_append, hex4, (hexVal_iff _ _).2 ha, (hexVal_iff _ _).2 hb, (hexVal_iff _ _).2 hc,
      (hexVal_iff _ _).2 hd]
    congr 2
    omega

theorem hex4_length {k : Str} {n : Nat} (h : Hex4 n k) : k.length = 4 := by cases h; rfl

theorem shortEscape_sound {e c : Char} (h : shortEscape e = some c) : (e, c) ∈ shorts := by
  unfold shortEscape at h
  repeat' split at h
  all_goals first | (cases h; done) | (rename_i he; cases h; subst he; decide)

theorem shortEscape_complete {e c : Char} (h : (e, c) ∈ shorts) : shortEscape e = some c ∧ e ≠ 'u' := by
  have key : ∀ p ∈ shorts, shortEscape p.1 = some p.2 ∧ p.1 ≠ 'u' := by decide
  exact key (e, c) h

theorem escape_sound {s r : Str} {c : Char} (h : escape s = some (c, r)) : ∃ e, Escaped c ('\\' :: e) ∧ s = e ++ r := by
  cases s with
  | nil => cases h
  | cons a s =>
    rw [escape] at h
    by_cases hu : a = 'u'
    · subst hu
      rw [if_pos rfl] at h
      cases h4 : hex4 s with
      | none => rw [h4] at h; cases h
      | some p =>
        obtain ⟨n, s'⟩ := p
        rw [h4] at h
        obtain ⟨k, hk, rfl⟩ := hex4_sound h4
        dsimp only at h
        split at h
        · cases h
        · split at h
          · rename_i h1 h2
            split at h
            · rename_i s''
              cases h5 : hex4 s'' with
              | none => rw [h5] at h; cases h
              | some q =>
                obtain ⟨m, s3⟩ := q
                rw [h5] at h
                obtain ⟨k', hk', rfl⟩ := hex4_sound h5
                dsimp only at h
                split at h
                · rename_i h6
                  simp only [Option.some.injEq, Prod.mk.injEq] at h
                  obtain ⟨rfl, rfl⟩ := h
                  have e : (n - 0xD800) * 0x400 + (m - 0xDC00) + 0x10000 = 0x10000 + 0x400 * (n - 0xD800) + (m - 0xDC00) := by omega
                  rw [e]
                  exact ⟨'u' :: k ++ '\\' :: 'u' :: k', Escaped.pair hk hk' h2 h6, by simp⟩
                · cases h
            · cases h
          · rename_i h1 h2
            simp only [Option.some.injEq, Prod.mk.injEq] at h
            obtain ⟨rfl, rfl⟩ := h
            exact ⟨'u' :: k, Escaped.code hk (by omega), by simp⟩
    · rw [if_neg hu] at h
      cases hs : shortEscape a with
      | none => rw [hs] at h; cases h
      | some d =>
        rw [hs] at h
        cases h
        exact ⟨[a], Escaped.short (shortEscape_sound hs), rfl⟩

theorem escape_complete {r e : Str} {c : Char} (h : Escaped c ('\\' :: e)) : escape (e ++ r) = some (c, r) := by
  generalize hx : '\\' :: e = x at h
  cases h with
  | plain h1 h2 h3 => cases hx; exact absurd rfl h2
  | short h =>
    cases hx
    obtain ⟨h1, h2⟩ := shortEscape_complete h
    simp [escape, h1, h2]
  | code hh hn =>
    cases hx
    rw [List.cons_append, escape, if_pos rfl, hex4_complete hh]
    dsimp only
    rw [if_neg (by omega), if_neg (by omega)]
  | pair hh hk hn hm =>
    rename_i n m h k
    cases hx
    have e : ('u' :: h ++ '\\' :: 'u' :: k) ++ r = 'u' :: (h ++ ('\\' :: 'u' :: (k ++ r))) := by simp
    show escape (('u' :: h ++ '\\' :: 'u' :: k) ++ r) = _
    rw [e, escape, if_pos rfl, hex4_complete hh]
    dsimp only
    rw [if_neg (by omega), if_pos hn]
    show (match hex4 (k ++ r) with
      | none => none
      | some (m, s) => if 0xDC00 ≤ m ∧ m ≤ 0xDFFF then some (Char.ofNat ((n - 0xD800) * 0x400 + (m - 0xDC00) + 0x10000), s) else none) = _
    rw [hex4_complete hk]
    dsimp only
    rw [if_pos hm]
    have e' : (n - 0xD800) * 0x400 + (m - 0xDC00) + 0x10000 = 0x10000 + 0x400 * (n - 0xD800) + (m - 0xDC00) := by omega
    rw [e']

theorem string_sound (n : Nat) : ∀ {s t r : Str}, string n s = some (t, r) → ∃ q, Chars t q ∧ s = q ++ '"' :: r := by
  induction n with
  | zero => intro s t r h; cases h
  | succ n ih =>
    intro s t r h
    cases s with
    | nil => cases h
    | cons c s =>
      rw [string] at h
      by_cases h1 : c = '"'
      · rw [if_pos h1] at h
        cases h
        subst h1
        exact ⟨[], .nil, rfl⟩
      · rw [if_neg h1] at h
        by_cases h2 : c = '\\'
        · rw [if_pos h2] at h
          subst h2
          cases he : escape s with
          | none => rw [he] at h; cases h
          | some p =>
            obtain ⟨d, s'⟩ := p
            rw [he] at h
            dsimp only at h
            cases hs : string n s' with
            | none => rw [hs] at h; cases h
            | some q =>
              obtain ⟨t', r'⟩ := q
              rw [hs] at h
              cases h
              obtain ⟨e, h3, rfl⟩ := escape_sound he
              obtain ⟨q, h4, rfl⟩ := ih hs
              exact ⟨('\\' :: e) ++ q, .cons h3 h4, by simp⟩
        · rw [if_neg h2] at h
          split at h
          · cases h
          · rename_i h3
            cases hs : string n s with
            | none => rw [hs] at h; cases h
            | some q =>
              obtain ⟨t', r'⟩ := q
              rw [hs] at h
              cases h
              obtain ⟨q, h4, rfl⟩ := ih hs
              exact ⟨[c] ++ q, .cons (.plain h1 h2 (by omega)) h4, by simp⟩

theorem string_complete {t q : Str} (h : Chars t q) : ∀ (n : Nat) (r : Str), q.length < n → string n (q ++ '"' :: r) = some (t, r) := by
  induction h with
  | nil =>
    intro n r hn
    cases n with
    | zero => exact absurd hn (Nat.not_lt_zero _)
    | succ n => simp [string]
  | @cons c t e s he _ ih =>
    intro n r hn
    cases n with
    | zero => exact absurd hn (Nat.not_lt_zero _)
    | succ n =>
      have plainCase : ∀ {c : Char}, c ≠ '"' → c ≠ '\\' → 32 ≤ c.toNat → s.length < n →
          string (n + 1) ([c] ++ s ++ '"' :: r) = some (c :: t, r) := by
        intro c h1 h2 h3 hl
        rw [List.append_assoc, List.singleton_append, string, if_neg h1, if_neg h2, if_neg (by omega), ih n r hl]; rfl
      have escCase : ∀ {e' : Str}, Escaped c ('\\' :: e') → s.length < n →
          string (n + 1) (('\\' :: e') ++ s ++ '"' :: r) = some (c :: t, r) := by
        intro e' h' hl
        have : ('\\' :: e') ++ s ++ '"' :: r = '\\' :: (e' ++ (s ++ '"' :: r)) := by simp
        rw [this, string, if_neg (by decide), if_pos rfl, escape_complete h']
        dsimp only
        rw [ih n r hl]; rfl
      rw [List.length_append] at hn
      generalize hx : e = x at he
      cases he with
      | plain h1 h2 h3 => exact plainCase h1 h2 h3 (by rw [hx] at hn; simp at hn; omega)
      | short h => exact escCase (.short h) (by rw [hx] at hn; simp at hn; omega)
      | code hh hc => exact escCase (.code hh hc) (by rw [hx] at hn; simp at hn; omega)
      | pair hh hk hc hm => exact escCase (.pair hh hk hc hm) (by rw [hx] at hn; simp at hn; omega)

/-! ## Numbers -/

theorem isDigit_iff (c : Char) : isDigit c = true ↔ c ∈ "0123456789".toList := by
  constructor
  · intro h
    have hlt : c.toNat < 128 := by
      simp only [isDigit, Bool.and_eq_true, decide_eq_true_eq] at h
      have : ('9' : Char).toNat = 57 := rfl
      omega
    have key : ∀ n, n < 128 → isDigit (Char.ofNat n) = true → Char.ofNat n ∈ "0123456789".toList := by decide +kernel
    have := key c.toNat hlt
    rw [Char.ofNat_toNat] at this
    exact this h
  · intro h
    have key : ∀ c ∈ "0123456789".toList, isDigit c = true := by decide
    exact key c h

/-- the text does not go on with a digit -/
def NoDigit (s : Str) : Prop := ∀ c t, s = c :: t → isDigit c = false

theorem digits_sound {s d r : Str} (h : digits s = some (d, r)) : Digits d ∧ s = d ++ r ∧ NoDigit r := by
  rw [digits] at h
  split at h
  · cases h
  · rename_i hne
    cases h
    refine ⟨⟨fun e => hne (by rw [e]; rfl), fun c hc => ?_⟩, List.takeWhile_append_dropWhile.symm, ?_⟩
    · exact (isDigit_iff c).1 (List.all_eq_true.1 (List.all_takeWhile (p := isDigit) (l := s)) c hc)
    · intro c t e
      have := List.head?_dropWhile_not isDigit s
      rw [e] at this
      simpa using this

theorem digits_complete {d r : Str} (h : Digits d) (hr : NoDigit r) : digits (d ++ r) = some (d, r) := by
  have h1 : ∀ c ∈ d, isDigit c = true := fun c hc => (isDigit_iff c).2 (h.2 c hc)
  have h2 : r.takeWhile isDigit = [] ∧ r.dropWhile isDigit = r := by
    cases r with
    | nil => exact ⟨rfl, rfl⟩
    | cons c r => simp [List.takeWhile, List.dropWhile, hr c r rfl]
  rw [digits, List.takeWhile_append_of_pos h1, List.dropWhile_append_of_pos h1, h2.1, h2.2, List.append_nil, if_neg]
  simpa using h.1

theorem fraction_sound {s f r : Str} (h : fraction s = some (f, r)) : Fraction f ∧ s = f ++ r := by
  unfold fraction at h
  split at h
  · rename_i s'
    cases hd : digits s' with
    | none => rw [hd] at h; cases h
    | some p =>
      obtain ⟨d, r'⟩ := p
      rw [hd] at h
      cases h
      obtain ⟨h1, h2, _⟩ := digits_sound hd
      exact ⟨.inr ⟨d, h1, rfl⟩, by rw [h2]; rfl⟩
  · cases h; exact ⟨.inl rfl, rfl⟩

/-- the text does not go on like a number -/
def Stops (s : Str) : Prop := ∀ c t, s = c :: t → isDigit c = false ∧ c ≠ '.' ∧ c ≠ 'e' ∧ c ≠ 'E'

theorem fraction_complete {f r : Str} (h : Fraction f) (hr : NoDigit r) (hp : ∀ t, r ≠ '.' :: t) : fraction (f ++ r) = some (f, r) := by
  rcases h with rfl | ⟨d, hd, rfl⟩
  · rw [List.nil_append]
    unfold fraction
    split
    · exact absurd rfl (hp _)
    · rfl
  · rw [List.cons_append, fraction, digits_complete hd hr]; rfl

theorem expSign_split (s : Str) : ((expSign s).1 = [] ∨ (expSign s).1 = ['+'] ∨ (expSign s).1 = ['-']) ∧ s = (expSign s).1 ++ (expSign s).2 := by
  unfold expSign
  split <;> simp

theorem exponent_sound {s e r : Str} (h : exponent s = some (e, r)) : Exponent e ∧ s = e ++ r := by
  cases s with
  | nil => cases h; exact ⟨.inl rfl, rfl⟩
  | cons c s =>
    rw [exponent] at h
    split at h
    · rename_i hc
      cases hd : digits (expSign s).2 with
      | none => rw [hd] at h; cases h
      | some p =>
        obtain ⟨d, r'⟩ := p
        rw [hd] at h
        cases h
        obtain ⟨h1, h2, _⟩ := digits_sound hd
        obtain ⟨h3, h4⟩ := expSign_split s
        refine ⟨.inr ⟨c, _, d, by simpa using hc, h3, h1, rfl⟩, ?_⟩
        rw [List.append_assoc, ← h2, List.cons_append, ← h4]
    · cases h; exact ⟨.inl rfl, rfl⟩

theorem digits_head {d : Str} (h : Digits d) : ∃ c t, d = c :: t ∧ c ∈ "0123456789".toList := by
  obtain ⟨c, t, rfl⟩ := List.exists_cons_of_ne_nil h.1
  exact ⟨c, t, rfl, h.2 c List.mem_cons_self⟩

theorem exponent_complete {e r : Str} (h : Exponent e) (hr : Stops r) : exponent (e ++ r) = some (e, r) := by
  rcases h with rfl | ⟨c, sg, d, hc, hs, hd, rfl⟩
  · cases r with
    | nil => rfl
    | cons c r =>
      obtain ⟨-, -, h1, h2⟩ := hr c r rfl
      simp [exponent, h1, h2]
  · have e1 : expSign (sg ++ (d ++ r)) = (sg, d ++ r) := by
      rcases hs with rfl | rfl | rfl
      · obtain ⟨x, t, rfl, hx⟩ := digits_head hd
        rw [List.nil_append]
        unfold expSign
        split
        · rename_i e; cases e; exact absurd hx (by decide)
        · rename_i e; cases e; exact absurd hx (by decide)
        · rfl
      · rfl
      · rfl
    have hc' : (c = 'e' || c = 'E') = true := by simpa using hc
    rw [List.append_assoc, List.cons_append, exponent, if_pos (by simpa using hc), e1, digits_complete hd fun x t e => (hr x t e).1]
    rfl

theorem noDigit_exponent {e r : Str} (h : Exponent e) (hr : Stops r) : NoDigit (e ++ r) ∧ ∀ t, e ++ r ≠ '.' :: t := by
  rcases h with rfl | ⟨c, sg, d, hc, hs, hd, rfl⟩
  · exact ⟨fun x t e => (hr x t e).1, fun t e => (hr '.' t e).2.1 rfl⟩
  · constructor
    · intro x t e
      cases e
      rcases hc with rfl | rfl <;> decide
    · intro t e
      cases e
      rcases hc with hc | hc <;> exact absurd hc (by decide)

theorem noDigit_fraction {f r : Str} (h : Fraction f) (hr : NoDigit r) : NoDigit (f ++ r) := by
  rcases h with rfl | ⟨d, hd, rfl⟩
  · exact hr
  · intro x t e; cases e; decide

theorem whole_digits {w : Str} (h : Whole w) : Digits w := by
  rcases h with rfl | h
  · exact ⟨by simp, by decide⟩
  · exact h.1

theorem unsigned_sound {s t r : Str} {n : Nat} (h : unsigned s = some (t, n, r)) :
    ∃ w f e, Whole w ∧ Fraction f ∧ Exponent e ∧ t = w ++ f ++ e ∧ n = digitsVal w ∧ s = t ++ r := by
  simp only [unsigned, Option.bind_eq_bind, Option.bind_eq_some_iff] at h
  obtain ⟨⟨w, s1⟩, h1, h⟩ := h
  obtain ⟨hw, e1, _⟩ := digits_sound h1
  dsimp only at h
  split at h
  · cases h
  · rename_i h0
    simp only [Option.bind_eq_some_iff] at h
    obtain ⟨⟨f, s2⟩, h2, ⟨e, s3⟩, h3, h⟩ := h
    cases h
    obtain ⟨hf, e2⟩ := fraction_sound h2
    obtain ⟨he, e3⟩ := exponent_sound h3
    dsimp only at e1 e2 e3
    refine ⟨w, f, e, ?_, hf, he, rfl, rfl, by rw [e1, e2, e3]; simp⟩
    by_cases hh : w.head? = some '0'
    · left
      have hl : w.length = 1 := Decidable.byContradiction fun hne => h0 ⟨hh, hne⟩
      obtain ⟨c, rfl⟩ := List.length_eq_one_iff.1 hl
      simp only [List.head?_cons, Option.some.injEq] at hh
      rw [hh]
    · exact .inr ⟨hw, hh⟩

theorem unsigned_complete {w f e r : Str} (hw : Whole w) (hf : Fraction f) (he : Exponent e) (hr : Stops r) :
    unsigned (w ++ f ++ e ++ r) = some (w ++ f ++ e, digitsVal w, r) := by
  obtain ⟨n1, n2⟩ := noDigit_exponent he hr
  have e0 : w ++ f ++ e ++ r = w ++ (f ++ (e ++ r)) := by simp
  rw [e0, unsigned, digits_complete (whole_digits hw) (noDigit_fraction hf n1)]
  simp only [Option.bind_eq_bind, Option.bind_some]
  rw [if_neg, fraction_complete hf n1 n2]
  · simp only [Option.bind_some]
    rw [exponent_complete he hr]
    rfl
  · rintro ⟨h1, h2⟩
    rcases hw with rfl | h
    · exact h2 rfl
    · exact h.2 h1

theorem number_sound {fits : Str → Bool} {s r : Str} {j : Json} (h : number fits s = some (j, r)) :
    ∃ n t, j = .num n ∧ Number n t ∧ fits t = true ∧ s = t ++ r := by
  unfold number at h
  split at h
  · rename_i s'
    rw [Option.bind_eq_some_iff] at h
    obtain ⟨⟨t, n, r'⟩, h1, h2⟩ := h
    dsimp only at h2
    split at h2
    · rename_i hf
      cases h2
      obtain ⟨w, f, e, hw, hfr, he, rfl, rfl, rfl⟩ := unsigned_sound h1
      exact ⟨_, _, rfl, .minus hw hfr he, hf, rfl⟩
    · cases h2
  · rw [Option.bind_eq_some_iff] at h
    obtain ⟨⟨t, n, r'⟩, h1, h2⟩ := h
    dsimp only at h2
    split at h2
    · rename_i hf
      cases h2
      obtain ⟨w, f, e, hw, hfr, he, rfl, rfl, rfl⟩ := unsigned_sound h1
      exact ⟨_, _, rfl, .plus hw hfr he, hf, rfl⟩
    · cases h2

theorem number_head {n : Int} {t : Str} (h : Number n t) : ∃ c u, t = c :: u ∧ c ∈ "-0123456789".toList := by
  cases h with
  | plus hw hf he =>
    obtain ⟨c, u, rfl, hc⟩ := digits_head (whole_digits hw)
    refine ⟨c, _, rfl, ?_⟩
    exact List.mem_cons_of_mem _ hc
  | minus hw hf he => exact ⟨'-', _, rfl, by decide⟩

theorem number_complete {fits : Str → Bool} {n : Int} {t r : Str} (h : Number n t) (hf : fits t = true) (hr : Stops r) :
    number fits (t ++ r) = some (.num n, r) := by
  cases h with
  | plus hw hfr he =>
    obtain ⟨c, u, e0, hc⟩ := digits_head (whole_digits hw)
    have hu := unsigned_complete hw hfr he hr
    unfold number
    split
    · rename_i e
      rw [e0] at e
      cases e
      exact absurd hc (by decide)
    · rw [hu, Option.bind_some]
      dsimp only
      rw [if_pos hf]
  | minus hw hfr he =>
    rw [List.cons_append, number, unsigned_complete hw hfr he hr, Option.bind_some]
    dsimp only
    rw [if_pos hf]

end Ethabi.JsonText

import Verif.Model.JsonBytes
import Verif.Proofs.JsonLoad
import Verif.Proofs.Utf8
/-!
# JSON files as bytes: lemmas
-/
namespace Ethabi.JsonBytes
open JsonText JsonGrammar

/-! ## UTF-8 -/

theorem utf8_cons (c : Char) (s : Str) : utf8 (c :: s) = utf8Char c ++ utf8 s := rfl

theorem utf8_append (s t : Str) : utf8 (s ++ t) = utf8 s ++ utf8 t := by simp [utf8]

theorem utf8_single (c : Char) : utf8 [c] = utf8Char c := by simp [utf8]

theorem fromUtf8_some {bs : Bytes} {t : Str} : fromUtf8 bs = some t ↔ bs = utf8 t := by
  unfold fromUtf8
  constructor
  · intro h
    split at h
    · rename_i e; cases h; exact e.symm
    · cases h
  · rintro rfl
    rw [lossy_utf8, if_pos rfl]

/-- a character is one ASCII byte, or a leading byte and continuation bytes -/
theorem utf8Char_shape (c : Char) : (c.toNat < 128 ∧ utf8Char c = [UInt8.ofNat c.toNat]) ∨
    (128 ≤ c.toNat ∧ ∃ b bs, utf8Char c = b :: bs ∧ 192 ≤ b.toNat ∧ ∀ x ∈ bs, 128 ≤ x.toNat ∧ x.toNat < 192) := by
  have hv := char_valid c
  unfold utf8Char
  generalize c.toNat = n at *
  dsimp only
  by_cases h1 : n < 128
  · rw [if_pos h1]; exact .inl ⟨h1, rfl⟩
  · right
    refine ⟨by omega, ?_⟩
    have key : ∀ m, 128 ≤ (UInt8.ofNat (128 + m % 64)).toNat ∧ (UInt8.ofNat (128 + m % 64)).toNat < 192 := by
      intro m; rw [toNat_ofNat_lt _ (by omega)]; omega
    rw [if_neg h1]
    split
    · refine ⟨_, _, rfl, by rw [toNat_ofNat_lt _ (by omega)]; omega, ?_⟩
      simp only [List.mem_cons, List.not_mem_nil, or_false, forall_eq_or_imp, forall_eq]
      exact key n
    · split
      · refine ⟨_, _, rfl, by rw [toNat_ofNat_lt _ (by omega)]; omega, ?_⟩
        simp only [List.mem_cons, List.not_mem_nil, or_false, forall_eq_or_imp, forall_eq]
        exact ⟨key _, key _⟩
      · refine ⟨_, _, rfl, by rw [toNat_ofNat_lt _ (by omega)]; omega, ?_⟩
        simp only [List.mem_cons, List.not_mem_nil, or_false, forall_eq_or_imp, forall_eq]
        exact ⟨key _, key _, key _⟩

theorem utf8Char_ne (c : Char) : utf8Char c ≠ [] := by
  rcases utf8Char_shape c with ⟨_, h⟩ | ⟨_, b, bs, h, _⟩ <;> rw [h] <;> simp

/-- the first byte of a character is no continuation byte -/
theorem utf8Char_head (c : Char) : ∃ b bs, utf8Char c = b :: bs ∧ (b.toNat < 128 ∨ 192 ≤ b.toNat) := by
  rcases utf8Char_shape c with ⟨h1, h⟩ | ⟨_, b, bs, h, h2, _⟩
  · exact ⟨_, _, h, .inl (by rw [toNat_ofNat_lt _ (by omega)]; exact h1)⟩
  · exact ⟨b, bs, h, .inr h2⟩

/-- the bytes of an ASCII character -/
theorem utf8Char_ascii {b : UInt8} (h : b.toNat < 128) : utf8Char (Char.ofNat b.toNat) = [b] := by
  have e : (Char.ofNat b.toNat).toNat = b.toNat := by
    have key : ∀ n, n < 128 → (Char.ofNat n).toNat = n := by decide +kernel
    exact key _ h
  rcases utf8Char_shape (Char.ofNat b.toNat) with ⟨_, h2⟩ | ⟨h1, _⟩
  · rw [h2, e]; simp
  · omega

theorem utf8_cancel {t : Str} : ∀ {p : Bytes} {u : Str}, utf8 t ++ p = utf8 u → ∃ u', u = t ++ u' ∧ p = utf8 u' := by
  induction t with
  | nil => intro p u h; exact ⟨u, rfl, h⟩
  | cons c t ih =>
    intro p u h
    cases u with
    | nil =>
      have := utf8Char_ne c
      rw [utf8_cons] at h
      simp [utf8] at h
      exact absurd h.1 this
    | cons c' u =>
      rw [utf8_cons, utf8_cons, List.append_assoc] at h
      have h1 := congrArg fromUtf8Lossy h
      rw [lossy_char, lossy_char, List.cons.injEq] at h1
      obtain ⟨rfl, -⟩ := h1
      rw [List.append_cancel_left_eq] at h
      obtain ⟨u', rfl, h2⟩ := ih h
      exact ⟨u', rfl, h2⟩

/-- bytes that do not start with a character -/
def Stuck (junk : Bytes) : Prop := junk ≠ [] ∧ ∀ c r, junk ≠ utf8Char c ++ r

/-- every sequence of bytes is a text and then nothing, or something that is no character -/
theorem utf8_split : ∀ (n : Nat) (bs : Bytes), bs.length ≤ n → ∃ s junk, bs = utf8 s ++ junk ∧ (junk = [] ∨ Stuck junk) := by
  intro n
  induction n with
  | zero =>
    intro bs h
    have : bs = [] := List.length_eq_zero_iff.1 (by omega)
    exact ⟨[], [], by simp [this, utf8], .inl rfl⟩
  | succ n ih =>
    intro bs h
    by_cases hs : ∃ c r, bs = utf8Char c ++ r
    · obtain ⟨c, r, rfl⟩ := hs
      have h1 : 0 < (utf8Char c).length := List.length_pos_iff.2 (utf8Char_ne c)
      obtain ⟨s, junk, rfl, hj⟩ := ih r (by rw [List.length_append] at h; omega)
      exact ⟨c :: s, junk, by rw [utf8_cons, List.append_assoc], hj⟩
    · by_cases hb : bs = []
      · exact ⟨[], [], by simp [hb, utf8], .inl rfl⟩
      · exact ⟨[], bs, by simp [utf8], .inr ⟨hb, fun c r e => hs ⟨c, r, e⟩⟩⟩

theorem stuck_head {b : UInt8} {bs : Bytes} (h : Stuck (b :: bs)) : 128 ≤ b.toNat := by
  by_contra hb
  exact h.2 (Char.ofNat b.toNat) bs (by rw [utf8Char_ascii (by omega)]; rfl)

theorem stuck_prefix {p q : Bytes} (hp : p ≠ []) (h : Stuck (p ++ q)) (t : Str) : fromUtf8 (utf8 t ++ p) = none := by
  cases hf : fromUtf8 (utf8 t ++ p) with
  | none => rfl
  | some u =>
    obtain ⟨u', rfl, h1⟩ := utf8_cancel (fromUtf8_some.1 hf)
    cases u' with
    | nil => exact absurd h1 hp
    | cons c u' =>
      rw [h1, utf8_cons, List.append_assoc] at h
      exact absurd rfl (h.2 c _)

theorem stuck_poison {p q : Bytes} (hp : p ≠ []) (h : Stuck (p ++ q)) (t : Str) (d : Char) (x : Bytes) :
    fromUtf8 (utf8 t ++ p ++ utf8Char d ++ x) = none := by
  cases hf : fromUtf8 (utf8 t ++ p ++ utf8Char d ++ x) with
  | none => rfl
  | some u =>
    have h0 := fromUtf8_some.1 hf
    rw [List.append_assoc, List.append_assoc] at h0
    obtain ⟨u', rfl, h1⟩ := utf8_cancel h0
    exfalso
    cases u' with
    | nil =>
      have : p = [] := (List.append_eq_nil_iff.1 h1).1
      exact hp this
    | cons c u' =>
      rw [utf8_cons, List.append_eq_append_iff] at h1
      rcases h1 with ⟨m, h2, h3⟩ | ⟨m, h2, h3⟩
      · -- the character is `p` and more
        obtain ⟨b, bs, hb, hb'⟩ := utf8Char_head d
        cases m with
        | nil =>
          rw [List.append_nil] at h2
          exact h.2 c q (by rw [h2])
        | cons y m =>
          rw [hb] at h3
          have hy : b = y := by
            rw [List.cons_append, List.cons_append] at h3
            exact (List.cons.inj h3).1
          subst hy
          obtain ⟨z, p', rfl⟩ := List.exists_cons_of_ne_nil hp
          rcases utf8Char_shape c with ⟨_, hc⟩ | ⟨_, b', bs', hc, _, hc'⟩
          · rw [hc] at h2
            have := congrArg List.length h2
            simp at this
          · rw [hc, List.cons_append, List.cons.injEq] at h2
            have := hc' b (by rw [h2.2]; simp)
            omega
      · exact h.2 c (m ++ q) (by rw [h2, List.append_assoc])

/-! ## Texts as bytes -/

theorem latin_append (a b : Bytes) : latin (a ++ b) = latin a ++ latin b := by simp [latin]

theorem char_ofByte (b : UInt8) : (Char.ofNat b.toNat).toNat = b.toNat := by
  have key : ∀ n, n < 256 → (Char.ofNat n).toNat = n := by decide +kernel
  exact key _ b.toNat_lt

/-- a text and what follows it, as bytes -/
def bytesOf (s k : Str) : Str := latin (utf8 s) ++ k

/-- not ASCII at its start -/
def Far (s : Str) : Prop := ∀ c t, s = c :: t → 128 ≤ c.toNat

theorem far_junk {junk : Bytes} (h : junk = [] ∨ Stuck junk) : Far (latin junk) := by
  intro c t e
  cases junk with
  | nil => cases e
  | cons b bs =>
    cases e
    rcases h with h | h
    · cases h
    · rw [char_ofByte]; exact stuck_head h

theorem bytesOf_nil (k : Str) : bytesOf [] k = k := by simp [bytesOf, utf8, latin]

theorem bytesOf_cons (c : Char) (s k : Str) : bytesOf (c :: s) k = latin (utf8Char c) ++ bytesOf s k := by
  simp [bytesOf, utf8_cons, latin_append]

theorem latin_ascii {c : Char} (h : c.toNat < 128) : latin (utf8Char c) = [c] := by
  rcases utf8Char_shape c with ⟨_, e⟩ | ⟨h', _⟩
  · rw [e]; simp only [latin, List.map_cons, List.map_nil]
    rw [toNat_ofNat_lt _ (by omega), Char.ofNat_toNat]
  · omega

theorem bytesOf_ascii {c : Char} (h : c.toNat < 128) (s k : Str) : bytesOf (c :: s) k = c :: bytesOf s k := by
  rw [bytesOf_cons, latin_ascii h]; rfl

/-- the first byte of a text and its first character are the same when one of them is ASCII -/
theorem bytesOf_cases (s : Str) {k : Str} (hk : Far k) :
    (∃ c s', c.toNat < 128 ∧ s = c :: s' ∧ bytesOf s k = c :: bytesOf s' k) ∨ (Far s ∧ Far (bytesOf s k)) := by
  cases s with
  | nil => exact .inr ⟨(by intro c t e; cases e), (by rw [bytesOf_nil]; exact hk)⟩
  | cons c s =>
    by_cases h : c.toNat < 128
    · exact .inl ⟨c, s, h, rfl, bytesOf_ascii h s k⟩
    · refine .inr ⟨by intro d t e; cases e; omega, ?_⟩
      rcases utf8Char_shape c with ⟨h', _⟩ | ⟨_, b, bs, hb, h2, _⟩
      · omega
      · intro d t e
        rw [bytesOf_cons, hb] at e
        simp only [latin, List.map_cons, List.cons_append, List.cons.injEq] at e
        rw [← e.1, char_ofByte]; omega

theorem bytesOf_append_ascii {a : Str} (h : ∀ c ∈ a, c.toNat < 128) (s k : Str) : bytesOf (a ++ s) k = a ++ bytesOf s k := by
  induction a with
  | nil => rfl
  | cons c a ih =>
    rw [List.cons_append, bytesOf_ascii (h c List.mem_cons_self), ih fun d hd => h d (List.mem_cons_of_mem _ hd), List.cons_append]

/-- ASCII at the start of the bytes is the same ASCII at the start of the text -/
theorem ascii_prefix {a : Str} (h : ∀ c ∈ a, c.toNat < 128) {k : Str} (hk : Far k) : ∀ {s r : Str}, bytesOf s k = a ++ r →
    ∃ r0, s = a ++ r0 ∧ r = bytesOf r0 k := by
  induction a with
  | nil => intro s r e; exact ⟨s, rfl, e.symm⟩
  | cons c a ih =>
    intro s r e
    have hc := h c List.mem_cons_self
    rcases bytesOf_cases s hk with ⟨d, s', _, rfl, e'⟩ | ⟨_, h2⟩
    · rw [e', List.cons_append, List.cons.injEq] at e
      obtain ⟨rfl, e⟩ := e
      obtain ⟨r0, rfl, h3⟩ := ih (fun d hd => h d (List.mem_cons_of_mem _ hd)) e
      exact ⟨r0, rfl, h3⟩
    · have := h2 c (a ++ r) e
      omega

theorem bytesOf_length (s k : Str) : s.length + k.length ≤ (bytesOf s k).length := by
  induction s with
  | nil => rw [bytesOf_nil]; simp
  | cons c s ih =>
    have : 0 < (utf8Char c).length := List.length_pos_iff.2 (utf8Char_ne c)
    rw [bytesOf_cons, List.length_append]
    simp only [latin, List.length_map, List.length_cons]
    omega

theorem bytesOf_append (a s k : Str) : bytesOf (a ++ s) k = latin (utf8 a) ++ bytesOf s k := by
  simp [bytesOf, utf8_append, latin_append]

/-- what is behind a part of the text has as many bytes less, at least -/
theorem bytesOf_length_append (a s k : Str) : a.length + (bytesOf s k).length ≤ (bytesOf (a ++ s) k).length := by
  rw [bytesOf_append, List.length_append]
  have := bytesOf_length a []
  simp [bytesOf] at this
  omega

/-! ## Functions that look at ASCII only -/

theorem takeWhile_bytes {p : Char → Bool} (hp : ∀ c, p c = true → c.toNat < 128) {k : Str} (hk : Far k) (s : Str) :
    (bytesOf s k).takeWhile p = s.takeWhile p ∧ (bytesOf s k).dropWhile p = bytesOf (s.dropWhile p) k := by
  have far : ∀ x : Str, Far x → x.takeWhile p = [] ∧ x.dropWhile p = x := by
    intro x hx
    cases x with
    | nil => exact ⟨rfl, rfl⟩
    | cons c x =>
      have : p c = false := by
        cases hc : p c with
        | false => rfl
        | true => have := hp c hc; have := hx c x rfl; omega
      simp [List.takeWhile, List.dropWhile, this]
  induction s with
  | nil => rw [bytesOf_nil]; exact ⟨(far k hk).1, by rw [(far k hk).2]; simp [bytesOf_nil]⟩
  | cons c s ih =>
    rcases bytesOf_cases (c :: s) hk with ⟨d, s', _, e1, e⟩ | ⟨h1, h2⟩
    · cases e1
      rw [e]
      cases hc : p c with
      | true => simp [List.takeWhile, List.dropWhile, hc, ih]
      | false => simp [List.takeWhile, List.dropWhile, hc, e]
    · rw [(far _ h1).1, (far _ h1).2, (far _ h2).1, (far _ h2).2]; exact ⟨rfl, rfl⟩

theorem skipWs_bytes {k : Str} (hk : Far k) (s : Str) : skipWs (bytesOf s k) = bytesOf (skipWs s) k := by
  refine (takeWhile_bytes ?_ hk s).2
  intro c hc
  rw [isWs_iff] at hc
  rcases hc with rfl | rfl | rfl | rfl <;> decide

theorem isDigit_ascii (c : Char) (h : isDigit c = true) : c.toNat < 128 := by
  rw [isDigit_iff] at h
  have key : ∀ c ∈ "0123456789".toList, c.toNat < 128 := by decide
  exact key c h

theorem digits_bytes {k : Str} (hk : Far k) (s : Str) :
    digits (bytesOf s k) = (digits s).map fun (d, r) => (d, bytesOf r k) := by
  obtain ⟨h1, h2⟩ := takeWhile_bytes isDigit_ascii hk s
  unfold digits
  rw [h1, h2]
  split <;> rfl

theorem far_cons {c : Char} {x t : Str} (h : Far x) (e : x = c :: t) (d : Char) (hd : d.toNat < 128) : c ≠ d := by
  rintro rfl
  have := h c t e
  omega

theorem fraction_far {x : Str} (h : Far x) : fraction x = some ([], x) := by
  unfold fraction
  split
  · exact absurd rfl (far_cons h rfl '.' (by decide))
  · rfl

theorem fraction_bytes {k : Str} (hk : Far k) (s : Str) :
    fraction (bytesOf s k) = (fraction s).map fun (d, r) => (d, bytesOf r k) := by
  rcases bytesOf_cases s hk with ⟨c, s', hc, rfl, e⟩ | ⟨h1, h2⟩
  · rw [e]
    by_cases hd : c = '.'
    · subst hd
      simp only [fraction, digits_bytes hk]
      cases digits s' <;> rfl
    · have : ∀ y, fraction (c :: y) = some ([], c :: y) := by
        intro y
        unfold fraction
        split
        · rename_i e; cases e; exact absurd rfl hd
        · rfl
      rw [this, this, Option.map_some]
      dsimp only
      rw [e]
  · rw [fraction_far h1, fraction_far h2]; rfl

theorem expSign_far {x : Str} (h : Far x) : expSign x = ([], x) := by
  unfold expSign
  split
  · exact absurd rfl (far_cons h rfl '+' (by decide))
  · exact absurd rfl (far_cons h rfl '-' (by decide))
  · rfl

theorem expSign_bytes {k : Str} (hk : Far k) (s : Str) :
    expSign (bytesOf s k) = ((expSign s).1, bytesOf (expSign s).2 k) := by
  rcases bytesOf_cases s hk with ⟨c, s', hc, rfl, e⟩ | ⟨h1, h2⟩
  · rw [e]
    by_cases hp : c = '+'
    · subst hp; rfl
    · by_cases hm : c = '-'
      · subst hm; rfl
      · have : ∀ y, expSign (c :: y) = ([], c :: y) := by
          intro y
          unfold expSign
          split
          · rename_i e; cases e; exact absurd rfl hp
          · rename_i e; cases e; exact absurd rfl hm
          · rfl
        rw [this, this, e]
  · rw [expSign_far h1, expSign_far h2]

theorem exponent_far {x : Str} (h : Far x) : exponent x = some ([], x) := by
  cases x with
  | nil => rfl
  | cons c x =>
    have h1 := far_cons h rfl 'e' (by decide)
    have h2 := far_cons h rfl 'E' (by decide)
    simp [exponent, h1, h2]

theorem exponent_bytes {k : Str} (hk : Far k) (s : Str) :
    exponent (bytesOf s k) = (exponent s).map fun (d, r) => (d, bytesOf r k) := by
  rcases bytesOf_cases s hk with ⟨c, s', hc, rfl, e⟩ | ⟨h1, h2⟩
  · rw [e, exponent, exponent]
    split
    · rw [expSign_bytes hk]
      dsimp only
      rw [digits_bytes hk]
      cases digits (expSign s').2 <;> rfl
    · rw [Option.map_some]
      dsimp only
      rw [e]
  · rw [exponent_far h1, exponent_far h2]; rfl

theorem unsigned_bytes {k : Str} (hk : Far k) (s : Str) :
    unsigned (bytesOf s k) = (unsigned s).map fun (t, n, r) => (t, n, bytesOf r k) := by
  simp only [unsigned]
  rw [digits_bytes hk]
  cases digits s with
  | none => rfl
  | some p =>
    obtain ⟨ds, s1⟩ := p
    simp only [Option.map_some, Option.bind_eq_bind, Option.bind_some]
    split
    · rfl
    · rw [fraction_bytes hk]
      cases fraction s1 with
      | none => rfl
      | some p =>
        obtain ⟨fs, s2⟩ := p
        simp only [Option.map_some, Option.bind_some]
        rw [exponent_bytes hk]
        cases exponent s2 with
        | none => rfl
        | some p => rfl

theorem number_bytes {fits : Str → Bool} {k : Str} (hk : Far k) (s : Str) :
    number fits (bytesOf s k) = (number fits s).map fun (j, r) => (j, bytesOf r k) := by
  have plain : ∀ x : Str, (∀ t, x ≠ '-' :: t) →
      number fits x = (unsigned x).bind fun (t, n, r) => if fits t then some (.num n, r) else none := by
    intro x hx
    unfold number
    split
    · exact absurd rfl (hx _)
    · rfl
  by_cases hm : ∃ t, s = '-' :: t
  · obtain ⟨t, rfl⟩ := hm
    rw [bytesOf_ascii (by decide), number, number, unsigned_bytes hk]
    cases unsigned t with
    | none => rfl
    | some p =>
      obtain ⟨t, n, r⟩ := p
      simp only [Option.map_some, Option.bind_some]
      split <;> rfl
  · have h1 : ∀ t, s ≠ '-' :: t := fun t e => hm ⟨t, e⟩
    have h2 : ∀ t, bytesOf s k ≠ '-' :: t := by
      intro t e
      obtain ⟨r0, e0, _⟩ := ascii_prefix (a := ['-']) (by decide) hk (r := t) e
      exact h1 r0 e0
    rw [plain _ h1, plain _ h2, unsigned_bytes hk]
    cases unsigned s with
    | none => rfl
    | some p =>
      obtain ⟨t, n, r⟩ := p
      simp only [Option.map_some, Option.bind_some]
      split <;> rfl

theorem word_sound : ∀ {w s r : Str}, word w s = some r → s = w ++ r := by
  intro w
  induction w with
  | nil => intro s r h; cases h; rfl
  | cons c w ih =>
    intro s r h
    cases s with
    | nil => cases h
    | cons d s =>
      rw [word] at h
      split at h
      · rename_i e; subst e; rw [ih h]; rfl
      · cases h

theorem word_complete (w r : Str) : word w (w ++ r) = some r := by
  induction w with
  | nil => rfl
  | cons c w ih => rw [List.cons_append, word, if_pos rfl, ih]

/-- a function that is given by the ASCII texts it accepts -/
theorem map_of_iff {α : Type} {f g : Option (α × Str)} {k : Str}
    (h : ∀ v r, f = some (v, r) ↔ ∃ r0, g = some (v, r0) ∧ r = bytesOf r0 k) : f = g.map fun (v, r) => (v, bytesOf r k) := by
  cases g with
  | none =>
    cases f with
    | none => rfl
    | some p => obtain ⟨r0, h1, _⟩ := (h p.1 p.2).1 rfl; cases h1
  | some p => exact (h p.1 (bytesOf p.2 k)).2 ⟨p.2, rfl, rfl⟩

theorem word_bytes {w : Str} (hw : ∀ c ∈ w, c.toNat < 128) {k : Str} (hk : Far k) (s : Str) :
    word w (bytesOf s k) = (word w s).map fun r => bytesOf r k := by
  cases h : word w s with
  | some r => rw [word_sound h, bytesOf_append_ascii hw, word_complete]; rfl
  | none =>
    cases h' : word w (bytesOf s k) with
    | none => rfl
    | some r =>
      obtain ⟨r0, rfl, _⟩ := ascii_prefix hw hk (word_sound h')
      rw [word_complete] at h
      cases h

theorem hexDigit_ascii {c : Char} {v : Nat} (h : HexDigit c v) : c.toNat < 128 := by
  have k1 : ∀ c ∈ "0123456789abcdef".toList, c.toNat < 128 := by decide
  have k2 : ∀ c ∈ "0123456789ABCDEF".toList, c.toNat < 128 := by decide
  rcases h with h | h
  · exact k1 c (List.mem_of_getElem? h)
  · exact k2 c (List.mem_of_getElem? h)

theorem hex4_ascii {n : Nat} {k : Str} (h : Hex4 n k) : ∀ c ∈ k, c.toNat < 128 := by
  cases h with
  | mk ha hb hc hd =>
    simp only [List.mem_cons, List.not_mem_nil, or_false, forall_eq_or_imp, forall_eq]
    exact ⟨hexDigit_ascii ha, hexDigit_ascii hb, hexDigit_ascii hc, hexDigit_ascii hd⟩

theorem escaped_ascii {d : Char} {e : Str} (h : Escaped d ('\\' :: e)) : (∀ c ∈ e, c.toNat < 128) ∧ e ≠ [] := by
  generalize hx : '\\' :: e = x at h
  cases h with
  | plain h1 h2 h3 => cases hx; exact absurd rfl h2
  | short h =>
    cases hx
    have key : ∀ p ∈ shorts, p.1.toNat < 128 := by decide
    refine ⟨?_, by simp⟩
    simp only [List.mem_cons, List.not_mem_nil, or_false, forall_eq]
    exact key _ h
  | code hh hn =>
    cases hx
    refine ⟨?_, by simp⟩
    intro c hc
    rcases List.mem_cons.1 hc with rfl | hc
    · decide
    · exact hex4_ascii hh c hc
  | pair hh hk hn hm =>
    cases hx
    refine ⟨?_, by simp⟩
    intro c hc
    rcases List.mem_cons.1 hc with rfl | hc
    · decide
    · rcases List.mem_append.1 hc with hc | hc
      · exact hex4_ascii hh c hc
      · rcases List.mem_cons.1 hc with rfl | hc
        · decide
        · rcases List.mem_cons.1 hc with rfl | hc
          · decide
          · exact hex4_ascii hk c hc

theorem escape_bytes {k : Str} (hk : Far k) (s : Str) :
    escape (bytesOf s k) = (escape s).map fun (d, r) => (d, bytesOf r k) := by
  apply map_of_iff
  intro d r
  constructor
  · intro h
    obtain ⟨e, he, h1⟩ := escape_sound h
    obtain ⟨r0, rfl, h2⟩ := ascii_prefix (escaped_ascii he).1 hk h1
    exact ⟨r0, escape_complete he, h2⟩
  · rintro ⟨r0, h, rfl⟩
    obtain ⟨e, he, rfl⟩ := escape_sound h
    rw [bytesOf_append_ascii (escaped_ascii he).1]
    exact escape_complete he

/-! ## Strings -/

/-- once the bytes collected cannot become UTF-8, the string is an error -/
theorem string_poison : ∀ (n : Nat) (s : Str) (scratch : Bytes), (∀ x, fromUtf8 (scratch ++ x) = none) → string n s scratch = none := by
  intro n
  induction n with
  | zero => intro s scratch _; rfl
  | succ n ih =>
    intro s scratch h
    cases s with
    | nil => rfl
    | cons c s =>
      rw [string]
      split
      · have := h []
        rw [List.append_nil] at this
        rw [this]; rfl
      · split
        · cases escape s with
          | none => rfl
          | some p => exact ih _ _ fun x => by rw [List.append_assoc]; exact h _
        · split
          · rfl
          · exact ih _ _ fun x => by rw [List.append_assoc]; exact h _

theorem byte_of_char (b : UInt8) : UInt8.ofNat (Char.ofNat b.toNat).toNat = b := by
  rw [char_ofByte]; simp

/-- a string that runs into bytes that are no character is an error -/
theorem string_stuck : ∀ (n : Nat) (p q : Bytes) (t : Str), (p ++ q = [] ∨ Stuck (p ++ q)) →
    string n (latin q) (utf8 t ++ p) = none := by
  intro n
  induction n with
  | zero => intro p q t _; rfl
  | succ n ih =>
    intro p q t h
    cases q with
    | nil => rfl
    | cons b q =>
      have h : Stuck (p ++ b :: q) := by
        rcases h with h | h
        · exact absurd (List.append_eq_nil_iff.1 h).2 (by simp)
        · exact h
      have hne : ∀ c : Char, c.toNat < 128 → Char.ofNat b.toNat = c → p ≠ [] := by
        rintro c hc e rfl
        have h1 := stuck_head h
        have h2 := char_ofByte b
        rw [e] at h2
        omega
      show string (n + 1) (Char.ofNat b.toNat :: latin q) _ = none
      rw [string]
      split
      · rename_i e
        rw [stuck_prefix (hne '"' (by decide) e) h]; rfl
      · split
        · rename_i e
          have hp := hne '\\' (by decide) e
          cases escape (latin q) with
          | none => rfl
          | some r => exact string_poison _ _ _ fun x => stuck_poison hp h t r.1 x
        · split
          · rfl
          · rw [byte_of_char, List.append_assoc]
            exact ih (p ++ [b]) q t (.inr (by rw [List.append_assoc]; exact h))

/-- bytes that are not ASCII are collected -/
theorem string_push : ∀ (p : Bytes) (n : Nat) (x : Str) (scratch : Bytes), (∀ b ∈ p, 128 ≤ b.toNat) →
    string (p.length + n) (latin p ++ x) scratch = string n x (scratch ++ p) := by
  intro p
  induction p with
  | nil => intro n x scratch _; simp [latin]
  | cons b p ih =>
    intro n x scratch h
    have hb := h b List.mem_cons_self
    have hc := char_ofByte b
    have e : (b :: p).length + n = (p.length + n) + 1 := by simp; omega
    have e2 : latin (b :: p) ++ x = Char.ofNat b.toNat :: (latin p ++ x) := rfl
    have ne : ∀ c : Char, c.toNat < 128 → Char.ofNat b.toNat ≠ c := by
      intro c hc' e; rw [e] at hc; omega
    rw [e, e2, string, if_neg (ne '"' (by decide)), if_neg (ne '\\' (by decide)), if_neg (by omega), byte_of_char,
      ih n x _ (fun y hy => h y (List.mem_cons_of_mem _ hy)), List.append_assoc]
    rfl

theorem utf8Char_far {c : Char} (h : 128 ≤ c.toNat) : ∀ b ∈ utf8Char c, 128 ≤ b.toNat := by
  rcases utf8Char_shape c with ⟨h', _⟩ | ⟨_, b, bs, e, h1, h2⟩
  · omega
  · intro x hx
    rw [e] at hx
    rcases List.mem_cons.1 hx with rfl | hx
    · omega
    · exact (h2 x hx).1

theorem string_bytes {junk : Bytes} (hj : junk = [] ∨ Stuck junk) : ∀ (n m : Nat) (s t : Str), s.length < n →
    (bytesOf s (latin junk)).length < m →
    string m (bytesOf s (latin junk)) (utf8 t) = (JsonText.string n s).map fun (u, r) => (t ++ u, bytesOf r (latin junk)) := by
  have hk := far_junk hj
  intro n
  induction n with
  | zero => intro m s t h; exact absurd h (Nat.not_lt_zero _)
  | succ n ih =>
    intro m s t hn hm
    cases s with
    | nil =>
      rw [bytesOf_nil]
      have := string_stuck m [] junk t (by simpa using hj)
      rw [List.append_nil] at this
      rw [this]; rfl
    | cons c s =>
      rw [List.length_cons] at hn
      by_cases hc : c.toNat < 128
      · rw [bytesOf_ascii hc] at hm ⊢
        obtain ⟨m, rfl⟩ : ∃ m', m = m' + 1 := ⟨m - 1, by omega⟩
        rw [List.length_cons] at hm
        rw [string, JsonText.string]
        split
        · rw [fromUtf8_some.2 rfl]; simp
        · split
          · rw [escape_bytes hk]
            cases he : escape s with
            | none => rfl
            | some p =>
              obtain ⟨d, r⟩ := p
              obtain ⟨e, he', rfl⟩ := escape_sound he
              have hp : 0 < e.length := List.length_pos_iff.2 (escaped_ascii he').2
              have hl := bytesOf_length_append e r (latin junk)
              rw [List.length_append] at hn
              simp only [Option.map_some]
              rw [← utf8_single, ← utf8_append, ih m r (t ++ [d]) (by omega) (by omega)]
              cases JsonText.string n r <;> simp
          · split
            · rfl
            · rcases utf8Char_shape c with ⟨_, e⟩ | ⟨h', _⟩
              · rw [← e, ← utf8_single, ← utf8_append, ih m s (t ++ [c]) (by omega) (by omega)]
                cases JsonText.string n s <;> simp
              · omega
      · have ne : ∀ d : Char, d.toNat < 128 → c ≠ d := by rintro d hd rfl; omega
        rw [JsonText.string, if_neg (ne '"' (by decide)), if_neg (ne '\\' (by decide)), if_neg (by omega), bytesOf_cons]
        rw [bytesOf_cons, List.length_append] at hm
        simp only [latin, List.length_map] at hm
        obtain ⟨m', rfl⟩ : ∃ m', m = (utf8Char c).length + m' := ⟨m - (utf8Char c).length, by omega⟩
        rw [string_push _ _ _ _ (utf8Char_far (by omega)), ← utf8_single, ← utf8_append,
          ih m' s (t ++ [c]) (by omega) (by simp only [latin]; omega)]
        cases JsonText.string n s <;> simp

/-! ## Values -/

/-- whatever is read is a part of the text -/
theorem string_rest {n : Nat} {s t r : Str} (h : JsonText.string n s = some (t, r)) : ∃ a, s = a ++ r ∧ a ≠ [] := by
  obtain ⟨q, _, rfl⟩ := string_sound n h
  exact ⟨q ++ ['"'], by simp, by simp⟩

theorem value_rest {fits : Str → Bool} {n d : Nat} {s r : Str} {j : Json} (h : JsonText.value fits n (d + 1) s = some (j, r)) :
    ∃ a, s = a ++ r ∧ a ≠ [] := by
  obtain ⟨a, v, _, hv, rfl⟩ := JsonText.value_sound h
  obtain ⟨c, t, rfl, _⟩ := value_head hv
  exact ⟨a ++ c :: t, by simp, by simp⟩

theorem skipWs_rest {s : Str} {c : Char} {r : Str} (h : skipWs s = c :: r) : ∃ a, s = a ++ r ∧ a ≠ [] := by
  obtain ⟨w, _, e⟩ := skipWs_split s
  exact ⟨w ++ [c], by rw [h] at e; rw [e]; simp, by simp⟩

/-- less is left of the text and of its bytes -/
theorem rest_less {s a r k : Str} (e : s = a ++ r) (ha : a ≠ []) :
    r.length + 1 ≤ s.length ∧ (bytesOf r k).length + 1 ≤ (bytesOf s k).length := by
  have h1 := bytesOf_length_append a r k
  have h2 : 0 < a.length := List.length_pos_iff.2 ha
  rw [e, List.length_append]
  omega

theorem head_bytes {k : Str} (hk : Far k) (s : Str) (c : Char) (hc : c.toNat < 128) :
    ((bytesOf s k).head? = some c ↔ s.head? = some c) ∧ (s.head? = some c → (bytesOf s k).tail = bytesOf s.tail k) := by
  rcases bytesOf_cases s hk with ⟨d, s', _, rfl, e⟩ | ⟨h1, h2⟩
  · rw [e]; exact ⟨Iff.rfl, fun _ => rfl⟩
  · have key : ∀ x, Far x → x.head? ≠ some c := by
      intro x hx e
      cases x with
      | nil => cases e
      | cons d x => cases e; have := hx c x rfl; omega
    exact ⟨⟨fun h => absurd h (key _ h2), fun h => absurd h (key _ h1)⟩, fun h => absurd h (key _ h1)⟩

/-- the first character behind white space, and the first byte -/
theorem ws_cases {k : Str} (hk : Far k) (s : Str) :
    (∃ c s', c.toNat < 128 ∧ skipWs s = c :: s' ∧ skipWs (bytesOf s k) = c :: bytesOf s' k) ∨
    (Far (skipWs s) ∧ Far (skipWs (bytesOf s k))) := by
  rw [skipWs_bytes hk]
  exact bytesOf_cases _ hk

theorem number_far {fits : Str → Bool} {x : Str} (h : Far x) : number fits x = none := by
  cases hn : number fits x with
  | none => rfl
  | some p =>
    obtain ⟨n, t, _, h1, _, h2⟩ := number_sound hn
    obtain ⟨c, u, rfl, hc⟩ := number_head h1
    have key : ∀ c ∈ "-0123456789".toList, c.toNat < 128 := by decide
    have h3 := h c (u ++ p.2) (by rw [h2]; rfl)
    have h4 := key c hc
    omega

/-- a value does not start with bytes that are not ASCII -/
theorem value_far {fits : Str → Bool} (n d : Nat) {s : Str} (h : Far (skipWs s)) :
    value fits n d s = none ∧ JsonText.value fits n d s = none := by
  cases n with
  | zero => exact ⟨rfl, rfl⟩
  | succ n =>
    rw [value, JsonText.value]
    cases hs : skipWs s with
    | nil => exact ⟨rfl, rfl⟩
    | cons c x =>
      have ne : ∀ d : Char, d.toNat < 128 → c ≠ d := fun d hd => far_cons h hs d hd
      rw [hs] at h
      dsimp only
      rw [if_neg (ne 'n' (by decide)), if_neg (ne 't' (by decide)), if_neg (ne 'f' (by decide)), if_neg (ne '"' (by decide)),
        if_neg (ne '[' (by decide)), if_neg (ne '{' (by decide)), number_far h,
        if_neg (ne 'n' (by decide)), if_neg (ne 't' (by decide)), if_neg (ne 'f' (by decide)), if_neg (ne '"' (by decide)),
        if_neg (ne '[' (by decide)), if_neg (ne '{' (by decide))]
      exact ⟨rfl, rfl⟩

theorem far_shape {x : Str} (h : Far x) : x = [] ∨ ∃ c t, x = c :: t ∧ c ≠ ',' ∧ c ≠ ']' ∧ c ≠ '}' ∧ c ≠ ':' ∧ c ≠ '"' ∧ c ≠ '[' := by
  cases x with
  | nil => exact .inl rfl
  | cons c t =>
    exact .inr ⟨c, t, rfl, far_cons h rfl _ (by decide), far_cons h rfl _ (by decide), far_cons h rfl _ (by decide),
      far_cons h rfl _ (by decide), far_cons h rfl _ (by decide), far_cons h rfl _ (by decide)⟩

/-- closes goals about a text that does not start with ASCII -/
local macro "far" h:term : tactic => `(tactic| (rcases far_shape $h with e | ⟨c, t, e, n⟩ <;> rw [e] <;> first | rfl | simp [n]))

section
variable {fits : Str → Bool} {junk : Bytes}

/-- what is to be shown for values -/
def ValueOk (fits : Str → Bool) (junk : Bytes) (m : Nat) : Prop :=
  ∀ (n d : Nat) (s : Str), 2 * s.length + 2 ≤ n → 2 * (bytesOf s (latin junk)).length + 2 ≤ m →
    value fits m (d + 1) (bytesOf s (latin junk)) =
      (JsonText.value fits n (d + 1) s).map fun (j, r) => (j, bytesOf r (latin junk))
def ItemsOk (fits : Str → Bool) (junk : Bytes) (m : Nat) : Prop :=
  ∀ (n d : Nat) (s : Str), 2 * s.length + 3 ≤ n → 2 * (bytesOf s (latin junk)).length + 3 ≤ m →
    items fits m (d + 1) (bytesOf s (latin junk)) =
      (JsonText.items fits n (d + 1) s).map fun (j, r) => (j, bytesOf r (latin junk))
def EntriesOk (fits : Str → Bool) (junk : Bytes) (m : Nat) : Prop :=
  ∀ (n d : Nat) (s : Str), 2 * s.length + 3 ≤ n → 2 * (bytesOf s (latin junk)).length + 3 ≤ m →
    entries fits m (d + 1) (bytesOf s (latin junk)) =
      (JsonText.entries fits n (d + 1) s).map fun (j, r) => (j, bytesOf r (latin junk))

theorem value_step (hj : junk = [] ∨ Stuck junk) {m : Nat} (hi : ItemsOk fits junk m) (he : EntriesOk fits junk m) :
    ValueOk fits junk (m + 1) := by
  have hk := far_junk hj
  intro n d s hn hm
  obtain ⟨n, rfl⟩ : ∃ n', n = n' + 1 := ⟨n - 1, by omega⟩
  rcases ws_cases hk s with ⟨c, s', _, e1, e2⟩ | ⟨h1, h2⟩
  · obtain ⟨a, ea, hne⟩ := skipWs_rest e1
    obtain ⟨l1, l2⟩ := rest_less (k := latin junk) ea hne
    rw [value, JsonText.value, e1, e2]
    dsimp only
    split
    · rw [word_bytes (by decide) hk]; cases word (lit "ull") s' <;> rfl
    · split
      · rw [word_bytes (by decide) hk]; cases word (lit "rue") s' <;> rfl
      · split
        · rw [word_bytes (by decide) hk]; cases word (lit "alse") s' <;> rfl
        · split
          · have := string_bytes hj n m s' [] (by omega) (by omega)
            rw [show utf8 ([] : Str) = [] from rfl] at this
            rw [this]
            cases JsonText.string n s' <;> rfl
          · split
            · split
              · rfl
              · rename_i hd
                obtain ⟨d, rfl⟩ : ∃ d', d = d' + 1 := ⟨d - 1, by omega⟩
                rw [skipWs_bytes hk]
                obtain ⟨k1, k2⟩ := head_bytes hk (skipWs s') ']' (by decide)
                by_cases hb : (skipWs s').head? = some ']'
                · rw [if_pos (k1.2 hb), if_pos hb, k2 hb]; rfl
                · rw [if_neg (fun h => hb (k1.1 h)), if_neg hb, Nat.add_sub_cancel, hi n d s' (by omega) (by omega)]
                  cases JsonText.items fits n (d + 1) s' <;> rfl
            · split
              · split
                · rfl
                · rename_i hd
                  obtain ⟨d, rfl⟩ : ∃ d', d = d' + 1 := ⟨d - 1, by omega⟩
                  rw [skipWs_bytes hk]
                  obtain ⟨k1, k2⟩ := head_bytes hk (skipWs s') '}' (by decide)
                  by_cases hb : (skipWs s').head? = some '}'
                  · rw [if_pos (k1.2 hb), if_pos hb, k2 hb]; rfl
                  · rw [if_neg (fun h => hb (k1.1 h)), if_neg hb, Nat.add_sub_cancel, he n d s' (by omega) (by omega)]
                    cases JsonText.entries fits n (d + 1) s' <;> rfl
              · rename_i hc _ _ _ _ _ _
                rw [← number_bytes hk, bytesOf_ascii (by assumption)]
  · rw [(value_far _ _ h2).1, (value_far _ _ h1).2]; rfl

theorem items_step (hj : junk = [] ∨ Stuck junk) {m : Nat} (hv : ValueOk fits junk m) (hi : ItemsOk fits junk m) :
    ItemsOk fits junk (m + 1) := by
  have hk := far_junk hj
  intro n d s hn hm
  obtain ⟨n, rfl⟩ : ∃ n', n = n' + 1 := ⟨n - 1, by omega⟩
  rw [items, JsonText.items, hv n d s (by omega) (by omega)]
  cases h : JsonText.value fits n (d + 1) s with
  | none => rfl
  | some p =>
    obtain ⟨x, r⟩ := p
    obtain ⟨a, ea, hne⟩ := value_rest h
    obtain ⟨l1, l2⟩ := rest_less (k := latin junk) ea hne
    simp only [Option.map_some]
    rcases ws_cases hk r with ⟨c, s', _, e1, e2⟩ | ⟨h1, h2⟩
    · obtain ⟨b, eb, hb⟩ := skipWs_rest e1
      obtain ⟨l3, l4⟩ := rest_less (k := latin junk) eb hb
      rw [e1, e2]
      dsimp only
      split
      · rw [hi n d s' (by omega) (by omega)]
        cases JsonText.items fits n (d + 1) s' <;> rfl
      · split <;> rfl
    · refine Eq.trans (b := none) ?_ ?_
      · far h2
      · far h1

theorem entries_step (hj : junk = [] ∨ Stuck junk) {m : Nat} (hv : ValueOk fits junk m) (he : EntriesOk fits junk m) :
    EntriesOk fits junk (m + 1) := by
  have hk := far_junk hj
  intro n d s hn hm
  obtain ⟨n, rfl⟩ : ∃ n', n = n' + 1 := ⟨n - 1, by omega⟩
  rw [entries, JsonText.entries]
  rcases ws_cases hk s with ⟨c, s1, _, e1, e2⟩ | ⟨h1, h2⟩
  swap
  · refine Eq.trans (b := none) ?_ ?_
    · far h2
    · far h1
  obtain ⟨a, ea, hne⟩ := skipWs_rest e1
  obtain ⟨l1, l2⟩ := rest_less (k := latin junk) ea hne
  rw [e1, e2]
  dsimp only
  split
  · rfl
  have hs := string_bytes hj n m s1 [] (by omega) (by omega)
  rw [show utf8 ([] : Str) = [] from rfl] at hs
  rw [hs]
  cases h : JsonText.string n s1 with
  | none => rfl
  | some p =>
    obtain ⟨kk, s2⟩ := p
    obtain ⟨b, eb, hb⟩ := string_rest h
    obtain ⟨l3, l4⟩ := rest_less (k := latin junk) eb hb
    simp only [Option.map_some, List.nil_append]
    rcases ws_cases hk s2 with ⟨c, s3, _, e3, e4⟩ | ⟨h1, h2⟩
    swap
    · refine Eq.trans (b := none) ?_ ?_
      · far h2
      · far h1
    obtain ⟨b, eb, hb⟩ := skipWs_rest e3
    obtain ⟨l5, l6⟩ := rest_less (k := latin junk) eb hb
    rw [e3, e4]
    dsimp only
    split
    · rfl
    rw [hv n d s3 (by omega) (by omega)]
    cases h : JsonText.value fits n (d + 1) s3 with
    | none => rfl
    | some p =>
      obtain ⟨x, s4⟩ := p
      obtain ⟨b, eb, hb⟩ := value_rest h
      obtain ⟨l7, l8⟩ := rest_less (k := latin junk) eb hb
      simp only [Option.map_some]
      rcases ws_cases hk s4 with ⟨c, s5, _, e5, e6⟩ | ⟨h1, h2⟩
      swap
      · refine Eq.trans (b := none) ?_ ?_
        · far h2
        · far h1
      obtain ⟨b, eb, hb⟩ := skipWs_rest e5
      obtain ⟨l9, l10⟩ := rest_less (k := latin junk) eb hb
      rw [e5, e6]
      dsimp only
      split
      · rw [he n d s5 (by omega) (by omega)]
        cases JsonText.entries fits n (d + 1) s5 <;> rfl
      · split <;> rfl

theorem all_ok (hj : junk = [] ∨ Stuck junk) (m : Nat) : ValueOk fits junk m ∧ ItemsOk fits junk m ∧ EntriesOk fits junk m := by
  induction m with
  | zero => exact ⟨fun n d s _ h => by omega, fun n d s _ h => by omega, fun n d s _ h => by omega⟩
  | succ m ih =>
    obtain ⟨h1, h2, h3⟩ := ih
    exact ⟨value_step hj h2 h3, items_step hj h1 h2, entries_step hj h1 h3⟩

theorem loadLoop_bytes (hj : junk = [] ∨ Stuck junk) : ∀ (m n : Nat) (s : Str) (c : Contract), s.length ≤ n →
    (bytesOf s (latin junk)).length ≤ m →
    loadLoop fits m (bytesOf s (latin junk)) c =
      (JsonText.loadLoop fits n s c).bind fun (c', r) => .ok (c', bytesOf r (latin junk)) := by
  have hk := far_junk hj
  intro m
  induction m with
  | zero =>
    intro n s c hn hm
    have hs : s = [] := by
      have := bytesOf_length s (latin junk)
      exact List.length_eq_zero_iff.1 (by omega)
    subst hs
    cases n with
    | zero => rfl
    | succ n => rfl
  | succ m ih =>
    intro n s c hn hm
    cases n with
    | zero =>
      have hs : s = [] := List.length_eq_zero_iff.1 (by omega)
      subst hs
      rw [loadLoop, (all_ok hj _).1 (fuel ([] : Str)) 126 [] (by simp [fuel]) (by simp [fuel])]
      rfl
    | succ n =>
      rw [loadLoop, JsonText.loadLoop, (all_ok hj _).1 (fuel s) 126 s (by simp [fuel]) (by simp [fuel])]
      cases h : JsonText.value fits (fuel s) (126 + 1) s with
      | none => rfl
      | some p =>
        obtain ⟨x, r⟩ := p
        obtain ⟨b, eb, hb⟩ := value_rest h
        obtain ⟨l1, l2⟩ := rest_less (k := latin junk) eb hb
        simp only [Option.map_some]
        cases deOperation x with
        | err e => rfl
        | panic => rfl
        | ok op =>
          show (match skipWs (bytesOf r (latin junk)) with
            | [] => .err .serdeJson
            | d :: s => if d = ',' then loadLoop fits m s (c.add op) else if d = ']' then .ok (c.add op, s) else .err .serdeJson) =
            Res.bind (match skipWs r with
              | [] => .err .serdeJson
              | d :: s => if d = ',' then JsonText.loadLoop fits n s (c.add op)
                  else if d = ']' then .ok (c.add op, s) else .err .serdeJson) _
          rcases ws_cases hk r with ⟨d, s', _, e1, e2⟩ | ⟨h1, h2⟩
          · obtain ⟨b, eb, hb⟩ := skipWs_rest e1
            obtain ⟨l3, l4⟩ := rest_less (k := latin junk) eb hb
            rw [e1, e2]
            dsimp only
            split
            · exact ih n s' _ (by omega) (by omega)
            · split <;> rfl
          · refine Eq.trans (b := .err .serdeJson) ?_ ?_
            · far h2
            · rcases far_shape h1 with e | ⟨c, t, e, n⟩
              · rw [e]; rfl
              · rw [e]; dsimp only; rw [if_neg n.1, if_neg n.2.1]; rfl

/-- Loading a text followed by bytes that are no character: nothing but a crash before them is left of the load of the text. -/
theorem load_bytes (hj : junk = [] ∨ Stuck junk) (s : Str) :
    load fits (utf8 s ++ junk) = if junk = [] then JsonText.load fits s else
      match JsonText.load fits s with
      | .ok _ => .err .serdeJson
      | x => x := by
  have hk := far_junk hj
  have e0 : latin (utf8 s ++ junk) = bytesOf s (latin junk) := latin_append _ _
  have fin : ∀ (x : Contract) (r : Str), (if skipWs (bytesOf r (latin junk)) = [] then Res.ok x else .err .serdeJson) =
      if junk = [] then (if skipWs r = [] then Res.ok x else .err .serdeJson) else .err .serdeJson := by
    intro x r
    rw [skipWs_bytes hk]
    by_cases hjn : junk = []
    · rw [if_pos hjn]
      have : bytesOf (skipWs r) (latin junk) = [] ↔ skipWs r = [] := by
        constructor
        · intro h
          have := bytesOf_length (skipWs r) (latin junk)
          rw [h] at this
          simp at this
          exact this.1
        · intro h; rw [h, bytesOf_nil, hjn]; rfl
      simp only [this]
    · rw [if_neg hjn, if_neg]
      intro h
      have := bytesOf_length (skipWs r) (latin junk)
      rw [h] at this
      simp [latin] at this
      exact hjn this.2
  rcases ws_cases hk s with ⟨d, s1, _, e1, e2⟩ | ⟨h1, h2⟩
  swap
  · have a1 : JsonText.load fits s = .err .serdeJson := by
      rw [JsonText.load]
      far h1
    have a2 : load fits (utf8 s ++ junk) = .err .serdeJson := by
      rw [load, e0]
      far h2
    rw [a2, a1]
    split <;> rfl
  rw [load, JsonText.load, e0]
  rw [e1, e2]
  dsimp only
  by_cases hd : d ≠ '['
  · rw [if_pos hd, if_pos hd]; split <;> rfl
  rw [if_neg hd, if_neg hd, skipWs_bytes hk]
  obtain ⟨k1, k2⟩ := head_bytes hk (skipWs s1) ']' (by decide)
  have last : ∀ (x : Contract) (r : Str), (if skipWs (bytesOf r (latin junk)) = [] then Res.ok x else .err .serdeJson) =
      if junk = [] then (if skipWs r = [] then Res.ok x else .err .serdeJson) else
        match (if skipWs r = [] then Res.ok x else .err .serdeJson : Res Contract) with
        | .ok _ => .err .serdeJson
        | x => x := by
    intro x r
    rw [fin]
    by_cases hr : skipWs r = []
    · rw [if_pos hr]
    · rw [if_neg hr]
  by_cases hb : (skipWs s1).head? = some ']'
  · rw [if_pos (k1.2 hb), if_pos hb, k2 hb]
    exact last {} (skipWs s1).tail
  · rw [if_neg (fun h => hb (k1.1 h)), if_neg hb, loadLoop_bytes hj _ s1.length s1 {} (le_refl _) (le_refl _)]
    cases JsonText.loadLoop fits s1.length s1 {} with
    | err e => show Res.err e = if junk = [] then Res.err e else .err e; split <;> rfl
    | panic => show Res.panic = if junk = [] then Res.panic else .panic; split <;> rfl
    | ok p => exact last p.1 p.2

end

end Ethabi.JsonBytes

import Verif.Proofs.DecodeWidth
import Verif.Proofs.Codec
import Verif.Proofs.Profile
import Verif.Spec.Reading
/-! The decoder computes `reads` and panics on `overruns`. -/
namespace Ethabi
open Spec

theorem bind_eq_panic {α β : Type} {x : Res α} {f : α → Res β} :
    (x >>= f) = .panic ↔ x = .panic ∨ ∃ a, x = .ok a ∧ f a = .panic := by
  cases x <;> simp

/-- offsets handled by the decoder -/
abbrev maxOff : Nat := 2 ^ 63 + 31

theorem smallAt_le {data : Bytes} {off n : Nat} (h : smallAt data off n) : off + 32 ≤ data.length := take32_length h.2

theorem numberAt_le {data : Bytes} {off n : Nat} (h : numberAt data off n) : off + 32 ≤ data.length := take32_length h.2

theorem smallAt_inj {data : Bytes} {off m n : Nat} (h : smallAt data off m) (h' : smallAt data off n) : m = n :=
  word_inj (by have := h.1; omega) (by have := h'.1; omega) (h.2.symm.trans h'.2)

theorem small_bind {β : Type} {prof : Profile} {data : Bytes} {off : Nat} {k : Nat → Res β} {r : Res β}
    (hr : ∀ e, r ≠ .err e) (hd : data.length < 2 ^ 63) (ho : off ≤ maxOff) :
    (peek32 prof data off >>= fun w => asUsize w >>= k) = r ↔ ∃ n, smallAt data off n ∧ k n = r := by
  by_cases h : ∃ n, smallAt data off n
  · obtain ⟨n, hn⟩ := h
    rw [peek32_of_take (by omega) hn.2, Res.ok_bind, asUsize_word hn.1, Res.ok_bind]
    constructor
    · exact fun h => ⟨n, hn, h⟩
    · rintro ⟨m, hm, h⟩
      rw [smallAt_inj hn hm]; exact h
  · constructor
    · intro hb
      exfalso
      cases hp : peek32 prof data off with
      | panic => exact peek32_noPanic (by unfold maxOff at ho; omega) hp
      | err e => rw [hp] at hb; exact hr e hb.symm
      | ok w =>
        rw [hp, Res.ok_bind] at hb
        cases hu : asUsize w with
        | panic => exact asUsize_noPanic w hu
        | err e => rw [hu] at hb; exact hr e hb.symm
        | ok n =>
          obtain ⟨h1, h2⟩ := asUsize_eq_ok hu
          exact h ⟨n, h2, (peek32_eq_ok (by omega) hp).2 ▸ h1⟩
    · rintro ⟨n, hn, _⟩; exact absurd ⟨n, hn⟩ h

theorem peek32_iff {prof : Profile} {data : Bytes} {off : Nat} {w : Word} (hd : data.length < 2 ^ 63) :
    peek32 prof data off = .ok w ↔ (data.drop off).take 32 = w.1 := by
  constructor
  · exact fun h => (peek32_eq_ok (by omega) h).2.symm
  · intro h
    have e : w.1 = word (beNat w.1) := by
      rw [word_eq_beBytes]; have := beBytes_beNat w.1; rw [w.2] at this; exact this.symm
    rw [e] at h
    rw [peek32_of_take (by omega) h]
    congr 1
    apply Subtype.ext
    exact e.symm

theorem number_iff {prof : Profile} {data : Bytes} {off : Nat} {w : Word} (hd : data.length < 2 ^ 63) :
    peek32 prof data off = .ok w ↔ ∃ n, numberAt data off n ∧ w = wordOf n := by
  constructor
  · intro h
    have hw := (peek32_iff hd).1 h
    have e : w.1 = word (beNat w.1) := by
      rw [word_eq_beBytes]; have := beBytes_beNat w.1; rw [w.2] at this; exact this.symm
    refine ⟨beNat w.1, ⟨?_, hw.trans e⟩, Subtype.ext e⟩
    have := beNat_lt w.1
    rw [w.2] at this
    exact this
  · rintro ⟨n, hn, rfl⟩
    exact peek32_of_take (by omega) hn.2

theorem usizeAdd_small {prof : Profile} {off : Nat} (ho : off ≤ maxOff) : usizeAdd prof off 32 = .ok (off + 32) :=
  usizeAdd_ok (by unfold maxOff at ho; omega)

theorem spaced_nil (p : Nat → Token → Prop) (w off : Nat) : spaced p w off [] := by
  intro i tok h; simp at h

theorem spaced_cons (p : Nat → Token → Prop) (w off : Nat) (tok : Token) (toks : List Token) :
    spaced p w off (tok :: toks) ↔ p off tok ∧ spaced p w (off + w) toks := by
  constructor
  · intro h
    refine ⟨by simpa using h 0 tok rfl, fun i x hx => ?_⟩
    have := h (i + 1) x (by simpa using hx)
    rwa [Nat.add_mul, Nat.one_mul, Nat.add_comm (i * w), ← Nat.add_assoc] at this
  · rintro ⟨h1, h2⟩ i x hx
    cases i with
    | zero =>
      simp only [List.getElem?_cons_zero, Option.some.injEq] at hx
      subst hx; simpa using h1
    | succ i =>
      have := h2 i x (by simpa using hx)
      rwa [Nat.add_mul, Nat.one_mul, Nat.add_comm (i * w), ← Nat.add_assoc]

theorem spacedOverrun_zero (p : Nat → Token → Prop) (q : Nat → Prop) (w off : Nat) : ¬ spacedOverrun p q w off 0 := by
  rintro ⟨toks, h, _⟩; omega

theorem spacedOverrun_succ (p : Nat → Token → Prop) (q : Nat → Prop) (w off n : Nat) :
    spacedOverrun p q w off (n + 1) ↔ q off ∨ ∃ tok, p off tok ∧ spacedOverrun p q w (off + w) n := by
  constructor
  · rintro ⟨toks, hl, hs, hq⟩
    cases toks with
    | nil => exact Or.inl (by simpa using hq)
    | cons tok toks =>
      rw [spaced_cons] at hs
      refine Or.inr ⟨tok, hs.1, toks, by simpa using hl, hs.2, ?_⟩
      rwa [List.length_cons, Nat.add_mul, Nat.one_mul, Nat.add_comm (toks.length * w), ← Nat.add_assoc] at hq
  · rintro (h | ⟨tok, hp, toks, hl, hs, hq⟩)
    · exact ⟨[], by simp, spaced_nil _ _ _, by simpa using h⟩
    · refine ⟨tok :: toks, by simpa using hl, (spaced_cons _ _ _ _ _).2 ⟨hp, hs⟩, ?_⟩
      rwa [List.length_cons, Nat.add_mul, Nat.one_mul, Nat.add_comm (toks.length * w), ← Nat.add_assoc]

/-- what one decoding step does at all offsets the decoder handles -/
structure Exact (f : Nat → Res (Token × Nat)) (p : Nat → Token → Prop) (q : Nat → Prop) (w : Nat) : Prop where
  ok : ∀ o, o ≤ maxOff → ∀ tok o', f o = .ok (tok, o') ↔ p o tok ∧ o' = o + w
  panic : ∀ o, o ≤ maxOff → (f o = .panic ↔ q o)
  bound : ∀ o tok, o ≤ maxOff → p o tok → o + w ≤ maxOff

theorem loop_ok {f : Nat → Res (Token × Nat)} {p : Nat → Token → Prop} {q : Nat → Prop} {w : Nat} (h : Exact f p q w) :
    ∀ (n off : Nat), off ≤ maxOff → ∀ (toks : List Token) (off' : Nat), decodeLoop f n off = .ok (toks, off') ↔
      toks.length = n ∧ spaced p w off toks ∧ off' = off + n * w := by
  intro n
  induction n with
  | zero =>
    intro off _ toks off'
    simp only [decodeLoop, Res.ok.injEq, Prod.mk.injEq, Nat.zero_mul, Nat.add_zero, List.length_eq_zero_iff]
    constructor
    · rintro ⟨rfl, rfl⟩; exact ⟨rfl, spaced_nil _ _ _, rfl⟩
    · rintro ⟨rfl, -, rfl⟩; exact ⟨rfl, rfl⟩
  | succ n ih =>
    intro off ho toks off'
    simp only [decodeLoop, Res.bind_eq_ok, Prod.exists, Res.ok.injEq, Prod.mk.injEq]
    constructor
    · rintro ⟨tok, o1, h1, ts, o2, h2, rfl, rfl⟩
      obtain ⟨k1, rfl⟩ := (h.ok off ho tok o1).1 h1
      obtain ⟨k2, k3, rfl⟩ := (ih _ (h.bound off tok ho k1) ts o2).1 h2
      refine ⟨by simp [k2], (spaced_cons _ _ _ _ _).2 ⟨k1, k3⟩, by rw [Nat.add_mul]; omega⟩
    · rintro ⟨hl, hs, rfl⟩
      cases toks with
      | nil => simp at hl
      | cons tok ts =>
        rw [spaced_cons] at hs
        refine ⟨tok, off + w, (h.ok off ho _ _).2 ⟨hs.1, rfl⟩, ts, off + w + n * w,
          (ih _ (h.bound off tok ho hs.1) ts _).2 ⟨by simpa using hl, hs.2, rfl⟩, rfl, by rw [Nat.add_mul]; omega⟩

theorem loop_panic {f : Nat → Res (Token × Nat)} {p : Nat → Token → Prop} {q : Nat → Prop} {w : Nat} (h : Exact f p q w) :
    ∀ (n off : Nat), off ≤ maxOff → (decodeLoop f n off = .panic ↔ spacedOverrun p q w off n) := by
  intro n
  induction n with
  | zero => intro off _; simp [decodeLoop, spacedOverrun_zero]
  | succ n ih =>
    intro off ho
    rw [spacedOverrun_succ]
    simp only [decodeLoop, bind_eq_panic, Prod.exists, h.panic off ho, reduceCtorEq, and_false, exists_false, or_false]
    constructor
    · rintro (h1 | ⟨tok, o1, h1, h2⟩)
      · exact Or.inl h1
      · obtain ⟨k1, rfl⟩ := (h.ok off ho tok o1).1 h1
        exact Or.inr ⟨tok, k1, (ih _ (h.bound off tok ho k1)).1 h2⟩
    · rintro (h1 | ⟨tok, h1, h2⟩)
      · exact Or.inl h1
      · exact Or.inr ⟨tok, off + w, (h.ok off ho _ _).2 ⟨h1, rfl⟩, (ih _ (h.bound off tok ho h1)).2 h2⟩

theorem spaced_bound {p : Nat → Token → Prop} {w : Nat} (h : ∀ o tok, o ≤ maxOff → p o tok → o + w ≤ maxOff) :
    ∀ (toks : List Token) (off : Nat), off ≤ maxOff → spaced p w off toks → off + toks.length * w ≤ maxOff
  | [], off, ho, _ => by simpa using ho
  | tok :: toks, off, ho, hs => by
    rw [spaced_cons] at hs
    have := spaced_bound h toks (off + w) (h off tok ho hs.1) hs.2
    rw [List.length_cons, Nat.add_mul]; omega

theorem headWidth_static {t : ParamType} (h : dynamic t = false) : headWidth t = staticSize t := by simp [headWidth, h]

theorem headWidth_dynamic {t : ParamType} (h : dynamic t = true) : headWidth t = 32 := by simp [headWidth, h]

mutual
theorem reads_bound : ∀ (t : ParamType) (data : Bytes), data.length < 2 ^ 63 → ∀ (off : Nat) (tok : Token), off ≤ maxOff →
    reads t data off tok → off + headWidth t ≤ maxOff
  | .address, data, hd, off, tok, ho, h => by
      obtain ⟨pad, a, h1, h2, _⟩ := h
      have := congrArg List.length h2
      simp [h1, a.2] at this
      show off + 32 ≤ _; unfold maxOff; omega
  | .uint _, data, hd, off, tok, ho, h => by
      obtain ⟨n, h1, _⟩ := h
      have := numberAt_le h1
      show off + 32 ≤ _; unfold maxOff; omega
  | .int _, data, hd, off, tok, ho, h => by
      obtain ⟨n, h1, _⟩ := h
      have := numberAt_le h1
      show off + 32 ≤ _; unfold maxOff; omega
  | .bool, data, hd, off, tok, ho, h => by
      obtain ⟨n, _, h1, _⟩ := h
      have := numberAt_le h1
      show off + 32 ≤ _; unfold maxOff; omega
  | .fixedBytes n, data, hd, off, tok, ho, h => by
      have := h.1
      show off + 32 ≤ _; unfold maxOff; omega
  | .bytes, data, hd, off, tok, ho, h => by
      obtain ⟨o, b, h1, _⟩ := h
      have := smallAt_le h1
      show off + 32 ≤ _; unfold maxOff; omega
  | .string, data, hd, off, tok, ho, h => by
      obtain ⟨o, b, h1, _⟩ := h
      have := smallAt_le h1
      show off + 32 ≤ _; unfold maxOff; omega
  | .array t, data, hd, off, tok, ho, h => by
      obtain ⟨o, b, h1, _⟩ := h
      have := smallAt_le h1
      show off + 32 ≤ _; unfold maxOff; omega
  | .fixedArray t k, data, hd, off, tok, ho, h => by
      cases ht : dynamic t with
      | true =>
        simp only [reads, ht, if_true] at h
        obtain ⟨o, b, h1, _⟩ := h
        have := smallAt_le h1
        rw [headWidth_dynamic (by simpa [dynamic] using ht)]; unfold maxOff; omega
      | false =>
        simp only [reads, ht, Bool.false_eq_true, if_false] at h
        obtain ⟨toks, h1, h2, _⟩ := h
        have := spaced_bound (fun o x ho hr => reads_bound t data hd o x ho hr) toks off ho h2
        rw [headWidth_static ht, h1] at this
        rw [headWidth_static (by simpa [dynamic] using ht)]
        simpa [staticSize] using this
  | .tuple ts, data, hd, off, tok, ho, h => by
      cases ht : dynamicAny ts with
      | true =>
        simp only [reads, ht, if_true] at h
        obtain ⟨o, b, h1, _⟩ := h
        have := smallAt_le h1
        rw [headWidth_dynamic (by simpa [dynamic] using ht)]; unfold maxOff; omega
      | false =>
        simp only [reads, ht, Bool.false_eq_true, if_false] at h
        obtain ⟨toks, h1, _⟩ := h
        have := readsAll_bound ts data hd off toks ho h1
        rw [headWidth_static (by simpa [dynamic] using ht)]
        rw [← staticSizeAll_headWidth ts ht] at this
        simpa [staticSize] using this
theorem readsAll_bound : ∀ (ts : List ParamType) (data : Bytes), data.length < 2 ^ 63 → ∀ (off : Nat) (toks : List Token),
    off ≤ maxOff → readsAll ts data off toks → off + headPos ts ≤ maxOff
  | [], data, hd, off, tok, ho, h => by simpa [headPos] using ho
  | t :: ts, data, hd, off, toks, ho, h => by
      obtain ⟨tok, rest, h1, h2, _⟩ := h
      have := reads_bound t data hd off tok ho h1
      have := readsAll_bound ts data hd _ rest this h2
      simp only [headPos, List.map_cons, List.sum_cons] at this ⊢
      omega
end

/-- one word and then nothing that can fail -/
theorem word_step_ok {α : Type} {prof : Profile} {off : Nat} {y tok : α} {off' : Nat} (ho : off ≤ maxOff) :
    (usizeAdd prof off 32 >>= fun o => Res.ok (y, o)) = .ok (tok, off') ↔ tok = y ∧ off' = off + 32 := by
  rw [usizeAdd_small ho, Res.ok_bind]
  simp only [Res.ok.injEq, Prod.mk.injEq]
  exact ⟨fun h => ⟨h.1.symm, h.2.symm⟩, fun h => ⟨h.1.symm, h.2.symm⟩⟩

theorem word_step_panic {α : Type} {prof : Profile} {off : Nat} {y : α} (ho : off ≤ maxOff) :
    (usizeAdd prof off 32 >>= fun o => Res.ok (y, o)) ≠ .panic := by
  rw [usizeAdd_small ho, Res.ok_bind]; simp

theorem takeBytes_iff {prof : Profile} {data : Bytes} {off len : Nat} {r : Bytes} (hd : data.length < 2 ^ 63)
    (h : off + len < 2 ^ 64) :
    takeBytes prof data off len = .ok r ↔ off + len ≤ data.length ∧ r = (data.drop off).take len := by
  constructor
  · exact takeBytes_eq_ok (by omega) (by omega)
  · rintro ⟨h1, rfl⟩
    simp only [takeBytes, usizeAdd_ok h, Res.ok_bind, slice]
    rw [if_neg (by omega), if_pos (by omega), Nat.add_sub_cancel_left]

/-- offset, length and content of `bytes` and `string` -/
theorem payload_step {prof : Profile} {data : Bytes} {off o : Nat} {f : Bytes → Token} {r : Res (Token × Nat)}
    (hr : ∀ e, r ≠ .err e) (hd : data.length < 2 ^ 63) (ho : off ≤ maxOff) (ho' : o < 2 ^ 32) :
    (peek32 prof data o >>= fun lw => asUsize lw >>= fun len => usizeAdd prof o 32 >>= fun start =>
      takeBytes prof data start len >>= fun bs => usizeAdd prof off 32 >>= fun off' => Res.ok (f bs, off')) = r ↔
      ∃ b, payloadAt data o b ∧ r = .ok (f b, off + 32) := by
  rw [small_bind hr hd (by unfold maxOff; omega)]
  constructor
  · rintro ⟨n, hn, h⟩
    rw [usizeAdd_ok (by omega), Res.ok_bind] at h
    have hlt : o + 32 + n < 2 ^ 64 := by have := hn.1; omega
    cases ht : takeBytes prof data (o + 32) n with
    | ok b =>
      rw [ht, Res.ok_bind, usizeAdd_small ho, Res.ok_bind] at h
      obtain ⟨h1, h2⟩ := (takeBytes_iff hd hlt).1 ht
      have hl : b.length = n := by rw [h2]; simp; omega
      exact ⟨b, ⟨by rw [hl]; exact hn, by rw [hl]; exact h2.symm⟩, h.symm⟩
    | err e => rw [ht] at h; exact absurd h.symm (hr e)
    | panic => exact absurd ht (takeBytes_noPanic hlt)
  · rintro ⟨b, ⟨h1, h2⟩, rfl⟩
    refine ⟨b.length, h1, ?_⟩
    have hlt : o + 32 + b.length < 2 ^ 64 := by have := h1.1; omega
    have hle := smallAt_le h1
    have hfit : o + 32 + b.length ≤ data.length := by
      have := congrArg List.length h2
      simp only [List.length_take, List.length_drop] at this
      omega
    rw [usizeAdd_ok (by omega), Res.ok_bind, (takeBytes_iff hd hlt).2 ⟨hfit, h2.symm⟩, Res.ok_bind, usizeAdd_small ho,
      Res.ok_bind]

theorem sliceFrom_pos {data : Bytes} {o : Nat} (h : o ≤ data.length) : sliceFrom data o = .ok (data.drop o) := by
  rw [sliceFrom, if_pos h]

theorem sliceFrom_neg {data : Bytes} {o : Nat} (h : data.length < o) : sliceFrom data o = .panic := by
  rw [sliceFrom, if_neg (by omega)]

/-- a body of elements, then the offset behind the head word -/
theorem elements_ok {prof : Profile} {f : Nat → Res (Token × Nat)} {p : Nat → Token → Prop} {q : Nat → Prop} {w n off : Nat}
    {g : List Token → Token} (h : Exact f p q w) (ho : off ≤ maxOff) (tok : Token) (off' : Nat) :
    (decodeLoop f n 0 >>= fun x => usizeAdd prof off 32 >>= fun o => Res.ok (g x.1, o)) = .ok (tok, off') ↔
      ∃ toks, toks.length = n ∧ spaced p w 0 toks ∧ tok = g toks ∧ off' = off + 32 := by
  simp only [Res.bind_eq_ok (x := decodeLoop f n 0), Prod.exists, word_step_ok ho]
  constructor
  · rintro ⟨toks, o, h1, h2, h3⟩
    obtain ⟨h1, h4, -⟩ := (loop_ok h n 0 (by simp) toks o).1 h1
    exact ⟨toks, h1, h4, h2, h3⟩
  · rintro ⟨toks, h1, h4, h2, h3⟩
    exact ⟨toks, _, (loop_ok h n 0 (by simp) toks _).2 ⟨h1, h4, rfl⟩, h2, h3⟩

theorem elements_panic {prof : Profile} {f : Nat → Res (Token × Nat)} {p : Nat → Token → Prop} {q : Nat → Prop}
    {w n off : Nat} {g : List Token → Token} (h : Exact f p q w) (ho : off ≤ maxOff) :
    (decodeLoop f n 0 >>= fun x => usizeAdd prof off 32 >>= fun o => Res.ok (g x.1, o)) = .panic ↔
      spacedOverrun p q w 0 n := by
  rw [bind_eq_panic, loop_panic h n 0 (by simp)]
  simp [word_step_panic ho]

end Ethabi

import Verif.Proofs.Reading
/-! The decoder computes `reads` and panics on `overruns`: induction on the types. -/
namespace Ethabi
open Spec

theorem ne_err_ok {α : Type} (a : α) : ∀ e, (Res.ok a : Res α) ≠ .err e := nofun
theorem ne_err_panic {α : Type} : ∀ e, (Res.panic : Res α) ≠ .err e := nofun

/-- a type of which one word is read and turned into a token, if possible -/
theorem exact_word {prof : Profile} {t : ParamType} {data : Bytes} {g : Word → Res Token} (hd : data.length < 2 ^ 63)
    (hdec : ∀ off, decodeParam prof t data off =
      (peek32 prof data off >>= fun w => g w >>= fun tok => usizeAdd prof off 32 >>= fun o => Res.ok (tok, o)))
    (hg : ∀ w, g w ≠ .panic) (hw : headWidth t = 32) (ho : ∀ off, ¬ overruns t data off)
    (hr : ∀ off tok, reads t data off tok ↔ ∃ w : Word, (data.drop off).take 32 = w.1 ∧ g w = .ok tok) :
    Exact (fun o => decodeParam prof t data o) (reads t data) (overruns t data) (headWidth t) where
  ok := by
    intro off hoff tok off'
    rw [hdec, hr, hw]
    simp only [Res.bind_eq_ok (x := peek32 prof data off), peek32_iff hd]
    constructor
    · rintro ⟨w, h1, h2⟩
      cases h : g w with
      | ok x =>
        rw [h, Res.ok_bind, word_step_ok hoff] at h2
        exact ⟨⟨w, h1, by rw [h, h2.1]⟩, h2.2⟩
      | err e => rw [h] at h2; cases h2
      | panic => rw [h] at h2; cases h2
    · rintro ⟨⟨w, h1, h2⟩, h3⟩
      exact ⟨w, h1, by rw [h2, Res.ok_bind, word_step_ok hoff]; exact ⟨rfl, h3⟩⟩
  panic := by
    intro off hoff
    rw [hdec]
    refine ⟨fun h => ?_, fun h => absurd h (ho off)⟩
    rw [bind_eq_panic] at h
    rcases h with h | ⟨w, _, h⟩
    · exact absurd h (peek32_noPanic (by unfold maxOff at hoff; omega))
    · rw [bind_eq_panic] at h
      rcases h with h | ⟨x, _, h⟩
      · exact absurd h (hg w)
      · exact absurd h (word_step_panic hoff)
  bound := fun o tok h1 h2 => reads_bound t data hd o tok h1 h2

theorem exact_address (prof : Profile) (data : Bytes) (hd : data.length < 2 ^ 63) :
    Exact (fun o => decodeParam prof .address data o) (reads .address data) (overruns .address data) (headWidth .address) := by
  refine exact_word (g := fun w => .ok (.address (wordAddress w))) hd (fun _ => by rw [decodeParam]; rfl) (by simp) rfl
    (fun _ h => h) ?_
  intro off tok
  simp only [reads, Res.ok.injEq]
  constructor
  · rintro ⟨pad, a, h1, h2, rfl⟩
    refine ⟨⟨pad ++ a.1, by simp [h1, a.2]⟩, h2, ?_⟩
    congr 1
    apply Subtype.ext
    simp [wordAddress, ← h1]
  · rintro ⟨w, h1, rfl⟩
    exact ⟨w.1.take 12, wordAddress w, by simp [w.2], by rw [h1]; exact (List.take_append_drop 12 w.1).symm, rfl⟩

theorem number_word {data : Bytes} {off : Nat} {w : Word} (h : (data.drop off).take 32 = w.1) :
    numberAt data off (beNat w.1) ∧ BitVec.ofNat 256 (beNat w.1) = U256.ofWord w := by
  have e : w.1 = word (beNat w.1) := by
    rw [word_eq_beBytes]; have := beBytes_beNat w.1; rw [w.2] at this; exact this.symm
  refine ⟨⟨?_, h.trans e⟩, rfl⟩
  have := beNat_lt w.1
  rw [w.2] at this
  exact this

theorem beNat_wordOf {n : Nat} (h : n < 2 ^ 256) : beNat (wordOf n).1 = n := by
  have h1 := (beNat_lt (wordOf n).1)
  rw [(wordOf n).2] at h1
  have e : (wordOf n).1 = word (beNat (wordOf n).1) := by
    rw [word_eq_beBytes]; have := beBytes_beNat (wordOf n).1; rw [(wordOf n).2] at this; exact this.symm
  exact (word_inj h h1 e).symm

theorem exact_uint (prof : Profile) (m : Nat) (data : Bytes) (hd : data.length < 2 ^ 63) :
    Exact (fun o => decodeParam prof (.uint m) data o) (reads (.uint m) data) (overruns (.uint m) data)
      (headWidth (.uint m)) := by
  refine exact_word (g := fun w => .ok (.uint (U256.ofWord w))) hd (fun _ => by rw [decodeParam]; rfl) (by simp) rfl
    (fun _ h => h) ?_
  intro off tok
  simp only [reads, Res.ok.injEq]
  constructor
  · rintro ⟨n, h1, rfl⟩
    exact ⟨wordOf n, h1.2, by rw [U256.ofWord, beNat_wordOf h1.1]⟩
  · rintro ⟨w, h1, rfl⟩
    exact ⟨_, (number_word h1).1, by rw [(number_word h1).2]⟩

theorem exact_int (prof : Profile) (m : Nat) (data : Bytes) (hd : data.length < 2 ^ 63) :
    Exact (fun o => decodeParam prof (.int m) data o) (reads (.int m) data) (overruns (.int m) data)
      (headWidth (.int m)) := by
  refine exact_word (g := fun w => .ok (.int (U256.ofWord w))) hd (fun _ => by rw [decodeParam]; rfl) (by simp) rfl
    (fun _ h => h) ?_
  intro off tok
  simp only [reads, Res.ok.injEq]
  constructor
  · rintro ⟨n, h1, rfl⟩
    exact ⟨wordOf n, h1.2, by rw [U256.ofWord, beNat_wordOf h1.1]⟩
  · rintro ⟨w, h1, rfl⟩
    exact ⟨_, (number_word h1).1, by rw [(number_word h1).2]⟩

theorem exact_bool (prof : Profile) (data : Bytes) (hd : data.length < 2 ^ 63) :
    Exact (fun o => decodeParam prof .bool data o) (reads .bool data) (overruns .bool data) (headWidth .bool) := by
  refine exact_word (g := fun w => asBool w >>= fun b => .ok (.bool b)) hd
    (fun _ => by rw [decodeParam]; simp only [Res.bind_assoc, Res.ok_bind]) ?_ rfl (fun _ h => h) ?_
  · intro w h
    rw [bind_eq_panic] at h
    rcases h with h | ⟨_, _, h⟩
    · exact asBool_noPanic w h
    · cases h
  · intro off tok
    simp only [reads, Res.bind_eq_ok, Res.ok.injEq]
    constructor
    · rintro ⟨n, h0, h1, rfl⟩
      refine ⟨wordOf n, h1.2, _, ?_, rfl⟩
      rw [asBool_nat h1.1, if_pos h0]
    · rintro ⟨w, h1, b, h2, rfl⟩
      have hw : w = wordOf (beNat w.1) := by
        apply Subtype.ext
        have := beBytes_beNat w.1
        rw [w.2] at this
        show w.1 = word _
        rw [word_eq_beBytes]; exact this.symm
      have hn := (number_word h1).1
      rw [hw, asBool_nat hn.1] at h2
      split at h2
      · rename_i h0
        cases h2
        exact ⟨_, h0, hn, rfl⟩
      · cases h2

theorem exact_fixedBytes (prof : Profile) (n : Nat) (data : Bytes) (hd : data.length < 2 ^ 63) (hn : n < 2 ^ 62) :
    Exact (fun o => decodeParam prof (.fixedBytes n) data o) (reads (.fixedBytes n) data) (overruns (.fixedBytes n) data)
      (headWidth (.fixedBytes n)) where
  ok := by
    intro off hoff tok off'
    have hlt : off + n < 2 ^ 64 := by unfold maxOff at hoff; omega
    simp only [decodeParam, reads]
    simp only [Res.bind_eq_ok (x := takeBytes prof data off n), takeBytes_iff hd hlt, word_step_ok hoff]
    constructor
    · rintro ⟨b, ⟨h1, rfl⟩, h2, h3⟩
      exact ⟨⟨h1, h2⟩, h3⟩
    · rintro ⟨⟨h1, h2⟩, h3⟩
      exact ⟨_, ⟨h1, rfl⟩, h2, h3⟩
  panic := by
    intro off hoff
    have hlt : off + n < 2 ^ 64 := by unfold maxOff at hoff; omega
    simp only [decodeParam, overruns, iff_false]
    rw [bind_eq_panic]
    rintro (h | ⟨b, _, h⟩)
    · exact takeBytes_noPanic hlt h
    · exact word_step_panic hoff h
  bound := fun o tok h1 h2 => reads_bound _ data hd o tok h1 h2

theorem exact_bytes (prof : Profile) (data : Bytes) (hd : data.length < 2 ^ 63) :
    Exact (fun o => decodeParam prof .bytes data o) (reads .bytes data) (overruns .bytes data) (headWidth .bytes) where
  ok := by
    intro off hoff tok off'
    simp only [decodeParam, reads]
    rw [small_bind (ne_err_ok _) hd hoff]
    constructor
    · rintro ⟨o, h1, h2⟩
      obtain ⟨b, h3, h4⟩ := (payload_step (f := .bytes) (ne_err_ok _) hd hoff h1.1).1 h2
      cases h4
      exact ⟨⟨o, b, h1, h3, rfl⟩, rfl⟩
    · rintro ⟨⟨o, b, h1, h3, rfl⟩, rfl⟩
      exact ⟨o, h1, (payload_step (f := .bytes) (ne_err_ok _) hd hoff h1.1).2 ⟨b, h3, rfl⟩⟩
  panic := by
    intro off hoff
    simp only [decodeParam, overruns, iff_false]
    rw [small_bind ne_err_panic hd hoff]
    rintro ⟨o, h1, h2⟩
    obtain ⟨b, h3, h4⟩ := (payload_step (f := .bytes) ne_err_panic hd hoff h1.1).1 h2
    cases h4
  bound := fun o tok h1 h2 => reads_bound _ data hd o tok h1 h2

theorem exact_string (prof : Profile) (data : Bytes) (hd : data.length < 2 ^ 63) :
    Exact (fun o => decodeParam prof .string data o) (reads .string data) (overruns .string data) (headWidth .string) where
  ok := by
    intro off hoff tok off'
    simp only [decodeParam, reads]
    rw [small_bind (ne_err_ok _) hd hoff]
    constructor
    · rintro ⟨o, h1, h2⟩
      obtain ⟨b, h3, h4⟩ := (payload_step (f := fun b => .string (fromUtf8Lossy b)) (ne_err_ok _) hd hoff h1.1).1 h2
      cases h4
      exact ⟨⟨o, b, h1, h3, rfl⟩, rfl⟩
    · rintro ⟨⟨o, b, h1, h3, rfl⟩, rfl⟩
      exact ⟨o, h1, (payload_step (f := fun b => .string (fromUtf8Lossy b)) (ne_err_ok _) hd hoff h1.1).2 ⟨b, h3, rfl⟩⟩
  panic := by
    intro off hoff
    simp only [decodeParam, overruns, iff_false]
    rw [small_bind ne_err_panic hd hoff]
    rintro ⟨o, h1, h2⟩
    obtain ⟨b, h3, h4⟩ := (payload_step (f := fun b => .string (fromUtf8Lossy b)) ne_err_panic hd hoff h1.1).1 h2
    cases h4
  bound := fun o tok h1 h2 => reads_bound _ data hd o tok h1 h2

theorem exact_array (prof : Profile) (t : ParamType) (data : Bytes) (hd : data.length < 2 ^ 63)
    (ih : ∀ d : Bytes, d.length < 2 ^ 63 →
      Exact (fun o => decodeParam prof t d o) (reads t d) (overruns t d) (headWidth t)) :
    Exact (fun o => decodeParam prof (.array t) data o) (reads (.array t) data) (overruns (.array t) data)
      (headWidth (.array t)) := by
  have hdrop : ∀ o, (data.drop o).length < 2 ^ 63 := fun o => by simp; omega
  have key : ∀ off, off ≤ maxOff → ∀ (r : Res (Token × Nat)), (∀ e, r ≠ .err e) →
      (decodeParam prof (.array t) data off = r ↔ ∃ o, smallAt data off o ∧ ∃ k, smallAt data o k ∧
        (decodeLoop (fun o' => decodeParam prof t (data.drop (o + 32)) o') k 0 >>= fun x =>
          usizeAdd prof off 32 >>= fun o => Res.ok (.array x.1, o)) = r) := by
    intro off hoff r hr
    simp only [decodeParam]
    rw [small_bind hr hd hoff]
    constructor
    · rintro ⟨o, h1, h2⟩
      rw [small_bind hr hd (by have := h1.1; unfold maxOff; omega)] at h2
      obtain ⟨k, h2, h3⟩ := h2
      have := smallAt_le h2
      rw [usizeAdd_ok (by omega), Res.ok_bind, sliceFrom_pos this, Res.ok_bind] at h3
      exact ⟨o, h1, k, h2, h3⟩
    · rintro ⟨o, h1, k, h2, h3⟩
      refine ⟨o, h1, ?_⟩
      rw [small_bind hr hd (by have := h1.1; unfold maxOff; omega)]
      refine ⟨k, h2, ?_⟩
      have := smallAt_le h2
      rw [usizeAdd_ok (by omega), Res.ok_bind, sliceFrom_pos this, Res.ok_bind]
      exact h3
  refine ⟨?_, ?_, fun o tok h1 h2 => reads_bound _ data hd o tok h1 h2⟩
  · intro off hoff tok off'
    simp only [key off hoff _ (ne_err_ok _), elements_ok (ih _ (hdrop _)) hoff, reads]
    constructor
    · rintro ⟨o, h1, k, h2, toks, rfl, h3, rfl, rfl⟩
      exact ⟨⟨o, toks, h1, h2, h3, rfl⟩, rfl⟩
    · rintro ⟨⟨o, toks, h1, h2, h3, rfl⟩, rfl⟩
      exact ⟨o, h1, _, h2, toks, rfl, h3, rfl, rfl⟩
  · intro off hoff
    simp only [key off hoff _ ne_err_panic, elements_panic (ih _ (hdrop _)) hoff, overruns]
    constructor
    · rintro ⟨o, h1, k, h2, h3⟩; exact ⟨o, k, h1, h2, h3⟩
    · rintro ⟨o, k, h1, h2, h3⟩; exact ⟨o, h1, k, h2, h3⟩

theorem exact_fixedArray (prof : Profile) (t : ParamType) (k : Nat) (data : Bytes) (hd : data.length < 2 ^ 63)
    (ih : ∀ d : Bytes, d.length < 2 ^ 63 →
      Exact (fun o => decodeParam prof t d o) (reads t d) (overruns t d) (headWidth t)) :
    Exact (fun o => decodeParam prof (.fixedArray t k) data o) (reads (.fixedArray t k) data)
      (overruns (.fixedArray t k) data) (headWidth (.fixedArray t k)) := by
  have hdrop : ∀ o, (data.drop o).length < 2 ^ 63 := fun o => by simp; omega
  cases ht : dynamic t with
  | true =>
    have hw : headWidth (.fixedArray t k) = 32 := headWidth_dynamic (by simpa [dynamic] using ht)
    refine ⟨?_, ?_, fun o tok h1 h2 => reads_bound _ data hd o tok h1 h2⟩
    · intro off hoff tok off'
      simp only [decodeParam, type_isDynamic_eq, ht, if_true, reads, hw]
      rw [small_bind (ne_err_ok _) hd hoff]
      constructor
      · rintro ⟨o, h1, h2⟩
        by_cases hl : o ≤ data.length
        · rw [sliceFrom_pos hl, Res.ok_bind, elements_ok (ih _ (hdrop _)) hoff] at h2
          obtain ⟨toks, h2, h3, rfl, rfl⟩ := h2
          exact ⟨⟨o, toks, h1, hl, h2, h3, rfl⟩, rfl⟩
        · rw [sliceFrom_neg (by omega)] at h2; cases h2
      · rintro ⟨⟨o, toks, h1, hl, h2, h3, rfl⟩, rfl⟩
        refine ⟨o, h1, ?_⟩
        rw [sliceFrom_pos hl, Res.ok_bind, elements_ok (ih _ (hdrop _)) hoff]
        exact ⟨toks, h2, h3, rfl, rfl⟩
    · intro off hoff
      simp only [decodeParam, type_isDynamic_eq, ht, if_true, overruns]
      rw [small_bind ne_err_panic hd hoff]
      constructor
      · rintro ⟨o, h1, h2⟩
        by_cases hl : o ≤ data.length
        · rw [sliceFrom_pos hl, Res.ok_bind, elements_panic (ih _ (hdrop _)) hoff] at h2
          exact ⟨o, h1, Or.inr h2⟩
        · exact ⟨o, h1, Or.inl (by omega)⟩
      · rintro ⟨o, h1, h2⟩
        refine ⟨o, h1, ?_⟩
        by_cases hl : o ≤ data.length
        · rw [sliceFrom_pos hl, Res.ok_bind, elements_panic (ih _ (hdrop _)) hoff]
          exact h2.resolve_left (by omega)
        · rw [sliceFrom_neg (by omega)]; rfl
  | false =>
    have hw : headWidth (.fixedArray t k) = k * headWidth t := by
      rw [headWidth_static (by simpa [dynamic] using ht), headWidth_static ht, staticSize]
    refine ⟨?_, ?_, fun o tok h1 h2 => reads_bound _ data hd o tok h1 h2⟩
    · intro off hoff tok off'
      simp only [decodeParam, type_isDynamic_eq, ht, Bool.false_eq_true, if_false, reads, hw, Res.bind_eq_ok, Prod.exists,
        loop_ok (ih _ hd) k off hoff, Res.ok.injEq, Prod.mk.injEq]
      constructor
      · rintro ⟨toks, o, ⟨h1, h2, rfl⟩, rfl, rfl⟩
        exact ⟨⟨toks, h1, h2, rfl⟩, rfl⟩
      · rintro ⟨⟨toks, h1, h2, rfl⟩, rfl⟩
        exact ⟨toks, _, ⟨h1, h2, rfl⟩, rfl, rfl⟩
    · intro off hoff
      simp only [decodeParam, type_isDynamic_eq, ht, Bool.false_eq_true, if_false, overruns, bind_eq_panic,
        loop_panic (ih _ hd) k off hoff, reduceCtorEq, and_false, exists_false, or_false]

/-- what reading a list of values does -/
structure ExactAll (prof : Profile) (ts : List ParamType) (data : Bytes) : Prop where
  ok : ∀ o, o ≤ maxOff → ∀ toks o', decodeParams prof ts data o = .ok (toks, o') ↔
    readsAll ts data o toks ∧ o' = o + headPos ts
  panic : ∀ o, o ≤ maxOff → (decodeParams prof ts data o = .panic ↔ overrunsAny ts data o)

theorem exact_tuple (prof : Profile) (ts : List ParamType) (data : Bytes) (hd : data.length < 2 ^ 63)
    (ih : ∀ d : Bytes, d.length < 2 ^ 63 → ExactAll prof ts d) :
    Exact (fun o => decodeParam prof (.tuple ts) data o) (reads (.tuple ts) data) (overruns (.tuple ts) data)
      (headWidth (.tuple ts)) := by
  have hdrop : ∀ o, (data.drop o).length < 2 ^ 63 := fun o => by simp; omega
  cases ht : dynamicAny ts with
  | true =>
    have hw : headWidth (.tuple ts) = 32 := headWidth_dynamic (by simpa [dynamic] using ht)
    refine ⟨?_, ?_, fun o tok h1 h2 => reads_bound _ data hd o tok h1 h2⟩
    · intro off hoff tok off'
      simp only [decodeParam, type_anyDynamic_eq, ht, if_true, reads, hw]
      rw [small_bind (ne_err_ok _) hd hoff]
      constructor
      · rintro ⟨o, h1, h2⟩
        by_cases hl : o ≤ data.length
        · rw [if_neg (by omega), sliceFrom_pos hl, Res.ok_bind, Res.bind_eq_ok] at h2
          obtain ⟨⟨toks, o'⟩, h2, h3⟩ := h2
          rw [word_step_ok hoff] at h3
          have := ((ih _ (hdrop o)).ok 0 (by simp) toks o').1 h2
          exact ⟨⟨o, toks, h1, hl, this.1, h3.1⟩, h3.2⟩
        · rw [if_pos (by omega)] at h2; cases h2
      · rintro ⟨⟨o, toks, h1, hl, h2, h3⟩, h4⟩
        refine ⟨o, h1, ?_⟩
        rw [if_neg (by omega), sliceFrom_pos hl, Res.ok_bind, Res.bind_eq_ok]
        exact ⟨(toks, _), ((ih _ (hdrop o)).ok 0 (by simp) toks _).2 ⟨h2, rfl⟩, by rw [word_step_ok hoff]; exact ⟨h3, h4⟩⟩
    · intro off hoff
      simp only [decodeParam, type_anyDynamic_eq, ht, if_true, overruns]
      rw [small_bind ne_err_panic hd hoff]
      constructor
      · rintro ⟨o, h1, h2⟩
        by_cases hl : o ≤ data.length
        · rw [if_neg (by omega), sliceFrom_pos hl, Res.ok_bind, bind_eq_panic] at h2
          rcases h2 with h2 | ⟨x, _, h2⟩
          · exact ⟨o, h1, hl, ((ih _ (hdrop o)).panic 0 (by simp)).1 h2⟩
          · exact absurd h2 (word_step_panic hoff)
        · rw [if_pos (by omega)] at h2; cases h2
      · rintro ⟨o, h1, hl, h2⟩
        refine ⟨o, h1, ?_⟩
        rw [if_neg (by omega), sliceFrom_pos hl, Res.ok_bind, bind_eq_panic]
        exact Or.inl (((ih _ (hdrop o)).panic 0 (by simp)).2 h2)
  | false =>
    have hw : headWidth (.tuple ts) = headPos ts := by
      rw [headWidth_static (by simpa [dynamic] using ht), staticSize, staticSizeAll_headWidth ts ht]
    refine ⟨?_, ?_, fun o tok h1 h2 => reads_bound _ data hd o tok h1 h2⟩
    · intro off hoff tok off'
      simp only [decodeParam, type_anyDynamic_eq, ht, Bool.false_eq_true, if_false, reads, hw, Res.bind_eq_ok, Prod.exists,
        (ih _ hd).ok off hoff, Res.ok.injEq, Prod.mk.injEq]
      constructor
      · rintro ⟨toks, o, ⟨h1, rfl⟩, rfl, rfl⟩
        exact ⟨⟨toks, h1, rfl⟩, rfl⟩
      · rintro ⟨⟨toks, h1, rfl⟩, rfl⟩
        exact ⟨toks, _, ⟨h1, rfl⟩, rfl, rfl⟩
    · intro off hoff
      simp only [decodeParam, type_anyDynamic_eq, ht, Bool.false_eq_true, if_false, overruns, bind_eq_panic,
        (ih _ hd).panic off hoff, reduceCtorEq, and_false, exists_false, or_false]

theorem exact_cons {prof : Profile} {t : ParamType} {ts : List ParamType} {data : Bytes}
    (h1 : Exact (fun o => decodeParam prof t data o) (reads t data) (overruns t data) (headWidth t))
    (h2 : ExactAll prof ts data) : ExactAll prof (t :: ts) data where
  ok := by
    intro off hoff toks off'
    have hpos : headPos (t :: ts) = headWidth t + headPos ts := by simp [headPos]
    simp only [decodeParams, Res.bind_eq_ok, Prod.exists, readsAll, Res.ok.injEq, Prod.mk.injEq, hpos]
    constructor
    · rintro ⟨tok, o1, e1, rest, o2, e2, rfl, rfl⟩
      obtain ⟨k1, rfl⟩ := (h1.ok off hoff tok o1).1 e1
      obtain ⟨k2, rfl⟩ := (h2.ok _ (h1.bound off tok hoff k1) rest o2).1 e2
      exact ⟨⟨tok, rest, k1, k2, rfl⟩, by omega⟩
    · rintro ⟨⟨tok, rest, k1, k2, rfl⟩, rfl⟩
      exact ⟨tok, _, (h1.ok off hoff tok _).2 ⟨k1, rfl⟩, rest, _,
        (h2.ok _ (h1.bound off tok hoff k1) rest _).2 ⟨k2, rfl⟩, rfl, by omega⟩
  panic := by
    intro off hoff
    simp only [decodeParams, bind_eq_panic, Prod.exists, overrunsAny, h1.panic off hoff, reduceCtorEq, and_false,
      exists_false, or_false]
    constructor
    · rintro (e | ⟨tok, o1, e1, e2⟩)
      · exact Or.inl e
      · obtain ⟨k1, rfl⟩ := (h1.ok off hoff tok o1).1 e1
        exact Or.inr ⟨tok, k1, (h2.panic _ (h1.bound off tok hoff k1)).1 e2⟩
    · rintro (e | ⟨tok, k1, k2⟩)
      · exact Or.inl e
      · exact Or.inr ⟨tok, _, (h1.ok off hoff tok _).2 ⟨k1, rfl⟩, (h2.panic _ (h1.bound off tok hoff k1)).2 k2⟩

mutual
theorem exact_param (prof : Profile) : ∀ (t : ParamType), narrow t = true → ∀ (data : Bytes), data.length < 2 ^ 63 →
    Exact (fun o => decodeParam prof t data o) (reads t data) (overruns t data) (headWidth t)
  | .address, _, data, hd => exact_address prof data hd
  | .uint m, _, data, hd => exact_uint prof m data hd
  | .int m, _, data, hd => exact_int prof m data hd
  | .bool, _, data, hd => exact_bool prof data hd
  | .fixedBytes n, hn, data, hd => exact_fixedBytes prof n data hd (by simpa [narrow] using hn)
  | .bytes, _, data, hd => exact_bytes prof data hd
  | .string, _, data, hd => exact_string prof data hd
  | .array t, hn, data, hd => exact_array prof t data hd (exact_param prof t (by simpa [narrow] using hn))
  | .fixedArray t k, hn, data, hd => exact_fixedArray prof t k data hd (exact_param prof t (by simpa [narrow] using hn))
  | .tuple ts, hn, data, hd => exact_tuple prof ts data hd (exact_params prof ts (by simpa [narrow] using hn))
theorem exact_params (prof : Profile) : ∀ (ts : List ParamType), narrowAll ts = true → ∀ (data : Bytes),
    data.length < 2 ^ 63 → ExactAll prof ts data
  | [], _, data, hd => ⟨fun o _ toks o' => by
      simp only [decodeParams, readsAll, headPos, Res.ok.injEq, Prod.mk.injEq, List.map_nil, List.sum_nil, Nat.add_zero]
      exact ⟨fun h => ⟨h.1.symm, h.2.symm⟩, fun h => ⟨h.1.symm, h.2.symm⟩⟩, fun o _ => by simp [decodeParams, overrunsAny]⟩
  | t :: ts, hn, data, hd => by
      simp only [narrowAll, Bool.and_eq_true] at hn
      exact exact_cons (exact_param prof t hn.1 data hd) (exact_params prof ts hn.2 data hd)
end

/-! ### the only error -/

/-- the error, if any, is `InvalidData` -/
def OnlyInvalid {α : Type} (r : Res α) : Prop := ∀ e, r = .err e → e = .invalidData

theorem onlyInvalid_bind {α β : Type} {x : Res α} {f : α → Res β} (h : OnlyInvalid x) (h' : ∀ a, OnlyInvalid (f a)) :
    OnlyInvalid (x >>= f) := by
  cases x with
  | ok a => exact h' a
  | err e => intro e' he; exact h e' (by cases he; rfl)
  | panic => nofun

theorem onlyInvalid_ok {α : Type} (a : α) : OnlyInvalid (Res.ok a) := nofun

theorem onlyInvalid_usizeAdd (prof : Profile) (a b : Nat) : OnlyInvalid (usizeAdd prof a b) := by
  intro e; unfold usizeAdd machine; split
  · exact nofun
  · cases prof <;> exact nofun

theorem onlyInvalid_slice (data : Bytes) (a b : Nat) : OnlyInvalid (slice data a b) := by
  intro e; unfold slice; split <;> exact nofun

theorem onlyInvalid_sliceFrom (data : Bytes) (a : Nat) : OnlyInvalid (sliceFrom data a) := by
  intro e; unfold sliceFrom; split <;> exact nofun

theorem onlyInvalid_err {α : Type} : OnlyInvalid (Res.err .invalidData : Res α) := by
  intro e h; cases h; rfl

theorem onlyInvalid_takeBytes (prof : Profile) (data : Bytes) (off len : Nat) : OnlyInvalid (takeBytes prof data off len) := by
  refine onlyInvalid_bind (onlyInvalid_usizeAdd _ _ _) fun e => ?_
  split
  · exact onlyInvalid_err
  · exact onlyInvalid_slice _ _ _

theorem onlyInvalid_peek32 (prof : Profile) (data : Bytes) (off : Nat) : OnlyInvalid (peek32 prof data off) := by
  refine onlyInvalid_bind (onlyInvalid_takeBytes prof data off 32) fun x => ?_
  intro e; unfold copyWord; split <;> exact nofun

theorem onlyInvalid_asUsize (w : Word) : OnlyInvalid (asUsize w) := by
  unfold asUsize; split
  · exact onlyInvalid_ok _
  · exact onlyInvalid_err

theorem onlyInvalid_asBool (w : Word) : OnlyInvalid (asBool w) := by
  unfold asBool; split
  · exact onlyInvalid_ok _
  · exact onlyInvalid_err

theorem onlyInvalid_loop {f : Nat → Res (Token × Nat)} (h : ∀ o, OnlyInvalid (f o)) :
    ∀ n off, OnlyInvalid (decodeLoop f n off)
  | 0, _ => onlyInvalid_ok _
  | n + 1, off => onlyInvalid_bind (h off) fun _ => onlyInvalid_bind (onlyInvalid_loop h n _) fun _ => onlyInvalid_ok _

mutual
theorem onlyInvalid_param (prof : Profile) : ∀ (t : ParamType) (data : Bytes) (off : Nat),
    OnlyInvalid (decodeParam prof t data off)
  | .address, data, off => by
      rw [decodeParam]
      exact onlyInvalid_bind (onlyInvalid_peek32 _ _ _) fun _ => onlyInvalid_bind (onlyInvalid_usizeAdd _ _ _) fun _ =>
        onlyInvalid_ok _
  | .uint _, data, off => by
      rw [decodeParam]
      exact onlyInvalid_bind (onlyInvalid_peek32 _ _ _) fun _ => onlyInvalid_bind (onlyInvalid_usizeAdd _ _ _) fun _ =>
        onlyInvalid_ok _
  | .int _, data, off => by
      rw [decodeParam]
      exact onlyInvalid_bind (onlyInvalid_peek32 _ _ _) fun _ => onlyInvalid_bind (onlyInvalid_usizeAdd _ _ _) fun _ =>
        onlyInvalid_ok _
  | .bool, data, off => by
      rw [decodeParam]
      exact onlyInvalid_bind (onlyInvalid_peek32 _ _ _) fun _ => onlyInvalid_bind (onlyInvalid_asBool _) fun _ =>
        onlyInvalid_bind (onlyInvalid_usizeAdd _ _ _) fun _ => onlyInvalid_ok _
  | .fixedBytes n, data, off => by
      rw [decodeParam]
      exact onlyInvalid_bind (onlyInvalid_takeBytes _ _ _ _) fun _ => onlyInvalid_bind (onlyInvalid_usizeAdd _ _ _) fun _ =>
        onlyInvalid_ok _
  | .bytes, data, off => by
      rw [decodeParam]
      exact onlyInvalid_bind (onlyInvalid_peek32 _ _ _) fun _ => onlyInvalid_bind (onlyInvalid_asUsize _) fun _ =>
        onlyInvalid_bind (onlyInvalid_peek32 _ _ _) fun _ => onlyInvalid_bind (onlyInvalid_asUsize _) fun _ =>
        onlyInvalid_bind (onlyInvalid_usizeAdd _ _ _) fun _ => onlyInvalid_bind (onlyInvalid_takeBytes _ _ _ _) fun _ =>
        onlyInvalid_bind (onlyInvalid_usizeAdd _ _ _) fun _ => onlyInvalid_ok _
  | .string, data, off => by
      rw [decodeParam]
      exact onlyInvalid_bind (onlyInvalid_peek32 _ _ _) fun _ => onlyInvalid_bind (onlyInvalid_asUsize _) fun _ =>
        onlyInvalid_bind (onlyInvalid_peek32 _ _ _) fun _ => onlyInvalid_bind (onlyInvalid_asUsize _) fun _ =>
        onlyInvalid_bind (onlyInvalid_usizeAdd _ _ _) fun _ => onlyInvalid_bind (onlyInvalid_takeBytes _ _ _ _) fun _ =>
        onlyInvalid_bind (onlyInvalid_usizeAdd _ _ _) fun _ => onlyInvalid_ok _
  | .array t, data, off => by
      rw [decodeParam]
      exact onlyInvalid_bind (onlyInvalid_peek32 _ _ _) fun _ => onlyInvalid_bind (onlyInvalid_asUsize _) fun _ =>
        onlyInvalid_bind (onlyInvalid_peek32 _ _ _) fun _ => onlyInvalid_bind (onlyInvalid_asUsize _) fun _ =>
        onlyInvalid_bind (onlyInvalid_usizeAdd _ _ _) fun _ => onlyInvalid_bind (onlyInvalid_sliceFrom _ _) fun _ =>
        onlyInvalid_bind (onlyInvalid_loop (fun o => onlyInvalid_param prof t _ o) _ _) fun _ =>
        onlyInvalid_bind (onlyInvalid_usizeAdd _ _ _) fun _ => onlyInvalid_ok _
  | .fixedArray t k, data, off => by
      rw [decodeParam]
      split
      · exact onlyInvalid_bind (onlyInvalid_peek32 _ _ _) fun _ => onlyInvalid_bind (onlyInvalid_asUsize _) fun _ =>
          onlyInvalid_bind (onlyInvalid_sliceFrom _ _) fun _ =>
          onlyInvalid_bind (onlyInvalid_loop (fun o => onlyInvalid_param prof t _ o) _ _) fun _ =>
          onlyInvalid_bind (onlyInvalid_usizeAdd _ _ _) fun _ => onlyInvalid_ok _
      · exact onlyInvalid_bind (onlyInvalid_loop (fun o => onlyInvalid_param prof t _ o) _ _) fun _ => onlyInvalid_ok _
  | .tuple ts, data, off => by
      rw [decodeParam]
      split
      · refine onlyInvalid_bind (onlyInvalid_peek32 _ _ _) fun _ => onlyInvalid_bind (onlyInvalid_asUsize _) fun _ => ?_
        split
        · exact onlyInvalid_err
        · exact onlyInvalid_bind (onlyInvalid_sliceFrom _ _) fun _ =>
            onlyInvalid_bind (onlyInvalid_params prof ts _ _) fun _ =>
            onlyInvalid_bind (onlyInvalid_usizeAdd _ _ _) fun _ => onlyInvalid_ok _
      · exact onlyInvalid_bind (onlyInvalid_params prof ts _ _) fun _ => onlyInvalid_ok _
theorem onlyInvalid_params (prof : Profile) : ∀ (ts : List ParamType) (data : Bytes) (off : Nat),
    OnlyInvalid (decodeParams prof ts data off)
  | [], _, _ => onlyInvalid_ok _
  | t :: ts, data, off => by
      rw [decodeParams]
      exact onlyInvalid_bind (onlyInvalid_param prof t data off) fun _ =>
        onlyInvalid_bind (onlyInvalid_params prof ts data _) fun _ => onlyInvalid_ok _
end

theorem zeroTypes_iff (ts : List ParamType) : ts.all ParamType.isEmptyBytesValidEncoding = true ↔ zeroTypes ts := by
  rw [List.all_eq_true]
  constructor
  · intro h t ht
    have := h t ht
    cases t <;> simp_all [ParamType.isEmptyBytesValidEncoding]
  · intro h t ht
    rcases h t ht with rfl | ⟨u, rfl⟩ <;> rfl

/-- an overrun needs data -/
theorem overrun_data : ∀ (t : ParamType) (off : Nat), ¬ overruns t [] off := by
  have hs : ∀ off n, ¬ smallAt [] off n := by
    intro off n h
    have := smallAt_le h
    simp at this
  intro t
  refine ParamType.rec (motive_1 := fun t => ∀ off, ¬ overruns t [] off)
    (motive_2 := fun ts => ∀ off, ¬ overrunsAny ts [] off) ?_ ?_ ?_ ?_ ?_ ?_ ?_ ?_ ?_ ?_ ?_ ?_ t
  all_goals try (intros; intro h; exact h)
  · intro t _ off h
    obtain ⟨o, k, h1, _⟩ := h
    exact hs _ _ h1
  · intro t k ih off h
    simp only [overruns] at h
    split at h
    · obtain ⟨o, h1, _⟩ := h; exact hs _ _ h1
    · obtain ⟨toks, _, _, hq⟩ := h
      exact ih _ hq
  · intro ts ih off h
    simp only [overruns] at h
    split at h
    · obtain ⟨o, h1, _⟩ := h; exact hs _ _ h1
    · exact ih _ h
  · intro t ts ih1 ih2 off h
    rcases h with h | ⟨tok, _, h⟩
    · exact ih1 _ h
    · exact ih2 _ h

theorem overrunsAny_data : ∀ (ts : List ParamType) (off : Nat), ¬ overrunsAny ts [] off
  | [], _, h => h
  | t :: ts, off, h => by
    rcases h with h | ⟨tok, _, h⟩
    · exact overrun_data t off h
    · exact overrunsAny_data ts _ h

end Ethabi

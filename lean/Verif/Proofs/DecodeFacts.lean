import Verif.Proofs.Decode
/-! Facts about the decoder on arbitrary data. -/
namespace Ethabi
open Spec (hasType allHaveType haveTypes dynamic dynamicAny noDynFixedArray noDynFixedArrayAll)

theorem machine_eq_ok {prof : Profile} {bits n m : Nat} (h : machine prof bits n = .ok m) :
    m = n % 2 ^ bits := by
  unfold machine at h
  split at h
  · rw [Nat.mod_eq_of_lt (by assumption)]; cases h; rfl
  · cases prof <;> simp at h; exact h.symm

theorem usizeAdd_eq_ok {prof : Profile} {a b m : Nat} (h : usizeAdd prof a b = .ok m) :
    m = (a + b) % 2 ^ 64 := machine_eq_ok h

theorem slice_eq_ok {data : Bytes} {a b : Nat} {r : Bytes} (h : slice data a b = .ok r) :
    a ≤ b ∧ b ≤ data.length ∧ r = (data.drop a).take (b - a) := by
  unfold slice at h
  split at h
  · cases h; simp_all
  · cases h

theorem takeBytes_eq_ok {prof : Profile} {data : Bytes} {off len : Nat} {r : Bytes} (hlen : len < 2 ^ 64)
    (hd : data.length < 2 ^ 64) (h : takeBytes prof data off len = .ok r) :
    off + len ≤ data.length ∧ r = (data.drop off).take len := by
  simp only [takeBytes, Res.bind_eq_ok] at h
  obtain ⟨e, he, h⟩ := h
  have he := usizeAdd_eq_ok he
  split at h
  · cases h
  · obtain ⟨h1, h2, h3⟩ := slice_eq_ok h
    have : e = off + len := by omega
    subst this
    exact ⟨h2, by rw [h3, Nat.add_sub_cancel_left]⟩

theorem peek_eq_takeBytes (prof : Profile) (data : Bytes) (off len : Nat) :
    peek prof data off len = takeBytes prof data off len := rfl

theorem peek32_eq_ok {prof : Profile} {data : Bytes} {off : Nat} {w : Word} (hd : data.length < 2 ^ 64)
    (h : peek32 prof data off = .ok w) : off + 32 ≤ data.length ∧ w.1 = (data.drop off).take 32 := by
  simp only [peek32, Res.bind_eq_ok, peek_eq_takeBytes] at h
  obtain ⟨x, hx, h⟩ := h
  obtain ⟨h1, h2⟩ := takeBytes_eq_ok (by decide) hd hx
  refine ⟨h1, ?_⟩
  unfold copyWord at h
  split at h
  · cases h; simp [h2, List.take_take]
  · cases h

/-! ### decoded tokens are of the requested types (C05) -/

theorem decodeLoop_eq_ok {f : Nat → Res (Token × Nat)} {P : Token → Prop}
    (hf : ∀ o tok o', f o = .ok (tok, o') → P tok) :
    ∀ (n off : Nat) (toks : List Token) (off' : Nat), decodeLoop f n off = .ok (toks, off') →
      toks.length = n ∧ ∀ tok ∈ toks, P tok := by
  intro n
  induction n with
  | zero => intro off toks off' h; simp only [decodeLoop, Res.ok.injEq, Prod.mk.injEq] at h; simp [← h.1]
  | succ n ih =>
    intro off toks off' h
    simp only [decodeLoop, Res.bind_eq_ok, Prod.exists, Res.ok.injEq, Prod.mk.injEq] at h
    obtain ⟨tok, o1, h1, toks1, o2, h2, rfl, rfl⟩ := h
    obtain ⟨l, p⟩ := ih _ _ _ h2
    refine ⟨by simp [l], ?_⟩
    intro t ht
    rcases List.mem_cons.1 ht with rfl | ht
    · exact hf _ _ _ h1
    · exact p t ht

theorem allHaveType_iff (toks : List Token) (t : ParamType) :
    allHaveType toks t = true ↔ ∀ tok ∈ toks, hasType tok t = true := by
  induction toks with
  | nil => simp [allHaveType]
  | cons tok toks ih => simp [allHaveType, ih]

theorem length_slice_fixed {data : Bytes} {off len : Nat} (h : off + len ≤ data.length) :
    ((data.drop off).take len).length = len := by
  simp only [List.length_take, List.length_drop]; omega

theorem sliceFrom_eq_ok {data tail : Bytes} {o : Nat} (h : sliceFrom data o = .ok tail) :
    o ≤ data.length ∧ tail = data.drop o := by
  unfold sliceFrom at h
  split at h
  · cases h; simp_all
  · cases h

mutual
theorem decodeParam_typed (prof : Profile) : ∀ (t : ParamType) (data : Bytes) (off : Nat) (tok : Token) (off' : Nat),
    t.usizeOk = true → data.length < 2 ^ 64 → decodeParam prof t data off = .ok (tok, off') → hasType tok t = true
  | .address, data, off, tok, off', _, hd, h => by
      simp only [decodeParam, Res.bind_eq_ok, Res.ok.injEq, Prod.mk.injEq] at h
      obtain ⟨w, -, o, -, rfl, rfl⟩ := h; rfl
  | .uint _, data, off, tok, off', _, hd, h => by
      simp only [decodeParam, Res.bind_eq_ok, Res.ok.injEq, Prod.mk.injEq] at h
      obtain ⟨w, -, o, -, rfl, rfl⟩ := h; rfl
  | .int _, data, off, tok, off', _, hd, h => by
      simp only [decodeParam, Res.bind_eq_ok, Res.ok.injEq, Prod.mk.injEq] at h
      obtain ⟨w, -, o, -, rfl, rfl⟩ := h; rfl
  | .bool, data, off, tok, off', _, hd, h => by
      simp only [decodeParam, Res.bind_eq_ok, Res.ok.injEq, Prod.mk.injEq] at h
      obtain ⟨w, -, b, -, o, -, rfl, rfl⟩ := h; rfl
  | .fixedBytes n, data, off, tok, off', hu, hd, h => by
      simp only [decodeParam, Res.bind_eq_ok, Res.ok.injEq, Prod.mk.injEq] at h
      simp only [ParamType.usizeOk, decide_eq_true_eq] at hu
      obtain ⟨w, hw, o, -, rfl, rfl⟩ := h
      obtain ⟨h1, h2⟩ := takeBytes_eq_ok hu hd hw
      simp [hasType, h2, length_slice_fixed h1]
  | .bytes, data, off, tok, off', _, hd, h => by
      simp only [decodeParam, Res.bind_eq_ok, Res.ok.injEq, Prod.mk.injEq] at h
      obtain ⟨_, -, _, -, _, -, _, -, _, -, _, -, _, -, rfl, -⟩ := h; rfl
  | .string, data, off, tok, off', _, hd, h => by
      simp only [decodeParam, Res.bind_eq_ok, Res.ok.injEq, Prod.mk.injEq] at h
      obtain ⟨_, -, _, -, _, -, _, -, _, -, _, -, _, -, rfl, -⟩ := h; rfl
  | .array t, data, off, tok, off', hu, hd, h => by
      simp only [decodeParam, Res.bind_eq_ok, Res.ok.injEq, Prod.mk.injEq, Prod.exists] at h
      simp only [ParamType.usizeOk] at hu
      obtain ⟨_, -, _, -, _, -, len, -, _, -, tail, ht, toks, o, hl, _, -, rfl, -⟩ := h
      obtain ⟨-, rfl⟩ := sliceFrom_eq_ok ht
      have := decodeLoop_eq_ok (P := fun tok => hasType tok t = true)
        (fun o tok o' h => decodeParam_typed prof t _ o tok o' hu (by rw [List.length_drop]; omega) h) _ _ _ _ hl
      simp only [hasType]
      exact (allHaveType_iff _ _).2 this.2
  | .fixedArray t n, data, off, tok, off', hu, hd, h => by
      simp only [ParamType.usizeOk, Bool.and_eq_true] at hu
      rw [decodeParam] at h
      split at h
      · simp only [Res.bind_eq_ok, Res.ok.injEq, Prod.mk.injEq, Prod.exists] at h
        obtain ⟨_, -, _, -, tail, ht, toks, o, hl, _, -, rfl, -⟩ := h
        obtain ⟨-, rfl⟩ := sliceFrom_eq_ok ht
        have := decodeLoop_eq_ok (P := fun tok => hasType tok t = true)
          (fun o tok o' h => decodeParam_typed prof t _ o tok o' hu.2 (by rw [List.length_drop]; omega) h) _ _ _ _ hl
        simp only [hasType, Bool.and_eq_true, beq_iff_eq]
        exact ⟨this.1, (allHaveType_iff _ _).2 this.2⟩
      · simp only [Res.bind_eq_ok, Res.ok.injEq, Prod.mk.injEq, Prod.exists] at h
        obtain ⟨toks, o, hl, rfl, -⟩ := h
        have := decodeLoop_eq_ok (P := fun tok => hasType tok t = true)
          (fun o tok o' h => decodeParam_typed prof t _ o tok o' hu.2 hd h) _ _ _ _ hl
        simp only [hasType, Bool.and_eq_true, beq_iff_eq]
        exact ⟨this.1, (allHaveType_iff _ _).2 this.2⟩
  | .tuple ts, data, off, tok, off', hu, hd, h => by
      simp only [ParamType.usizeOk] at hu
      rw [decodeParam] at h
      split at h
      · simp only [Res.bind_eq_ok] at h
        obtain ⟨_, -, o, -, h⟩ := h
        split at h
        · cases h
        · simp only [Res.bind_eq_ok, Res.ok.injEq, Prod.mk.injEq, Prod.exists] at h
          obtain ⟨tail, ht, toks, o, hl, _, -, rfl, -⟩ := h
          obtain ⟨-, rfl⟩ := sliceFrom_eq_ok ht
          simp only [hasType]
          exact decodeParams_typed prof ts _ _ _ _ hu (by rw [List.length_drop]; omega) hl
      · simp only [Res.bind_eq_ok, Res.ok.injEq, Prod.mk.injEq, Prod.exists] at h
        obtain ⟨toks, o, hl, rfl, -⟩ := h
        simp only [hasType]
        exact decodeParams_typed prof ts _ _ _ _ hu hd hl
theorem decodeParams_typed (prof : Profile) : ∀ (ts : List ParamType) (data : Bytes) (off : Nat) (toks : List Token)
    (off' : Nat), ParamType.usizeOkAll ts = true → data.length < 2 ^ 64 →
    decodeParams prof ts data off = .ok (toks, off') → haveTypes toks ts = true
  | [], data, off, toks, off', _, _, h => by
      simp only [decodeParams, Res.ok.injEq, Prod.mk.injEq] at h
      simp [← h.1, haveTypes]
  | t :: ts, data, off, toks, off', hu, hd, h => by
      simp only [ParamType.usizeOkAll, Bool.and_eq_true] at hu
      simp only [decodeParams, Res.bind_eq_ok, Prod.exists, Res.ok.injEq, Prod.mk.injEq] at h
      obtain ⟨tok, o1, h1, toks1, o2, h2, rfl, rfl⟩ := h
      simp only [haveTypes, Bool.and_eq_true]
      exact ⟨decodeParam_typed prof t _ _ _ _ hu.1 hd h1, decodeParams_typed prof ts _ _ _ _ hu.2 hd h2⟩
end

/-! ### monotonicity in the data (C07) -/

theorem takeBytes_mono {prof : Profile} {data : Bytes} {off len : Nat} {r : Bytes} (x : Bytes)
    (h : takeBytes prof data off len = .ok r) : takeBytes prof (data ++ x) off len = .ok r := by
  simp only [takeBytes, Res.bind_eq_ok] at h ⊢
  obtain ⟨e, he, h⟩ := h
  refine ⟨e, he, ?_⟩
  split at h
  · cases h
  · obtain ⟨h1, h2, h3⟩ := slice_eq_ok h
    rw [if_neg (by rw [List.length_append]; omega), slice, if_pos (by rw [List.length_append]; omega), h3]
    congr 1
    rw [List.drop_append_of_le_length (by omega), List.take_append_of_le_length (by rw [List.length_drop]; omega)]

theorem peek32_mono {prof : Profile} {data : Bytes} {off : Nat} {r : Word} (x : Bytes)
    (h : peek32 prof data off = .ok r) : peek32 prof (data ++ x) off = .ok r := by
  simp only [peek32, Res.bind_eq_ok, peek_eq_takeBytes] at h ⊢
  obtain ⟨b, hb, h⟩ := h
  exact ⟨b, takeBytes_mono x hb, h⟩

theorem sliceFrom_mono {data tail : Bytes} {o : Nat} (x : Bytes) (h : sliceFrom data o = .ok tail) :
    sliceFrom (data ++ x) o = .ok (tail ++ x) := by
  obtain ⟨h1, rfl⟩ := sliceFrom_eq_ok h
  rw [sliceFrom, if_pos (by rw [List.length_append]; omega), List.drop_append_of_le_length h1]

theorem decodeLoop_mono {f g : Nat → Res (Token × Nat)} (hfg : ∀ o r, f o = .ok r → g o = .ok r) :
    ∀ (n off : Nat) (r : List Token × Nat), decodeLoop f n off = .ok r → decodeLoop g n off = .ok r := by
  intro n
  induction n with
  | zero => intro off r h; exact h
  | succ n ih =>
    intro off r h
    simp only [decodeLoop, Res.bind_eq_ok] at h ⊢
    obtain ⟨a, h1, b, h2, h3⟩ := h
    exact ⟨a, hfg _ _ h1, b, ih _ _ h2, h3⟩

mutual
theorem decodeParam_mono (prof : Profile) (x : Bytes) : ∀ (t : ParamType) (data : Bytes) (off : Nat) (r : Token × Nat),
    decodeParam prof t data off = .ok r → decodeParam prof t (data ++ x) off = .ok r
  | .address, data, off, r, h => by
      simp only [decodeParam, Res.bind_eq_ok] at h ⊢
      obtain ⟨w, h1, h⟩ := h; exact ⟨w, peek32_mono x h1, h⟩
  | .uint _, data, off, r, h => by
      simp only [decodeParam, Res.bind_eq_ok] at h ⊢
      obtain ⟨w, h1, h⟩ := h; exact ⟨w, peek32_mono x h1, h⟩
  | .int _, data, off, r, h => by
      simp only [decodeParam, Res.bind_eq_ok] at h ⊢
      obtain ⟨w, h1, h⟩ := h; exact ⟨w, peek32_mono x h1, h⟩
  | .bool, data, off, r, h => by
      simp only [decodeParam, Res.bind_eq_ok] at h ⊢
      obtain ⟨w, h1, h⟩ := h; exact ⟨w, peek32_mono x h1, h⟩
  | .fixedBytes _, data, off, r, h => by
      simp only [decodeParam, Res.bind_eq_ok] at h ⊢
      obtain ⟨w, h1, h⟩ := h; exact ⟨w, takeBytes_mono x h1, h⟩
  | .bytes, data, off, r, h => by
      simp only [decodeParam, Res.bind_eq_ok] at h ⊢
      obtain ⟨a, h1, b, h2, c, h3, d, h4, e, h5, f, h6, h⟩ := h
      exact ⟨a, peek32_mono x h1, b, h2, c, peek32_mono x h3, d, h4, e, h5, f, takeBytes_mono x h6, h⟩
  | .string, data, off, r, h => by
      simp only [decodeParam, Res.bind_eq_ok] at h ⊢
      obtain ⟨a, h1, b, h2, c, h3, d, h4, e, h5, f, h6, h⟩ := h
      exact ⟨a, peek32_mono x h1, b, h2, c, peek32_mono x h3, d, h4, e, h5, f, takeBytes_mono x h6, h⟩
  | .array t, data, off, r, h => by
      simp only [decodeParam, Res.bind_eq_ok] at h ⊢
      obtain ⟨a, h1, b, h2, c, h3, d, h4, e, h5, f, h6, g, h7, h⟩ := h
      exact ⟨a, peek32_mono x h1, b, h2, c, peek32_mono x h3, d, h4, e, h5, f ++ x, sliceFrom_mono x h6, g,
        decodeLoop_mono (fun o r h => decodeParam_mono prof x t _ o r h) _ _ _ h7, h⟩
  | .fixedArray t n, data, off, r, h => by
      rw [decodeParam] at h ⊢
      split at h
      · rename_i hdy
        rw [if_pos hdy]
        simp only [Res.bind_eq_ok] at h ⊢
        obtain ⟨a, h1, b, h2, f, h6, g, h7, h⟩ := h
        exact ⟨a, peek32_mono x h1, b, h2, f ++ x, sliceFrom_mono x h6, g,
          decodeLoop_mono (fun o r h => decodeParam_mono prof x t _ o r h) _ _ _ h7, h⟩
      · rename_i hdy
        rw [if_neg hdy]
        simp only [Res.bind_eq_ok] at h ⊢
        obtain ⟨g, h7, h⟩ := h
        exact ⟨g, decodeLoop_mono (fun o r h => decodeParam_mono prof x t _ o r h) _ _ _ h7, h⟩
  | .tuple ts, data, off, r, h => by
      rw [decodeParam] at h ⊢
      split at h
      · rename_i hdy
        rw [if_pos hdy]
        simp only [Res.bind_eq_ok] at h ⊢
        obtain ⟨a, h1, b, h2, h⟩ := h
        refine ⟨a, peek32_mono x h1, b, h2, ?_⟩
        split at h
        · cases h
        · rw [if_neg (by rw [List.length_append]; omega)]
          simp only [Res.bind_eq_ok] at h ⊢
          obtain ⟨f, h6, g, h7, h⟩ := h
          exact ⟨f ++ x, sliceFrom_mono x h6, g, decodeParams_mono prof x ts _ _ _ h7, h⟩
      · rename_i hdy
        rw [if_neg hdy]
        simp only [Res.bind_eq_ok] at h ⊢
        obtain ⟨g, h7, h⟩ := h
        exact ⟨g, decodeParams_mono prof x ts _ _ _ h7, h⟩
theorem decodeParams_mono (prof : Profile) (x : Bytes) : ∀ (ts : List ParamType) (data : Bytes) (off : Nat)
    (r : List Token × Nat), decodeParams prof ts data off = .ok r → decodeParams prof ts (data ++ x) off = .ok r
  | [], _, _, _, h => h
  | t :: ts, data, off, r, h => by
      simp only [decodeParams, Res.bind_eq_ok] at h ⊢
      obtain ⟨a, h1, b, h2, h3⟩ := h
      exact ⟨a, decodeParam_mono prof x t _ _ _ h1, b, decodeParams_mono prof x ts _ _ _ h2, h3⟩
end

/-! ### absence of panics (C06) -/

theorem noPanic_bind {α β : Type} {x : Res α} {f : α → Res β} (h1 : x ≠ .panic)
    (h2 : ∀ a, x = .ok a → f a ≠ .panic) : (x >>= f) ≠ .panic := by
  cases x with
  | ok a => simpa using h2 a rfl
  | err e => simp
  | panic => exact absurd rfl h1

theorem takeBytes_noPanic {prof : Profile} {data : Bytes} {off len : Nat} (h : off + len < 2 ^ 64) :
    takeBytes prof data off len ≠ .panic := by
  rw [takeBytes, usizeAdd_ok h, Res.ok_bind]
  split
  · simp
  · rw [slice, if_pos (by omega)]; simp

theorem peek32_noPanic {prof : Profile} {data : Bytes} {off : Nat} (h : off + 32 < 2 ^ 64) :
    peek32 prof data off ≠ .panic := by
  rw [peek32, peek_eq_takeBytes, takeBytes, usizeAdd_ok h, Res.ok_bind]
  split
  · simp
  · rw [slice, if_pos (by omega), Res.ok_bind, copyWord, dif_pos]
    · simp
    · simp; omega

theorem asUsize_noPanic (w : Word) : asUsize w ≠ .panic := by unfold asUsize; split <;> simp

theorem asBool_noPanic (w : Word) : asBool w ≠ .panic := by unfold asBool; split <;> simp

theorem wordLow_lt (w : Word) : wordLow w < 2 ^ 32 := by
  unfold wordLow
  have h1 := (w.1.getD 28 0).toNat_lt
  have h2 := (w.1.getD 29 0).toNat_lt
  have h3 := (w.1.getD 30 0).toNat_lt
  have h4 := (w.1.getD 31 0).toNat_lt
  omega

theorem asUsize_lt {w : Word} {n : Nat} (h : asUsize w = .ok n) : n < 2 ^ 32 := by
  unfold asUsize at h
  split at h
  · cases h; exact wordLow_lt w
  · cases h

/-- no panic, and the new offset stays small -/
def Safe {α : Type} (x : Res (α × Nat)) : Prop :=
  x ≠ .panic ∧ ∀ a o, x = .ok (a, o) → o ≤ 2 ^ 63 + 31

theorem safe_word {α : Type} {prof : Profile} {off : Nat} {y : α}
    (ho : off < 2 ^ 63) : Safe (usizeAdd prof off 32 >>= fun o => Res.ok (y, o)) := by
  rw [usizeAdd_ok (by omega), Res.ok_bind]
  refine ⟨by simp, ?_⟩
  intro a o h
  cases h
  omega

theorem safe_bind {α β : Type} {x : Res α} {f : α → Res (β × Nat)} (h1 : x ≠ .panic)
    (h2 : ∀ a, x = .ok a → Safe (f a)) : Safe (x >>= f) := by
  cases x with
  | ok a => exact h2 a rfl
  | err e => exact ⟨by simp, by simp⟩
  | panic => exact absurd rfl h1

theorem safe_err {α : Type} (e : Err) : Safe (Res.err e : Res (α × Nat)) := ⟨by simp, by simp⟩

theorem safe_loop {f : Nat → Res (Token × Nat)} (hf : ∀ o, o ≤ 2 ^ 63 + 31 → Safe (f o)) :
    ∀ (n off : Nat), off ≤ 2 ^ 63 + 31 → Safe (decodeLoop f n off) := by
  intro n
  induction n with
  | zero =>
    intro off h
    refine ⟨by simp [decodeLoop], ?_⟩
    intro a o h'
    simp only [decodeLoop] at h'; cases h'; exact h
  | succ n ih =>
    intro off h
    rw [decodeLoop]
    apply safe_bind (hf off h).1
    rintro ⟨tok, o1⟩ h1
    have := (hf off h).2 _ _ h1
    apply safe_bind (ih o1 this).1
    rintro ⟨toks, o2⟩ h2
    refine ⟨by simp, ?_⟩
    intro a o h'
    cases h'
    exact (ih o1 this).2 _ _ h2

mutual
theorem decodeParam_safe (prof : Profile) : ∀ (t : ParamType) (data : Bytes) (off : Nat),
    noDynFixedArray t = true → data.length < 2 ^ 63 → off ≤ 2 ^ 63 + 31 → Safe (decodeParam prof t data off)
  | .address, data, off, _, hd, ho => by
      rw [decodeParam]
      apply safe_bind (peek32_noPanic (by omega)); intro w hw
      have := (peek32_eq_ok (by omega) hw).1
      exact safe_word (by omega)
  | .uint _, data, off, _, hd, ho => by
      rw [decodeParam]
      apply safe_bind (peek32_noPanic (by omega)); intro w hw
      have := (peek32_eq_ok (by omega) hw).1
      exact safe_word (by omega)
  | .int _, data, off, _, hd, ho => by
      rw [decodeParam]
      apply safe_bind (peek32_noPanic (by omega)); intro w hw
      have := (peek32_eq_ok (by omega) hw).1
      exact safe_word (by omega)
  | .bool, data, off, _, hd, ho => by
      rw [decodeParam]
      apply safe_bind (peek32_noPanic (by omega)); intro w hw
      have := (peek32_eq_ok (by omega) hw).1
      apply safe_bind (asBool_noPanic w); intro b _
      exact safe_word (by omega)
  | .fixedBytes n, data, off, hn, hd, ho => by
      rw [decodeParam]
      simp only [noDynFixedArray, decide_eq_true_eq] at hn
      apply safe_bind (takeBytes_noPanic (by omega)); intro w hw
      have := (takeBytes_eq_ok (by omega) (by omega) hw).1
      exact safe_word (by omega)
  | .bytes, data, off, _, hd, ho => by
      rw [decodeParam]
      apply safe_bind (peek32_noPanic (by omega)); intro w hw
      have := (peek32_eq_ok (by omega) hw).1
      apply safe_bind (asUsize_noPanic w); intro o h1
      have h1 := asUsize_lt h1
      apply safe_bind (peek32_noPanic (by omega)); intro w2 hw2
      apply safe_bind (asUsize_noPanic w2); intro len h2
      have h2 := asUsize_lt h2
      rw [usizeAdd_ok (by omega), Res.ok_bind]
      apply safe_bind (takeBytes_noPanic (by omega)); intro _ _
      exact safe_word (by omega)
  | .string, data, off, _, hd, ho => by
      rw [decodeParam]
      apply safe_bind (peek32_noPanic (by omega)); intro w hw
      have := (peek32_eq_ok (by omega) hw).1
      apply safe_bind (asUsize_noPanic w); intro o h1
      have h1 := asUsize_lt h1
      apply safe_bind (peek32_noPanic (by omega)); intro w2 hw2
      apply safe_bind (asUsize_noPanic w2); intro len h2
      have h2 := asUsize_lt h2
      rw [usizeAdd_ok (by omega), Res.ok_bind]
      apply safe_bind (takeBytes_noPanic (by omega)); intro _ _
      exact safe_word (by omega)
  | .array t, data, off, hn, hd, ho => by
      rw [decodeParam]
      simp only [noDynFixedArray] at hn
      apply safe_bind (peek32_noPanic (by omega)); intro w hw
      have := (peek32_eq_ok (by omega) hw).1
      apply safe_bind (asUsize_noPanic w); intro o h1
      have h1 := asUsize_lt h1
      apply safe_bind (peek32_noPanic (by omega)); intro w2 hw2
      have h3 := (peek32_eq_ok (by omega) hw2).1
      apply safe_bind (asUsize_noPanic w2); intro len h2
      rw [usizeAdd_ok (by omega), Res.ok_bind, sliceFrom, if_pos h3, Res.ok_bind]
      apply safe_bind (safe_loop (fun o ho => decodeParam_safe prof t _ o hn (by rw [List.length_drop]; omega) ho) _ _ (by omega)).1
      intro _ _
      exact safe_word (by omega)
  | .fixedArray t n, data, off, hn, hd, ho => by
      rw [decodeParam]
      simp only [noDynFixedArray, Bool.and_eq_true, Bool.not_eq_true'] at hn
      rw [type_isDynamic_eq, hn.1]
      simp only [Bool.false_eq_true, if_false]
      have hl := safe_loop (fun o ho => decodeParam_safe prof t data o hn.2 hd ho) n off ho
      apply safe_bind hl.1
      rintro ⟨toks, o⟩ h
      refine ⟨by simp, ?_⟩
      intro a o' h'
      cases h'
      exact hl.2 _ _ h
  | .tuple ts, data, off, hn, hd, ho => by
      rw [decodeParam]
      simp only [noDynFixedArray] at hn
      split
      · apply safe_bind (peek32_noPanic (by omega)); intro w hw
        have := (peek32_eq_ok (by omega) hw).1
        apply safe_bind (asUsize_noPanic w); intro o h1
        split
        · exact safe_err _
        · rw [sliceFrom, if_pos (by omega), Res.ok_bind]
          apply safe_bind (decodeParams_safe prof ts _ 0 hn (by rw [List.length_drop]; omega) (by omega)).1
          intro _ _
          exact safe_word (by omega)
      · have hl := decodeParams_safe prof ts data off hn hd ho
        apply safe_bind hl.1
        rintro ⟨toks, o⟩ h
        refine ⟨by simp, ?_⟩
        intro a o' h'
        cases h'
        exact hl.2 _ _ h
theorem decodeParams_safe (prof : Profile) : ∀ (ts : List ParamType) (data : Bytes) (off : Nat),
    noDynFixedArrayAll ts = true → data.length < 2 ^ 63 → off ≤ 2 ^ 63 + 31 → Safe (decodeParams prof ts data off)
  | [], data, off, _, _, ho => by
      refine ⟨by simp [decodeParams], ?_⟩
      intro a o h; simp only [decodeParams] at h; cases h; exact ho
  | t :: ts, data, off, hn, hd, ho => by
      simp only [noDynFixedArrayAll, Bool.and_eq_true] at hn
      rw [decodeParams]
      have h1 := decodeParam_safe prof t data off hn.1 hd ho
      apply safe_bind h1.1
      rintro ⟨tok, o1⟩ e1
      have h2 := decodeParams_safe prof ts data o1 hn.2 hd (h1.2 _ _ e1)
      apply safe_bind h2.1
      rintro ⟨toks, o2⟩ e2
      refine ⟨by simp, ?_⟩
      intro a o h'
      cases h'
      exact h2.2 _ _ e2
end

end Ethabi

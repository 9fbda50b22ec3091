import Verif.Proofs.ReaderCount
import Verif.Proofs.Weight
import Verif.Model.DecoderCount
import Verif.Spec.Work
/-! # The work of `decode` -/
namespace Ethabi.DecoderCount
open Spec Counted ReaderCount

@[simp] theorem res_spend (n : Nat) : (spend n).res = .ok () := rfl
@[simp] theorem work_spend (n : Nat) : (spend n).work = n := rfl

/-! ### the results are those of the decoder -/

theorem res_loop (f : Nat → Counted (Token × Nat)) : ∀ (n off : Nat),
    (decodeLoopCount f n off).res = decodeLoop (fun o => (f o).res) n off
  | 0, _ => rfl
  | n + 1, off => by
    rw [decodeLoopCount, decodeLoop]
    simp only [res_bind, res_free, res_loop f n]

mutual
theorem res_param (prof : Profile) : ∀ (t : ParamType) (data : Bytes) (off : Nat),
    (decodeParamCount prof t data off).res = decodeParam prof t data off
  | .address, _, _ => by
    simp only [decodeParamCount, decodeParam, res_bind, res_free, res_spend, Res.ok_bind]
  | .int _, _, _ => by
    simp only [decodeParamCount, decodeParam, res_bind, res_free, res_spend, Res.ok_bind]
  | .uint _, _, _ => by
    simp only [decodeParamCount, decodeParam, res_bind, res_free, res_spend, Res.ok_bind]
  | .bool, _, _ => by
    simp only [decodeParamCount, decodeParam, res_bind, res_free, res_spend, Res.ok_bind]
  | .fixedBytes _, _, _ => by
    simp only [decodeParamCount, decodeParam, res_bind, res_free, res_spend, Res.ok_bind]
  | .bytes, _, _ => by
    simp only [decodeParamCount, decodeParam, res_bind, res_free, res_spend, Res.ok_bind]
  | .string, _, _ => by
    simp only [decodeParamCount, decodeParam, res_bind, res_free, res_spend, Res.ok_bind]
  | .array t, _, _ => by
    simp only [decodeParamCount, decodeParam, res_bind, res_free, res_spend, Res.ok_bind, res_loop, res_param prof t]
  | .fixedArray t _, _, _ => by
    simp only [decodeParamCount, decodeParam, res_bind, res_free, res_spend, Res.ok_bind, res_ite, res_loop, res_param prof t]
  | .tuple ts, _, _ => by
    simp only [decodeParamCount, decodeParam, res_bind, res_free, res_spend, Res.ok_bind, res_ite, res_params prof ts]
theorem res_params (prof : Profile) : ∀ (ts : List ParamType) (data : Bytes) (off : Nat),
    (decodeParamsCount prof ts data off).res = decodeParams prof ts data off
  | [], _, _ => rfl
  | t :: ts, _, _ => by
    rw [decodeParamsCount, decodeParams]
    simp only [res_bind, res_free, res_param prof t, res_params prof ts]
end

theorem res_decode (prof : Profile) (ts : List ParamType) (data : Bytes) :
    (decodeCount prof ts data).res = decode prof ts data := by
  unfold decodeCount decode
  simp only [res_bind, res_free, res_spend, Res.ok_bind, res_ite, res_params]

/-! ### offsets advance -/

/-- where a value that was read ends -/
structure Ends (data : Bytes) (wide : Bool) (off off' : Nat) : Prop where
  mono : off ≤ off'
  inside : off' ≤ data.length + 32
  wide : wide = true → off ≤ data.length ∧ off + 32 ≤ off'

theorem ends_word {data : Bytes} {off off' : Nat} {prof : Profile} (hd : data.length < 2 ^ 63) (h : off ≤ data.length)
    (ho : usizeAdd prof off 32 = .ok off') : Ends data true off off' := by
  have := usizeAdd_eq_ok ho
  rw [Nat.mod_eq_of_lt (by omega)] at this
  subst this
  exact ⟨by omega, by omega, fun _ => ⟨h, Nat.le_refl _⟩⟩

theorem ends_peek {data : Bytes} {off off' : Nat} {prof : Profile} {w : Word} (hd : data.length < 2 ^ 63)
    (h : peek32 prof data off = .ok w) (ho : usizeAdd prof off 32 = .ok off') : Ends data true off off' :=
  ends_word hd (by have := (peek32_eq_ok (by omega) h).1; omega) ho

theorem ends_weaken {data : Bytes} {b : Bool} {off off' : Nat} (h : Ends data true off off') : Ends data b off off' :=
  ⟨h.mono, h.inside, fun _ => h.wide rfl⟩

theorem take_inside {prof : Profile} {data : Bytes} {off len : Nat} {r : Bytes} (h : takeBytes prof data off len = .ok r) :
    off ≤ data.length ∧ r.length ≤ len ∧ r.length ≤ data.length := by
  simp only [takeBytes, Res.bind_eq_ok] at h
  obtain ⟨e, he, h⟩ := h
  split at h
  · cases h
  · obtain ⟨h1, h2, rfl⟩ := slice_eq_ok h
    have h3 := usizeAdd_eq_ok he
    have h4 := Nat.mod_le (off + len) (2 ^ 64)
    rw [List.length_take, List.length_drop]
    omega

theorem ends_loop {data : Bytes} {b : Bool} {f : Nat → Res (Token × Nat)}
    (hf : ∀ o tok o', o ≤ data.length + 32 → f o = .ok (tok, o') → Ends data b o o') :
    ∀ (n off : Nat) (toks : List Token) (off' : Nat), off ≤ data.length + 32 → decodeLoop f n off = .ok (toks, off') →
      Ends data (b && n != 0) off off'
  | 0, off, toks, off', ho, h => by
    cases h
    exact ⟨Nat.le_refl _, ho, fun h => by simp at h⟩
  | n + 1, off, toks, off', ho, h => by
    simp only [decodeLoop, Res.bind_eq_ok, Prod.exists, Res.ok.injEq, Prod.mk.injEq] at h
    obtain ⟨tok, o1, h1, toks', o2, h2, -, rfl⟩ := h
    have e1 := hf _ _ _ ho h1
    have e2 := ends_loop hf n o1 toks' o2 e1.inside h2
    refine ⟨Nat.le_trans e1.mono e2.mono, e2.inside, fun h => ?_⟩
    have hb : b = true := by simp at h; exact h
    have e3 := e1.wide hb
    have := e2.mono
    exact ⟨e3.1, by omega⟩

mutual
theorem ends_param (prof : Profile) (data : Bytes) (hd : data.length < 2 ^ 63) : ∀ (t : ParamType) (off : Nat) (tok : Token)
    (off' : Nat), off ≤ data.length + 32 → decodeParam prof t data off = .ok (tok, off') → Ends data (nonzeroWidth t) off off'
  | .address, off, tok, off', _, h => by
    simp only [decodeParam, Res.bind_eq_ok, Res.ok.injEq, Prod.mk.injEq] at h
    obtain ⟨w, hw, o, ho, -, rfl⟩ := h
    exact ends_peek hd hw ho
  | .int _, off, tok, off', _, h => by
    simp only [decodeParam, Res.bind_eq_ok, Res.ok.injEq, Prod.mk.injEq] at h
    obtain ⟨w, hw, o, ho, -, rfl⟩ := h
    exact ends_peek hd hw ho
  | .uint _, off, tok, off', _, h => by
    simp only [decodeParam, Res.bind_eq_ok, Res.ok.injEq, Prod.mk.injEq] at h
    obtain ⟨w, hw, o, ho, -, rfl⟩ := h
    exact ends_peek hd hw ho
  | .bool, off, tok, off', _, h => by
    simp only [decodeParam, Res.bind_eq_ok, Res.ok.injEq, Prod.mk.injEq] at h
    obtain ⟨w, hw, _, _, o, ho, -, rfl⟩ := h
    exact ends_peek hd hw ho
  | .fixedBytes n, off, tok, off', _, h => by
    simp only [decodeParam, Res.bind_eq_ok, Res.ok.injEq, Prod.mk.injEq] at h
    obtain ⟨bs, hb, o, ho, -, rfl⟩ := h
    exact ends_weaken (ends_word hd (take_inside hb).1 ho)
  | .bytes, off, tok, off', _, h => by
    simp only [decodeParam, Res.bind_eq_ok, Res.ok.injEq, Prod.mk.injEq] at h
    obtain ⟨w, hw, _, _, _, _, _, _, _, _, _, _, o, ho, -, rfl⟩ := h
    exact ends_peek hd hw ho
  | .string, off, tok, off', _, h => by
    simp only [decodeParam, Res.bind_eq_ok, Res.ok.injEq, Prod.mk.injEq] at h
    obtain ⟨w, hw, _, _, _, _, _, _, _, _, _, _, o, ho, -, rfl⟩ := h
    exact ends_peek hd hw ho
  | .array t, off, tok, off', _, h => by
    simp only [decodeParam, Res.bind_eq_ok, Res.ok.injEq, Prod.mk.injEq] at h
    obtain ⟨w, hw, _, _, _, _, _, _, _, _, _, _, _, _, o, ho, -, rfl⟩ := h
    exact ends_peek hd hw ho
  | .fixedArray t n, off, tok, off', hi, h => by
    rw [decodeParam] at h
    split at h
    · simp only [Res.bind_eq_ok, Res.ok.injEq, Prod.mk.injEq] at h
      obtain ⟨w, hw, _, _, _, _, _, _, o, ho, -, rfl⟩ := h
      exact ends_weaken (ends_peek hd hw ho)
    · rename_i hs
      simp only [Res.bind_eq_ok, Prod.exists, Res.ok.injEq, Prod.mk.injEq] at h
      obtain ⟨toks, o, h, -, rfl⟩ := h
      have := ends_loop (fun o tok o' hi h => ends_param prof data hd t o tok o' hi h) n off toks o hi h
      rw [type_isDynamic_eq] at hs
      simpa [nonzeroWidth, hs] using this
  | .tuple ts, off, tok, off', hi, h => by
    rw [decodeParam] at h
    split at h
    · simp only [Res.bind_eq_ok] at h
      obtain ⟨w, hw, _, _, h⟩ := h
      split at h
      · cases h
      · simp only [Res.bind_eq_ok, Res.ok.injEq, Prod.mk.injEq] at h
        obtain ⟨_, _, _, _, o, ho, -, rfl⟩ := h
        exact ends_weaken (ends_peek hd hw ho)
    · simp only [Res.bind_eq_ok, Prod.exists, Res.ok.injEq, Prod.mk.injEq] at h
      obtain ⟨toks, o, h, -, rfl⟩ := h
      exact ends_params prof data hd ts off toks o hi h
theorem ends_params (prof : Profile) (data : Bytes) (hd : data.length < 2 ^ 63) : ∀ (ts : List ParamType) (off : Nat)
    (toks : List Token) (off' : Nat), off ≤ data.length + 32 → decodeParams prof ts data off = .ok (toks, off') →
    Ends data (nonzeroWidthAny ts) off off'
  | [], off, toks, off', hi, h => by
    cases h
    exact ⟨Nat.le_refl _, hi, fun h => by simp [nonzeroWidthAny] at h⟩
  | t :: ts, off, toks, off', hi, h => by
    simp only [decodeParams, Res.bind_eq_ok, Prod.exists, Res.ok.injEq, Prod.mk.injEq] at h
    obtain ⟨tok, o1, h1, toks', o2, h2, -, rfl⟩ := h
    have e1 := ends_param prof data hd t off tok o1 hi h1
    have e2 := ends_params prof data hd ts o1 toks' o2 e1.inside h2
    have m1 := e1.mono
    have m2 := e2.mono
    refine ⟨Nat.le_trans m1 m2, e2.inside, fun h => ?_⟩
    simp only [nonzeroWidthAny, Bool.or_eq_true] at h
    rcases h with h | h
    · have := e1.wide h; omega
    · have := e2.wide h; omega
end

/-! ### the bound -/

/-- nothing but a result -/
theorem free_bind_le {α β : Type} {x : Res α} {f : α → Counted β} {m : Nat} (h : ∀ a, x = .ok a → (f a).work ≤ m) :
    (free x >>= f).work ≤ m := by
  have := work_bind_le (x := free x) (f := f) (m := m) h
  simpa using this

theorem spend_bind {β : Type} (n : Nat) (f : Unit → Counted β) : (spend n >>= f).work = n + (f ()).work := rfl

theorem loop_simple {m : Nat} {f : Nat → Counted (Token × Nat)} (hm : ∀ o, (f o).work ≤ m) : ∀ (n off : Nat),
    (decodeLoopCount f n off).work ≤ n * m
  | 0, _ => Nat.zero_le _
  | n + 1, off => by
    rw [decodeLoopCount, Nat.succ_mul, Nat.add_comm]
    refine Nat.le_trans (work_bind_le (m := n * m) fun a _ => ?_) (Nat.add_le_add_right (hm off) _)
    refine Nat.le_trans (work_bind_le (m := 0) fun a _ => Nat.le_refl _) ?_
    exact loop_simple hm n _

theorem loop_words {l m : Nat} {f : Nat → Counted (Token × Nat)} (hm : ∀ o, (f o).work ≤ m)
    (hf : ∀ o tok o', o ≤ l + 32 → (f o).res = .ok (tok, o') → o ≤ l ∧ o + 32 ≤ o' ∧ o' ≤ l + 32) :
    ∀ (n off : Nat), off ≤ l + 32 → (decodeLoopCount f n off).work ≤ ((l + 32 - off) / 32 + 1) * m
  | 0, _, _ => Nat.zero_le _
  | n + 1, off, ho => by
    rw [decodeLoopCount, Nat.succ_mul, Nat.add_comm]
    refine Nat.le_trans (work_bind_le (m := (l + 32 - off) / 32 * m) fun a ha => ?_) (Nat.add_le_add_right (hm off) _)
    obtain ⟨h1, h2, h3⟩ := hf off a.1 a.2 ho ha
    refine Nat.le_trans (work_bind_le (m := 0) fun a _ => Nat.le_refl _) ?_
    refine Nat.le_trans (loop_words hm hf n a.2 h3) (Nat.mul_le_mul_right _ ?_)
    omega

mutual
theorem dynamicWork_le : ∀ (t : ParamType), dynamicWork t ≤ nodes t
  | .fixedArray t _ => by
    have := dynamicWork_le t
    simp only [dynamicWork, nodes]; omega
  | .tuple ts => by
    have := anyDynamicWork_le ts
    simp only [dynamicWork, nodes]; omega
  | .array t => by simp [dynamicWork, nodes]
  | .address => by simp [dynamicWork, nodes]
  | .bytes => by simp [dynamicWork, nodes]
  | .int _ => by simp [dynamicWork, nodes]
  | .uint _ => by simp [dynamicWork, nodes]
  | .bool => by simp [dynamicWork, nodes]
  | .string => by simp [dynamicWork, nodes]
  | .fixedBytes _ => by simp [dynamicWork, nodes]
theorem anyDynamicWork_le : ∀ (ts : List ParamType), anyDynamicWork ts ≤ nodesAll ts
  | [] => Nat.le_refl _
  | t :: ts => by
    have := dynamicWork_le t
    have := anyDynamicWork_le ts
    simp only [anyDynamicWork, nodesAll]
    split <;> omega
end

theorem slice_len {data tail : Bytes} {o l : Nat} (hl : data.length ≤ l) (h : sliceFrom data o = .ok tail) : tail.length ≤ l := by
  unfold sliceFrom at h
  split at h
  · cases h; rw [List.length_drop]; omega
  · cases h

mutual
theorem work_param (prof : Profile) (l : Nat) (hl63 : l < 2 ^ 63) : ∀ (t : ParamType), noZeroWidthArray t = true →
    ∀ (data : Bytes) (off : Nat), data.length ≤ l → (decodeParamCount prof t data off).work ≤ maxWork l t
  | .address, _, data, off, hl => by
    rw [decodeParamCount, spend_bind, maxWork]
    exact Nat.add_le_add_left (free_bind_le (m := 0) fun _ _ => free_bind_le fun _ _ => Nat.le_refl _) 1
  | .int _, _, data, off, hl => by
    rw [decodeParamCount, spend_bind, maxWork]
    exact Nat.add_le_add_left (free_bind_le (m := 0) fun _ _ => free_bind_le fun _ _ => Nat.le_refl _) 1
  | .uint _, _, data, off, hl => by
    rw [decodeParamCount, spend_bind, maxWork]
    exact Nat.add_le_add_left (free_bind_le (m := 0) fun _ _ => free_bind_le fun _ _ => Nat.le_refl _) 1
  | .bool, _, data, off, hl => by
    rw [decodeParamCount, spend_bind, maxWork]
    exact Nat.add_le_add_left (free_bind_le (m := 0) fun _ _ => free_bind_le fun _ _ => free_bind_le fun _ _ => Nat.le_refl _) 1
  | .fixedBytes n, _, data, off, hl => by
    rw [decodeParamCount, spend_bind, maxWork]
    refine Nat.add_le_add_left (free_bind_le fun bs hb => ?_) 1
    rw [spend_bind]
    refine Nat.le_trans (Nat.add_le_add_left (free_bind_le (m := 0) fun _ _ => Nat.le_refl _) _) ?_
    exact (take_inside hb).2.1
  | .bytes, _, data, off, hl => by
    rw [decodeParamCount, spend_bind, maxWork]
    refine Nat.add_le_add_left (free_bind_le fun _ _ => free_bind_le fun _ _ => free_bind_le fun _ _ => free_bind_le fun _ _ =>
      free_bind_le fun _ _ => free_bind_le fun bs hb => ?_) 1
    rw [spend_bind]
    refine Nat.le_trans (Nat.add_le_add_left (free_bind_le (m := 0) fun _ _ => Nat.le_refl _) _) ?_
    have := (take_inside hb).2.2
    omega
  | .string, _, data, off, hl => by
    rw [decodeParamCount, spend_bind, maxWork]
    refine Nat.add_le_add_left (free_bind_le fun _ _ => free_bind_le fun _ _ => free_bind_le fun _ _ => free_bind_le fun _ _ =>
      free_bind_le fun _ _ => free_bind_le fun bs hb => ?_) 1
    rw [spend_bind]
    refine Nat.le_trans (Nat.add_le_add_left (free_bind_le (m := 0) fun _ _ => Nat.le_refl _) _) ?_
    have := (take_inside hb).2.2
    omega
  | .array t, hz, data, off, hl => by
    simp only [noZeroWidthArray, Bool.and_eq_true] at hz
    rw [decodeParamCount, spend_bind, maxWork]
    refine Nat.add_le_add_left (free_bind_le fun _ _ => free_bind_le fun _ _ => free_bind_le fun _ _ => free_bind_le fun _ _ =>
      free_bind_le fun _ _ => free_bind_le fun tail ht => ?_) 1
    have hl' := slice_len hl ht
    refine Nat.le_trans (work_bind_le (m := 0) fun _ _ => free_bind_le fun _ _ => Nat.le_refl _) ?_
    refine Nat.le_trans (loop_words (l := tail.length) (m := maxWork l t) (fun o => work_param prof l hl63 t hz.2 tail o hl') ?_ _ 0
      (Nat.zero_le _)) (Nat.mul_le_mul_right _ (by omega))
    intro o tok o' ho h
    rw [res_param] at h
    have e := ends_param prof tail (by omega) t o tok o' ho h
    exact ⟨(e.wide hz.1).1, (e.wide hz.1).2, e.inside⟩
  | .fixedArray t n, hz, data, off, hl => by
    simp only [noZeroWidthArray] at hz
    have hw := dynamicWork_le t
    rw [decodeParamCount, spend_bind, maxWork, dynamicWork]
    refine Nat.add_le_add (by omega) ?_
    split
    · refine free_bind_le fun _ _ => free_bind_le fun _ _ => free_bind_le fun tail ht => ?_
      refine Nat.le_trans (work_bind_le (m := 0) fun _ _ => free_bind_le fun _ _ => Nat.le_refl _) ?_
      exact loop_simple (fun o => work_param prof l hl63 t hz tail o (slice_len hl ht)) n 0
    · refine Nat.le_trans (work_bind_le (m := 0) fun _ _ => Nat.le_refl _) ?_
      exact loop_simple (fun o => work_param prof l hl63 t hz data o hl) n off
  | .tuple ts, hz, data, off, hl => by
    simp only [noZeroWidthArray] at hz
    have hw := anyDynamicWork_le ts
    rw [decodeParamCount, spend_bind, maxWork, dynamicWork]
    refine Nat.add_le_add (by omega) ?_
    split
    · refine free_bind_le fun _ _ => free_bind_le fun _ _ => ?_
      split
      · exact Nat.zero_le _
      · refine free_bind_le fun tail ht => ?_
        refine Nat.le_trans (work_bind_le (m := 0) fun _ _ => free_bind_le fun _ _ => Nat.le_refl _) ?_
        exact work_params prof l hl63 ts hz tail 0 (slice_len hl ht)
    · refine Nat.le_trans (work_bind_le (m := 0) fun _ _ => Nat.le_refl _) ?_
      exact work_params prof l hl63 ts hz data off hl
theorem work_params (prof : Profile) (l : Nat) (hl63 : l < 2 ^ 63) : ∀ (ts : List ParamType), noZeroWidthArrays ts = true →
    ∀ (data : Bytes) (off : Nat), data.length ≤ l → (decodeParamsCount prof ts data off).work ≤ maxWorkAll l ts
  | [], _, _, _, _ => Nat.zero_le _
  | t :: ts, hz, data, off, hl => by
    simp only [noZeroWidthArrays, Bool.and_eq_true] at hz
    rw [decodeParamsCount, maxWorkAll]
    refine Nat.le_trans (work_bind_le (m := maxWorkAll l ts) fun a _ => ?_)
      (Nat.add_le_add_right (work_param prof l hl63 t hz.1 data off hl) _)
    refine Nat.le_trans (work_bind_le (m := 0) fun _ _ => Nat.le_refl _) ?_
    exact work_params prof l hl63 ts hz.2 data _ hl
end

theorem work_decode (prof : Profile) (ts : List ParamType) (data : Bytes) (hd : data.length < 2 ^ 63)
    (hz : noZeroWidthArrays ts = true) : (decodeCount prof ts data).work ≤ ts.length + maxWorkAll data.length ts := by
  unfold decodeCount
  rw [spend_bind]
  refine Nat.add_le_add_left ?_ _
  split
  · exact Nat.zero_le _
  · refine Nat.le_trans (work_bind_le (m := 0) fun _ _ => Nat.le_refl _) ?_
    exact work_params prof _ hd ts hz data 0 (Nat.le_refl _)

/-! ### the bound is a polynomial -/

theorem pow1 (l d : Nat) : 1 ≤ (l + 1) ^ d := Nat.one_le_pow _ _ (by omega)

theorem absorb {a l d : Nat} : a ≤ a * (l + 1) ^ d := Nat.le_mul_of_pos_right _ (pow1 l d)

mutual
theorem maxWork_poly (l : Nat) : ∀ (t : ParamType), maxWork l t ≤ basicWork t * (l + 1) ^ layers t
  | .fixedBytes n => by simp [maxWork, basicWork, layers]
  | .bytes => by simp [maxWork, basicWork, layers]; omega
  | .string => by simp [maxWork, basicWork, layers]; omega
  | .address => by simp [maxWork, basicWork, layers]
  | .int _ => by simp [maxWork, basicWork, layers]
  | .uint _ => by simp [maxWork, basicWork, layers]
  | .bool => by simp [maxWork, basicWork, layers]
  | .array t => by
    have h := maxWork_poly l t
    rw [maxWork, basicWork, layers, Nat.add_mul 1, Nat.one_mul]
    refine Nat.add_le_add (pow1 _ _) ?_
    refine Nat.le_trans (Nat.mul_le_mul (Nat.le_trans (show l / 32 + 2 ≤ 2 * (l + 1) by omega) (Nat.le_refl _)) h) ?_
    refine Nat.le_of_eq ?_
    rw [Nat.pow_add, Nat.pow_one]
    simp only [Nat.mul_assoc, Nat.mul_left_comm, Nat.mul_comm]
  | .fixedArray t k => by
    have h := maxWork_poly l t
    rw [maxWork, basicWork, layers, Nat.add_mul]
    refine Nat.add_le_add absorb ?_
    rw [Nat.mul_assoc]
    exact Nat.mul_le_mul_left _ h
  | .tuple ts => by
    have h := maxWorkAll_poly l ts
    rw [maxWork, basicWork, layers, Nat.add_mul]
    exact Nat.add_le_add absorb h
theorem maxWorkAll_poly (l : Nat) : ∀ (ts : List ParamType), maxWorkAll l ts ≤ basicWorkAll ts * (l + 1) ^ layersAll ts
  | [] => Nat.zero_le _
  | t :: ts => by
    have h1 := maxWork_poly l t
    have h2 := maxWorkAll_poly l ts
    rw [maxWorkAll, basicWorkAll, layersAll, Nat.add_mul]
    exact Nat.add_le_add
      (Nat.le_trans h1 (Nat.mul_le_mul_left _ (Nat.pow_le_pow_right (by omega) (Nat.le_max_left ..))))
      (Nat.le_trans h2 (Nat.mul_le_mul_left _ (Nat.pow_le_pow_right (by omega) (Nat.le_max_right ..))))
end

/-! ### what is returned has been worked for -/

theorem bind_ok {α β : Type} {x : Counted α} {f : α → Counted β} {b : β} (h : (x >>= f).res = .ok b) :
    ∃ a, x.res = .ok a ∧ (f a).res = .ok b ∧ (x >>= f).work = x.work + (f a).work := by
  rw [res_bind, Res.bind_eq_ok] at h
  obtain ⟨a, h1, h2⟩ := h
  refine ⟨a, h1, h2, ?_⟩
  change (Counted.bind x f).work = _
  unfold Counted.bind
  rw [h1]

theorem least_loop {f : Nat → Counted (Token × Nat)} (hf : ∀ o tok o', (f o).res = .ok (tok, o') → weight tok ≤ 2 * (f o).work) :
    ∀ (n off : Nat) (toks : List Token) (off' : Nat), (decodeLoopCount f n off).res = .ok (toks, off') →
      weightAll toks ≤ 2 * (decodeLoopCount f n off).work
  | 0, off, toks, off', h => by cases h; exact Nat.zero_le _
  | n + 1, off, toks, off', h => by
    rw [decodeLoopCount] at h ⊢
    obtain ⟨⟨tok, o1⟩, h1, h2, e⟩ := bind_ok h
    obtain ⟨⟨rest, o2⟩, h3, h4, e'⟩ := bind_ok h2
    rw [e, e']
    cases h4
    have a1 := hf _ _ _ h1
    have a2 := least_loop hf n o1 rest _ h3
    rw [weightAll, work_free]
    omega

mutual
theorem least_param (prof : Profile) : ∀ (t : ParamType) (data : Bytes) (off : Nat) (tok : Token) (off' : Nat),
    (decodeParamCount prof t data off).res = .ok (tok, off') → weight tok ≤ 2 * (decodeParamCount prof t data off).work
  | .address, data, off, tok, off', h => by
    rw [decodeParamCount] at h ⊢
    obtain ⟨_, -, h, e⟩ := bind_ok h
    rw [e]
    obtain ⟨_, -, h, e⟩ := bind_ok h
    obtain ⟨_, -, h, e⟩ := bind_ok h
    cases h
    simp only [weight, work_spend]; omega
  | .int _, data, off, tok, off', h => by
    rw [decodeParamCount] at h ⊢
    obtain ⟨_, -, h, e⟩ := bind_ok h
    rw [e]
    obtain ⟨_, -, h, e⟩ := bind_ok h
    obtain ⟨_, -, h, e⟩ := bind_ok h
    cases h
    simp only [weight, work_spend]; omega
  | .uint _, data, off, tok, off', h => by
    rw [decodeParamCount] at h ⊢
    obtain ⟨_, -, h, e⟩ := bind_ok h
    rw [e]
    obtain ⟨_, -, h, e⟩ := bind_ok h
    obtain ⟨_, -, h, e⟩ := bind_ok h
    cases h
    simp only [weight, work_spend]; omega
  | .bool, data, off, tok, off', h => by
    rw [decodeParamCount] at h ⊢
    obtain ⟨_, -, h, e⟩ := bind_ok h
    rw [e]
    obtain ⟨_, -, h, e⟩ := bind_ok h
    obtain ⟨_, -, h, e⟩ := bind_ok h
    obtain ⟨_, -, h, e⟩ := bind_ok h
    cases h
    simp only [weight, work_spend]; omega
  | .fixedBytes _, data, off, tok, off', h => by
    rw [decodeParamCount] at h ⊢
    obtain ⟨_, -, h, e1⟩ := bind_ok h
    obtain ⟨bs, -, h, e2⟩ := bind_ok h
    obtain ⟨_, -, h, e3⟩ := bind_ok h
    obtain ⟨_, -, h, e4⟩ := bind_ok h
    cases h
    rw [e1, e2, e3]
    simp only [weight, work_spend]; omega
  | .bytes, data, off, tok, off', h => by
    rw [decodeParamCount] at h ⊢
    obtain ⟨_, -, h, e1⟩ := bind_ok h
    obtain ⟨_, -, h, e2⟩ := bind_ok h
    obtain ⟨_, -, h, e3⟩ := bind_ok h
    obtain ⟨_, -, h, e4⟩ := bind_ok h
    obtain ⟨_, -, h, e5⟩ := bind_ok h
    obtain ⟨_, -, h, e6⟩ := bind_ok h
    obtain ⟨bs, -, h, e7⟩ := bind_ok h
    obtain ⟨_, -, h, e8⟩ := bind_ok h
    obtain ⟨_, -, h, e9⟩ := bind_ok h
    cases h
    rw [e1, e2, e3, e4, e5, e6, e7, e8]
    simp only [weight, work_spend]; omega
  | .string, data, off, tok, off', h => by
    rw [decodeParamCount] at h ⊢
    obtain ⟨_, -, h, e1⟩ := bind_ok h
    obtain ⟨_, -, h, e2⟩ := bind_ok h
    obtain ⟨_, -, h, e3⟩ := bind_ok h
    obtain ⟨_, -, h, e4⟩ := bind_ok h
    obtain ⟨_, -, h, e5⟩ := bind_ok h
    obtain ⟨_, -, h, e6⟩ := bind_ok h
    obtain ⟨bs, -, h, e7⟩ := bind_ok h
    obtain ⟨_, -, h, e8⟩ := bind_ok h
    obtain ⟨_, -, h, e9⟩ := bind_ok h
    cases h
    rw [e1, e2, e3, e4, e5, e6, e7, e8]
    have := Weight.lossy_len bs
    simp only [weight, work_spend, ← utf8_eq_core]; omega
  | .array t, data, off, tok, off', h => by
    rw [decodeParamCount] at h ⊢
    obtain ⟨_, -, h, e1⟩ := bind_ok h
    obtain ⟨_, -, h, e2⟩ := bind_ok h
    obtain ⟨_, -, h, e3⟩ := bind_ok h
    obtain ⟨_, -, h, e4⟩ := bind_ok h
    obtain ⟨_, -, h, e5⟩ := bind_ok h
    obtain ⟨_, -, h, e6⟩ := bind_ok h
    obtain ⟨_, -, h, e7⟩ := bind_ok h
    obtain ⟨⟨toks, o⟩, hl, h, e8⟩ := bind_ok h
    obtain ⟨_, -, h, e9⟩ := bind_ok h
    cases h
    rw [e1, e2, e3, e4, e5, e6, e7, e8]
    have := least_loop (fun o tok o' h => least_param prof t _ o tok o' h) _ _ _ _ hl
    simp only [weight, work_spend]; omega
  | .fixedArray t n, data, off, tok, off', h => by
    rw [decodeParamCount] at h ⊢
    obtain ⟨_, -, h, e1⟩ := bind_ok h
    rw [e1]
    split at h
    · rename_i hs
      rw [if_pos hs]
      obtain ⟨_, -, h, e2⟩ := bind_ok h
      obtain ⟨_, -, h, e3⟩ := bind_ok h
      obtain ⟨_, -, h, e4⟩ := bind_ok h
      obtain ⟨⟨toks, o⟩, hl, h, e5⟩ := bind_ok h
      obtain ⟨_, -, h, e6⟩ := bind_ok h
      cases h
      rw [e2, e3, e4, e5]
      have := least_loop (fun o tok o' h => least_param prof t _ o tok o' h) _ _ _ _ hl
      simp only [weight, work_spend]; omega
    · rename_i hs
      rw [if_neg hs]
      obtain ⟨⟨toks, o⟩, hl, h, e2⟩ := bind_ok h
      cases h
      rw [e2]
      have := least_loop (fun o tok o' h => least_param prof t _ o tok o' h) _ _ _ _ hl
      simp only [weight, work_spend]; omega
  | .tuple ts, data, off, tok, off', h => by
    rw [decodeParamCount] at h ⊢
    obtain ⟨_, -, h, e1⟩ := bind_ok h
    rw [e1]
    split at h
    · rename_i hs
      rw [if_pos hs]
      obtain ⟨_, -, h, e2⟩ := bind_ok h
      obtain ⟨o, -, h, e3⟩ := bind_ok h
      rw [e2, e3]
      split at h
      · cases h
      · rename_i hs
        rw [if_neg hs]
        obtain ⟨_, -, h, e4⟩ := bind_ok h
        obtain ⟨⟨toks, o⟩, hl, h, e5⟩ := bind_ok h
        obtain ⟨_, -, h, e6⟩ := bind_ok h
        cases h
        rw [e4, e5]
        have := least_params prof ts _ _ _ _ hl
        simp only [weight, work_spend]; omega
    · rename_i hs
      rw [if_neg hs]
      obtain ⟨⟨toks, o⟩, hl, h, e2⟩ := bind_ok h
      cases h
      rw [e2]
      have := least_params prof ts _ _ _ _ hl
      simp only [weight, work_spend]; omega
theorem least_params (prof : Profile) : ∀ (ts : List ParamType) (data : Bytes) (off : Nat) (toks : List Token) (off' : Nat),
    (decodeParamsCount prof ts data off).res = .ok (toks, off') → weightAll toks ≤ 2 * (decodeParamsCount prof ts data off).work
  | [], _, _, _, _, h => by cases h; exact Nat.zero_le _
  | t :: ts, data, off, toks, off', h => by
    rw [decodeParamsCount] at h ⊢
    obtain ⟨⟨tok, o1⟩, h1, h2, e⟩ := bind_ok h
    obtain ⟨⟨rest, o2⟩, h3, h4, e'⟩ := bind_ok h2
    rw [e, e']
    cases h4
    have a1 := least_param prof t _ _ _ _ h1
    have a2 := least_params prof ts _ _ _ _ h3
    rw [weightAll, work_free]
    omega
end

theorem least_decode (prof : Profile) (ts : List ParamType) (data : Bytes) (toks : List Token)
    (h : decode prof ts data = .ok toks) : weightAll toks ≤ 2 * (decodeCount prof ts data).work := by
  rw [← res_decode] at h
  unfold decodeCount at h ⊢
  obtain ⟨_, -, h, e⟩ := bind_ok h
  rw [e]
  split at h
  · cases h
  · rename_i hs
    rw [if_neg hs]
    obtain ⟨⟨toks, o⟩, hl, h, e2⟩ := bind_ok h
    cases h
    rw [e2]
    have := least_params prof ts _ _ _ _ hl
    omega

end Ethabi.DecoderCount

import Verif.Proofs.TypeCheck
import Verif.Proofs.Lossy
/-! Glue lemmas for the codec property theorems. -/
namespace Ethabi
open Spec

theorem decode_of_params {prof : Profile} {ts : List ParamType} {data : Bytes} {toks : List Token} {o : Nat}
    (h : decodeParams prof ts data 0 = .ok (toks, o))
    (hw : data ≠ [] ∨ ts.all ParamType.isEmptyBytesValidEncoding = true) : decode prof ts data = .ok toks := by
  have : (!(ts.all ParamType.isEmptyBytesValidEncoding) && data.isEmpty) = false := by
    rcases hw with hw | hw
    · simp [hw]
    · simp [hw]
  rw [decode, this]
  simp [h]

theorem decode_eq_ok {prof : Profile} {ts : List ParamType} {data : Bytes} {toks : List Token}
    (h : decode prof ts data = .ok toks) :
    (data ≠ [] ∨ ts.all ParamType.isEmptyBytesValidEncoding = true) ∧
      ∃ o, decodeParams prof ts data 0 = .ok (toks, o) := by
  rw [decode] at h
  split at h
  · cases h
  · rename_i hc
    simp only [Res.bind_eq_ok, Prod.exists, Res.ok.injEq] at h
    obtain ⟨a, o, h1, rfl⟩ := h
    refine ⟨?_, o, h1⟩
    by_cases hd : data = []
    · right
      subst hd
      simpa using hc
    · exact Or.inl hd

theorem decode_encodeArgs (pd : Profile) (toks : List Token) (ts : List ParamType) (extra : Bytes)
    (ht : haveTypes toks ts = true) (hc : bytesOkAll ts = true) (hf : countsFitAll toks = true)
    (hb : (encodeArgs toks ts).length < 2 ^ 32) (he : (encodeArgs toks ts ++ extra).length < 2 ^ 64)
    (hw : nonzeroWidthAny ts = true ∨ ∀ t ∈ ts, ∃ u, t = .fixedArray u 0) :
    decode pd ts (encodeArgs toks ts ++ extra) = .ok toks := by
  refine decode_of_params (decodeParams_spec pd toks ts extra ht hc hf hb he) ?_
  rcases hw with hw | hw
  · left
    intro e
    exact encodeArgs_ne_nil toks ts ht hw (List.append_eq_nil_iff.1 e).1
  · right
    rw [List.all_eq_true]
    intro t htm
    obtain ⟨u, rfl⟩ := hw t htm
    rfl

theorem decodeParams_append (prof : Profile) (us vs : List ParamType) (data : Bytes) (off : Nat) :
    decodeParams prof (us ++ vs) data off = (do
      let (a, o) ← decodeParams prof us data off
      let (b, o') ← decodeParams prof vs data o
      .ok (a ++ b, o')) := by
  induction us generalizing off with
  | nil =>
    simp only [List.nil_append, decodeParams, Res.ok_bind]
    cases decodeParams prof vs data off with
    | ok r => rfl
    | err e => rfl
    | panic => rfl
  | cons u us ih =>
    simp only [List.cons_append, decodeParams, ih, Res.bind_assoc]
    congr 1

theorem word_inj {m n : Nat} (hm : m < 2 ^ 256) (hn : n < 2 ^ 256) (h : word m = word n) : m = n := by
  have := congrArg beNat h
  rw [word_eq_beBytes, word_eq_beBytes, beNat_beBytes, beNat_beBytes,
    show (256 : Nat) ^ 32 = 2 ^ 256 by norm_num, Nat.mod_eq_of_lt hm, Nat.mod_eq_of_lt hn] at this
  exact this

theorem beNat_zeros (k : Nat) : beNat (List.replicate k 0) = 0 := by
  rw [← beBytes_zero, beNat_beBytes, Nat.zero_mod]

theorem all_zero_eq {l : Bytes} (h : l.all (· == 0) = true) : l = List.replicate l.length 0 := by
  rw [List.eq_replicate_iff]
  refine ⟨rfl, ?_⟩
  intro b hb
  have := List.all_eq_true.1 h b hb
  simpa using this

theorem four_bytes {l : Bytes} (h : l.length = 4) : ∃ a b c d, l = [a, b, c, d] := by
  match l, h with
  | [a, b, c, d], _ => exact ⟨a, b, c, d, rfl⟩

theorem asUsize_eq_ok {w : Word} {m : Nat} (h : asUsize w = .ok m) : w.1 = word m ∧ m < 2 ^ 32 := by
  have hlt := asUsize_lt h
  refine ⟨?_, hlt⟩
  unfold asUsize at h
  split at h
  · rename_i hz
    cases h
    have h28 := all_zero_eq hz
    have hw := w.2
    rw [List.length_take, hw] at h28
    have hd : (w.1.drop 28).length = 4 := by simp [hw]
    obtain ⟨a, b, c, d, e⟩ := four_bytes hd
    have hwe : w.1 = List.replicate 28 0 ++ [a, b, c, d] := by
      rw [← e, show List.replicate 28 (0 : UInt8) = w.1.take 28 from h28.symm, List.take_append_drop]
    have hv : wordLow w = beNat [a, b, c, d] := by
      simp [wordLow, hwe, beNat]; omega
    rw [word_eq_beBytes, hv]
    have hl : w.1.length = 32 := w.2
    have : beNat w.1 = beNat [a, b, c, d] := by
      rw [hwe, beNat_append, beNat_zeros]; simp
    have hb := beBytes_beNat w.1
    rw [hl] at hb
    rw [← this]
    exact hb.symm
  · cases h

theorem asUsize_big {w : Word} {n : Nat} (h : w.1 = word n) (h1 : 2 ^ 32 ≤ n) (h2 : n < 2 ^ 256) :
    asUsize w = .err .invalidData := by
  cases e : asUsize w with
  | ok m =>
    obtain ⟨h3, h4⟩ := asUsize_eq_ok e
    have := word_inj (by omega) h2 (h3.symm.trans h)
    omega
  | err er =>
    unfold asUsize at e
    split at e
    · cases e
    · exact e.symm
  | panic => exact absurd e (asUsize_noPanic w)

/-- a word read at a place where the data holds `word n` -/
theorem peek32_of_take {prof : Profile} {data : Bytes} {off n : Nat} (hd : data.length < 2 ^ 64)
    (h : (data.drop off).take 32 = word n) : peek32 prof data off = .ok (wordOf n) := by
  apply peek32_word _ hd
  unfold At
  rw [← h]
  exact List.take_prefix _ _

/-- the offset word of a dynamic type is too large -/
theorem decodeParam_big_offset {prof : Profile} {t : ParamType} {data : Bytes} {off n : Nat}
    (hd : data.length < 2 ^ 64) (hdy : dynamic t = true) (h : (data.drop off).take 32 = word n)
    (h1 : 2 ^ 32 ≤ n) (h2 : n < 2 ^ 256) : decodeParam prof t data off = .err .invalidData := by
  have hp := peek32_of_take (prof := prof) hd h
  have ha : asUsize (wordOf n) = .err .invalidData := asUsize_big rfl h1 h2
  cases t <;> simp only [dynamic, Bool.false_eq_true] at hdy
  · simp [decodeParam, hp, ha]
  · simp [decodeParam, hp, ha]
  · simp [decodeParam, hp, ha]
  · simp [decodeParam, type_isDynamic_eq, hdy, hp, ha]
  · simp [decodeParam, type_anyDynamic_eq, hdy, hp, ha]

/-- the length word is too large -/
theorem decodeParam_big_length {prof : Profile} {t : ParamType} {data : Bytes} {off o n : Nat}
    (hd : data.length < 2 ^ 64) (ht : t = .bytes ∨ t = .string ∨ ∃ u, t = .array u)
    (h : (data.drop off).take 32 = word o) (ho : o < 2 ^ 32) (hn : (data.drop o).take 32 = word n)
    (h1 : 2 ^ 32 ≤ n) (h2 : n < 2 ^ 256) : decodeParam prof t data off = .err .invalidData := by
  have hp := peek32_of_take (prof := prof) hd h
  have hp2 := peek32_of_take (prof := prof) hd hn
  have ha : asUsize (wordOf n) = .err .invalidData := asUsize_big rfl h1 h2
  have hb := asUsize_word ho
  rcases ht with rfl | rfl | ⟨u, rfl⟩ <;> simp [decodeParam, hp, ha, hp2, hb]

theorem decode_at_error {prof : Profile} {us ts : List ParamType} {t : ParamType} {data : Bytes} {toks : List Token}
    {e : Err} (hu : ParamType.usizeOkAll us = true) (hd : data.length < 2 ^ 63) (hne : data ≠ [])
    (hus : decode prof us data = .ok toks) (h : decodeParam prof t data (headPos us) = .err e) :
    decode prof (us ++ t :: ts) data = .err e := by
  obtain ⟨-, o, h1⟩ := decode_eq_ok hus
  have ho := decodeParams_off prof us data 0 toks o hu hd h1
  rw [Nat.zero_add] at ho
  subst ho
  have : (!((us ++ t :: ts).all ParamType.isEmptyBytesValidEncoding) && data.isEmpty) = false := by simp [hne]
  rw [decode, this, decodeParams_append, h1]
  simp [decodeParams, h]

theorem asBool_nat {n : Nat} (hn : n < 2 ^ 256) :
    asBool (wordOf n) = if n < 256 then .ok (decide (n = 1)) else .err .invalidData := by
  have h31 : word n = beBytes 31 (n / 256) ++ [UInt8.ofNat n] := by rw [word_eq_beBytes]; rfl
  have hl31 : (beBytes 31 (n / 256)).length = 31 := length_beBytes 31 _
  have ht : (wordOf n).1.take 31 = beBytes 31 (n / 256) := by
    show (word n).take 31 = _
    rw [h31, List.take_append_of_le_length (by omega), List.take_of_length_le (by omega)]
  have hlast : (wordOf n).1.getD 31 0 = UInt8.ofNat n := by
    show (word n).getD 31 0 = _
    rw [h31, List.getD_eq_getElem?_getD, List.getElem?_append_right (by omega), hl31]; rfl
  rw [asBool, ht, hlast]
  by_cases h : n < 256
  · rw [if_pos h, Nat.div_eq_of_lt h, beBytes_zero, if_pos (by simp)]
    have : (UInt8.ofNat n == 1) = decide (n = 1) := by
      rw [Bool.eq_iff_iff, beq_iff_eq, decide_eq_true_iff]
      constructor
      · intro e
        have := congrArg UInt8.toNat e
        rw [toNat_ofNat_lt n h] at this
        simpa using this
      · rintro rfl; rfl
    rw [this]
  · rw [if_neg h, if_neg]
    intro hz
    have := all_zero_eq hz
    rw [hl31] at this
    have h2 := congrArg beNat this
    rw [beNat_beBytes, beNat_zeros, Nat.mod_eq_of_lt] at h2
    · omega
    · rw [show (256 : Nat) ^ 31 = 2 ^ 248 by norm_num]; omega

/-! ### array lengths (C10) -/

theorem arraysAtMost_mono {m n : Nat} (h : m ≤ n) (tok : Token) (ht : arraysAtMost m tok) : arraysAtMost n tok := by
  induction ht with
  | address a => exact .address a
  | bytes b => exact .bytes b
  | fixedBytes b => exact .fixedBytes b
  | int i => exact .int i
  | uint i => exact .uint i
  | bool b => exact .bool b
  | string s => exact .string s
  | array l hl _ ih => exact .array l (by omega) ih
  | fixedArray l _ ih => exact .fixedArray l ih
  | tuple l _ ih => exact .tuple l ih

mutual
theorem decodeParam_arrays (prof : Profile) : ∀ (t : ParamType) (data : Bytes) (off : Nat) (tok : Token) (off' : Nat),
    t.usizeOk = true → noZeroWidthArray t = true → data.length < 2 ^ 63 →
    decodeParam prof t data off = .ok (tok, off') → arraysAtMost (data.length / 32) tok
  | .address, data, off, tok, off', _, _, hd, h => by
      simp only [decodeParam, Res.bind_eq_ok, Res.ok.injEq, Prod.mk.injEq] at h
      obtain ⟨w, -, o, -, rfl, rfl⟩ := h; constructor
  | .uint _, data, off, tok, off', _, _, hd, h => by
      simp only [decodeParam, Res.bind_eq_ok, Res.ok.injEq, Prod.mk.injEq] at h
      obtain ⟨w, -, o, -, rfl, rfl⟩ := h; constructor
  | .int _, data, off, tok, off', _, _, hd, h => by
      simp only [decodeParam, Res.bind_eq_ok, Res.ok.injEq, Prod.mk.injEq] at h
      obtain ⟨w, -, o, -, rfl, rfl⟩ := h; constructor
  | .bool, data, off, tok, off', _, _, hd, h => by
      simp only [decodeParam, Res.bind_eq_ok, Res.ok.injEq, Prod.mk.injEq] at h
      obtain ⟨w, -, b, -, o, -, rfl, rfl⟩ := h; constructor
  | .fixedBytes n, data, off, tok, off', _, _, hd, h => by
      simp only [decodeParam, Res.bind_eq_ok, Res.ok.injEq, Prod.mk.injEq] at h
      obtain ⟨w, hw, o, -, rfl, rfl⟩ := h; constructor
  | .bytes, data, off, tok, off', _, _, hd, h => by
      simp only [decodeParam, Res.bind_eq_ok, Res.ok.injEq, Prod.mk.injEq] at h
      obtain ⟨_, -, _, -, _, -, _, -, _, -, _, -, _, -, rfl, -⟩ := h; constructor
  | .string, data, off, tok, off', _, _, hd, h => by
      simp only [decodeParam, Res.bind_eq_ok, Res.ok.injEq, Prod.mk.injEq] at h
      obtain ⟨_, -, _, -, _, -, _, -, _, -, _, -, _, -, rfl, -⟩ := h; constructor
  | .array t, data, off, tok, off', hu, hz, hd, h => by
      simp only [decodeParam, Res.bind_eq_ok, Res.ok.injEq, Prod.mk.injEq, Prod.exists] at h
      simp only [ParamType.usizeOk] at hu
      simp only [noZeroWidthArray, Bool.and_eq_true] at hz
      obtain ⟨_, -, _, -, _, hp2, len, -, o4, h4, tail, ht, toks, o, hl, _, -, rfl, -⟩ := h
      have hlo := (peek32_eq_ok (by omega) hp2).1
      rw [usizeAdd_ok (by omega)] at h4
      simp only [Res.ok.injEq] at h4
      subst h4
      obtain ⟨-, rfl⟩ := sliceFrom_eq_ok ht
      have hi := decodeLoop_eq_ok (P := fun tok => arraysAtMost (data.length / 32) tok)
        (fun o tok o' h => arraysAtMost_mono (Nat.div_le_div_right (by rw [List.length_drop]; omega)) _
          (decodeParam_arrays prof t _ o tok o' hu hz.2 (by rw [List.length_drop]; omega) h)) _ _ _ _ hl
      refine .array _ ?_ hi.2
      rw [hi.1]
      by_cases h0 : len = 0
      · omega
      · have := decodeLoop_bound hu hz.1 (by rw [List.length_drop]; omega) _ _ _ _ hl h0
        rw [List.length_drop] at this
        omega
  | .fixedArray t n, data, off, tok, off', hu, hz, hd, h => by
      simp only [ParamType.usizeOk, Bool.and_eq_true] at hu
      simp only [noZeroWidthArray] at hz
      rw [decodeParam] at h
      split at h
      · simp only [Res.bind_eq_ok, Res.ok.injEq, Prod.mk.injEq, Prod.exists] at h
        obtain ⟨_, -, _, -, tail, ht, toks, o, hl, _, -, rfl, -⟩ := h
        obtain ⟨-, rfl⟩ := sliceFrom_eq_ok ht
        exact .fixedArray _ (decodeLoop_eq_ok (P := fun tok => arraysAtMost (data.length / 32) tok)
          (fun o tok o' h => arraysAtMost_mono (Nat.div_le_div_right (by rw [List.length_drop]; omega)) _
            (decodeParam_arrays prof t _ o tok o' hu.2 hz (by rw [List.length_drop]; omega) h)) _ _ _ _ hl).2
      · simp only [Res.bind_eq_ok, Res.ok.injEq, Prod.mk.injEq, Prod.exists] at h
        obtain ⟨toks, o, hl, rfl, -⟩ := h
        exact .fixedArray _ (decodeLoop_eq_ok (P := fun tok => arraysAtMost (data.length / 32) tok)
          (fun o tok o' h => decodeParam_arrays prof t _ o tok o' hu.2 hz hd h) _ _ _ _ hl).2
  | .tuple ts, data, off, tok, off', hu, hz, hd, h => by
      simp only [ParamType.usizeOk] at hu
      simp only [noZeroWidthArray] at hz
      rw [decodeParam] at h
      split at h
      · simp only [Res.bind_eq_ok] at h
        obtain ⟨_, hw, o, -, h⟩ := h
        split at h
        · cases h
        · simp only [Res.bind_eq_ok, Res.ok.injEq, Prod.mk.injEq, Prod.exists] at h
          obtain ⟨tail, ht, toks, _, hl, o, ho, rfl, rfl⟩ := h
          obtain ⟨-, rfl⟩ := sliceFrom_eq_ok ht
          refine .tuple _ fun tok htok => arraysAtMost_mono (Nat.div_le_div_right (by rw [List.length_drop]; omega)) _
            (decodeParams_arrays prof ts _ _ _ _ hu hz (by rw [List.length_drop]; omega) hl tok htok)
      · simp only [Res.bind_eq_ok, Res.ok.injEq, Prod.mk.injEq, Prod.exists] at h
        obtain ⟨toks, o, hl, rfl, rfl⟩ := h
        exact .tuple _ (decodeParams_arrays prof ts _ _ _ _ hu hz hd hl)
theorem decodeParams_arrays (prof : Profile) : ∀ (ts : List ParamType) (data : Bytes) (off : Nat) (toks : List Token)
    (off' : Nat), ParamType.usizeOkAll ts = true → noZeroWidthArrays ts = true → data.length < 2 ^ 63 →
    decodeParams prof ts data off = .ok (toks, off') → ∀ tok ∈ toks, arraysAtMost (data.length / 32) tok
  | [], data, off, toks, off', _, _, _, h => by
      simp only [decodeParams, Res.ok.injEq, Prod.mk.injEq] at h
      simp [← h.1]
  | t :: ts, data, off, toks, off', hu, hz, hd, h => by
      simp only [ParamType.usizeOkAll, Bool.and_eq_true] at hu
      simp only [noZeroWidthArrays, Bool.and_eq_true] at hz
      simp only [decodeParams, Res.bind_eq_ok, Prod.exists, Res.ok.injEq, Prod.mk.injEq] at h
      obtain ⟨tok, o1, h1, toks1, o2, h2, rfl, rfl⟩ := h
      intro x hx
      rcases List.mem_cons.1 hx with rfl | hx
      · exact decodeParam_arrays prof t _ _ _ _ hu.1 hz.1 hd h1
      · exact decodeParams_arrays prof ts _ _ _ _ hu.2 hz.2 hd h2 x hx
end

/-! ### a value after other arguments -/

theorem decode_at_ok {prof : Profile} {us : List ParamType} {t : ParamType} {data : Bytes} {toks : List Token}
    {tok : Token} {o : Nat} (hu : ParamType.usizeOkAll us = true) (hd : data.length < 2 ^ 63) (hne : data ≠ [])
    (hus : decode prof us data = .ok toks) (h : decodeParam prof t data (headPos us) = .ok (tok, o)) :
    decode prof (us ++ [t]) data = .ok (toks ++ [tok]) := by
  obtain ⟨-, o1, h1⟩ := decode_eq_ok hus
  have ho := decodeParams_off prof us data 0 toks o1 hu hd h1
  rw [Nat.zero_add] at ho
  subst ho
  refine decode_of_params (o := o) ?_ (Or.inl hne)
  rw [decodeParams_append, h1]
  simp [decodeParams, h]

theorem take32_length {data : Bytes} {k n : Nat} (e : (data.drop k).take 32 = word n) : k + 32 ≤ data.length := by
  have := congrArg List.length e
  rw [length_word, List.length_take, List.length_drop] at this
  omega

theorem take32_ne_nil {data : Bytes} {k n : Nat} (e : (data.drop k).take 32 = word n) : data ≠ [] := by
  rintro rfl
  have := take32_length e
  simp at this

/-- reading the payload of a `bytes`/`string` value -/
theorem payload_reads {prof : Profile} {data b : Bytes} {off o : Nat} (hd : data.length < 2 ^ 63) (ho : o < 2 ^ 32)
    (hbl : b.length < 2 ^ 32) (h0 : (data.drop off).take 32 = word o) (h1 : (data.drop o).take 32 = word b.length)
    (h2 : (data.drop (o + 32)).take b.length = b) :
    decodeParam prof .bytes data off = .ok (.bytes b, off + 32) ∧
      decodeParam prof .string data off = .ok (.string (fromUtf8Lossy b), off + 32) := by
  have e1 := peek32_of_take (prof := prof) (by omega) h0
  have e2 := peek32_of_take (prof := prof) (by omega) h1
  have l0 := take32_length h0
  have l1 := take32_length h1
  have l2 : o + 32 + b.length ≤ data.length := by
    have := congrArg List.length h2
    rw [List.length_take, List.length_drop] at this
    omega
  have e3 : takeBytes prof data (o + 32) b.length = .ok b := by
    apply takeBytes_at _ l2 (by omega)
    have := List.take_prefix b.length (data.drop (o + 32))
    rwa [h2] at this
  have e4 : usizeAdd prof o 32 = .ok (o + 32) := usizeAdd_ok (by omega)
  have e5 : usizeAdd prof off 32 = .ok (off + 32) := usizeAdd_ok (by omega)
  constructor <;> simp [decodeParam, e1, e2, e3, e4, e5, asUsize_word ho, asUsize_word hbl]

/-! ### decoded arrays have fewer than 2^32 elements -/

theorem countsFitAll_iff (toks : List Token) : countsFitAll toks = true ↔ ∀ tok ∈ toks, countsFit tok = true := by
  induction toks with
  | nil => simp [countsFitAll]
  | cons tok toks ih => simp [countsFitAll, ih]

mutual
theorem decodeParam_counts (prof : Profile) : ∀ (t : ParamType) (data : Bytes) (off : Nat) (tok : Token) (off' : Nat),
    decodeParam prof t data off = .ok (tok, off') → countsFit tok = true
  | .address, data, off, tok, off', h => by
      simp only [decodeParam, Res.bind_eq_ok, Res.ok.injEq, Prod.mk.injEq] at h
      obtain ⟨w, -, o, -, rfl, rfl⟩ := h; rfl
  | .uint _, data, off, tok, off', h => by
      simp only [decodeParam, Res.bind_eq_ok, Res.ok.injEq, Prod.mk.injEq] at h
      obtain ⟨w, -, o, -, rfl, rfl⟩ := h; rfl
  | .int _, data, off, tok, off', h => by
      simp only [decodeParam, Res.bind_eq_ok, Res.ok.injEq, Prod.mk.injEq] at h
      obtain ⟨w, -, o, -, rfl, rfl⟩ := h; rfl
  | .bool, data, off, tok, off', h => by
      simp only [decodeParam, Res.bind_eq_ok, Res.ok.injEq, Prod.mk.injEq] at h
      obtain ⟨w, -, b, -, o, -, rfl, rfl⟩ := h; rfl
  | .fixedBytes n, data, off, tok, off', h => by
      simp only [decodeParam, Res.bind_eq_ok, Res.ok.injEq, Prod.mk.injEq] at h
      obtain ⟨w, hw, o, -, rfl, rfl⟩ := h; rfl
  | .bytes, data, off, tok, off', h => by
      simp only [decodeParam, Res.bind_eq_ok, Res.ok.injEq, Prod.mk.injEq] at h
      obtain ⟨_, -, _, -, _, -, _, -, _, -, _, -, _, -, rfl, -⟩ := h; rfl
  | .string, data, off, tok, off', h => by
      simp only [decodeParam, Res.bind_eq_ok, Res.ok.injEq, Prod.mk.injEq] at h
      obtain ⟨_, -, _, -, _, -, _, -, _, -, _, -, _, -, rfl, -⟩ := h; rfl
  | .array t, data, off, tok, off', h => by
      simp only [decodeParam, Res.bind_eq_ok, Res.ok.injEq, Prod.mk.injEq, Prod.exists] at h
      obtain ⟨_, -, _, -, _, hp2, len, hlen, o4, h4, tail, ht, toks, o, hl, _, -, rfl, -⟩ := h
      have hi := decodeLoop_eq_ok (P := fun tok => countsFit tok = true)
        (fun o tok o' h => decodeParam_counts prof t _ o tok o' h) _ _ _ _ hl
      simp only [countsFit, Bool.and_eq_true, decide_eq_true_eq]
      exact ⟨hi.1 ▸ asUsize_lt hlen, (countsFitAll_iff _).2 hi.2⟩
  | .fixedArray t n, data, off, tok, off', h => by
      rw [decodeParam] at h
      split at h
      · simp only [Res.bind_eq_ok, Res.ok.injEq, Prod.mk.injEq, Prod.exists] at h
        obtain ⟨_, -, _, -, tail, ht, toks, o, hl, _, -, rfl, -⟩ := h
        exact (countsFitAll_iff _).2 (decodeLoop_eq_ok (P := fun tok => countsFit tok = true)
          (fun o tok o' h => decodeParam_counts prof t _ o tok o' h) _ _ _ _ hl).2
      · simp only [Res.bind_eq_ok, Res.ok.injEq, Prod.mk.injEq, Prod.exists] at h
        obtain ⟨toks, o, hl, rfl, -⟩ := h
        exact (countsFitAll_iff _).2 (decodeLoop_eq_ok (P := fun tok => countsFit tok = true)
          (fun o tok o' h => decodeParam_counts prof t _ o tok o' h) _ _ _ _ hl).2
  | .tuple ts, data, off, tok, off', h => by
      rw [decodeParam] at h
      split at h
      · simp only [Res.bind_eq_ok] at h
        obtain ⟨_, hw, o, -, h⟩ := h
        split at h
        · cases h
        · simp only [Res.bind_eq_ok, Res.ok.injEq, Prod.mk.injEq, Prod.exists] at h
          obtain ⟨tail, ht, toks, _, hl, o, ho, rfl, rfl⟩ := h
          exact decodeParams_counts prof ts _ _ _ _ hl
      · simp only [Res.bind_eq_ok, Res.ok.injEq, Prod.mk.injEq, Prod.exists] at h
        obtain ⟨toks, o, hl, rfl, rfl⟩ := h
        exact decodeParams_counts prof ts _ _ _ _ hl
theorem decodeParams_counts (prof : Profile) : ∀ (ts : List ParamType) (data : Bytes) (off : Nat) (toks : List Token)
    (off' : Nat), decodeParams prof ts data off = .ok (toks, off') → countsFitAll toks = true
  | [], data, off, toks, off', h => by
      simp only [decodeParams, Res.ok.injEq, Prod.mk.injEq] at h
      simp [← h.1, countsFitAll]
  | t :: ts, data, off, toks, off', h => by
      simp only [decodeParams, Res.bind_eq_ok, Prod.exists, Res.ok.injEq, Prod.mk.injEq] at h
      obtain ⟨tok, o1, h1, toks1, o2, h2, rfl, rfl⟩ := h
      simp [countsFitAll, decodeParam_counts prof t _ _ _ _ h1, decodeParams_counts prof ts _ _ _ _ h2]
end

end Ethabi

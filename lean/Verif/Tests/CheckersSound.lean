import Verif.Tests.Checkers
import Verif.Props.Codec
import Verif.Props.Calls
import Verif.Props.Outcomes
/-! The checkers of `Tests/Checkers.lean` are instances of the property theorems (tests). -/
namespace Ethabi.Checkers
open Ethabi.Spec Ethabi.Props

theorem fits_iff {ts : List ParamType} {toks : List Token} (h : fits ts toks = true) :
    haveTypes toks ts = true ∧ solidityAll ts = true ∧ (encodeArgs toks ts).length < 2 ^ 32 := by
  simp only [fits, Bool.and_eq_true, decide_eq_true_eq] at h
  exact ⟨h.1.1, h.1.2, h.2⟩

theorem c01_true (pe pd : Profile) (ts : List ParamType) (toks : List Token) : c01 pe pd ts toks = true := by
  unfold c01
  cases h : fits ts toks with
  | false => rfl
  | true =>
    obtain ⟨a, b, c⟩ := fits_iff h
    obtain ⟨bs, e, d⟩ := C01_round_trip_solidity pe pd ts toks a b c
    simp only [e, d, Bool.not_true, Bool.false_or, decide_true]

theorem c02_true (p : Profile) (ts : List ParamType) (toks : List Token) : c02 p ts toks = true := by
  unfold c02
  cases h : fits ts toks with
  | false => rfl
  | true =>
    obtain ⟨a, b, c⟩ := fits_iff h
    simp only [C02_encode_conforms_solidity p ts toks a b c, Bool.not_true, Bool.false_or, decide_true]

theorem c03_true (p : Profile) (toks : List Token) : c03 p toks = true := by
  unfold c03
  split
  · rename_i bs e
    rw [C03_word_aligned p toks bs e]; rfl
  · rfl

theorem c10_true (p : Profile) (t : ParamType) (data : Bytes) : c10 p t data = true := by
  unfold c10
  split
  · rename_i l e
    cases hu : ParamType.usizeOkAll [.array t] with
    | false => rfl
    | true =>
      cases hz : noZeroWidthArrays [.array t] with
      | false => rfl
      | true =>
        by_cases hd : data.length < 2 ^ 63
        · have h := C10_array_length_bound p [.array t] data _ hu hz hd e _ (.head _)
          cases h with
          | array _ hl _ => rw [decide_eq_true hl, Bool.or_true]
        · rw [decide_eq_false hd]; rfl
  · rfl

theorem c05_true (p : Profile) (ts : List ParamType) (data : Bytes) : c05 p ts data = true := by
  unfold c05
  split
  · rename_i toks e
    by_cases h : ParamType.usizeOkAll ts = true ∧ data.length < 2 ^ 63
    · obtain ⟨_, b, c⟩ := C05_decoded_typed p ts data toks h.1 h.2 e
      simp [b, c]
    · by_cases a : ParamType.usizeOkAll ts = true
      · have : ¬ data.length < 2 ^ 63 := fun b => h ⟨a, b⟩
        simp only [this, decide_false, Bool.and_false, Bool.not_false, Bool.true_or]
      · simp [a]
  · rfl

theorem c07_true (p : Profile) (ts : List ParamType) (data extra : Bytes) : c07 p ts data extra = true := by
  unfold c07
  split
  · rename_i toks e
    simp [C07_trailing_bytes p ts data extra toks e]
  · rfl

theorem c13_true (p : Profile) (data : Bytes) : c13 p data = true := by
  simp [c13, C13_no_types p data]

theorem c17_true (toks : List Token) (ts : List ParamType) : c17 toks ts = true := by
  have h := C17_accepts_exactly toks ts
  unfold c17
  by_cases a : Token.typesCheck toks ts = .ok true
  · have b := h.1 a
    simp [a, b.1, b.2]
  · have b : ¬ (toks.length = ts.length ∧ shortOfs toks ts = true) := fun c => a (h.2 c)
    simp only [a, decide_false, beq_iff_eq]
    by_cases l : toks.length = ts.length
    · have : shortOfs toks ts = false := by
        cases s : shortOfs toks ts with
        | false => rfl
        | true => exact absurd ⟨l, s⟩ b
      simp [this]
    · simp [l]

theorem c19_true (p : Profile) (f : Function) (data : Bytes) : c19 p f data = true := by
  obtain ⟨a, b⟩ := C19_decode_output p f data
  simp [c19, a, b]

theorem c12_true (p : Profile) (n : Nat) : c12 p n = true := by
  unfold c12
  by_cases h : n < 2 ^ 256
  · have l : (word n).length = 32 := by simp [word]
    have e := C12_bool_partial p [] [] (word n) n rfl (by rw [l]; decide) (C13_no_types p (word n)) h
      (by rw [show headPos [] = 0 from rfl, List.drop_zero, List.take_of_length_le (by rw [l])])
    simp only [List.nil_append] at e
    simp only [e, decide_true, Bool.or_true]
  · simp only [h, decide_false, Bool.not_false, Bool.true_or]

theorem c13e_true (p : Profile) (ts : List ParamType) : c13e p ts = true := by
  unfold c13e
  by_cases h : ∀ t ∈ ts, t = .fixedBytes 0 ∨ ∃ u, t = .fixedArray u 0
  · have : ts.all noBytes = true := by
      rw [List.all_eq_true]
      intro t ht
      rcases h t ht with e | ⟨u, e⟩ <;> subst e <;> rfl
    rw [this, Bool.true_or]
  · obtain ⟨m, e⟩ := C13_empty_data_rejected p ts h
    rw [e, Bool.or_true]

theorem c17p_true : c17p = true := by
  simp [c17p, C17_counterexample_long_tuple]

theorem c17w_true : c17w = true := by
  refine decide_eq_true ((C17_refuses_exactly _ _).2 ⟨?_, by decide⟩)
  rintro ⟨_, a, x, b, ps, p, qs, h1, h2, l, s, hs⟩
  match a, ps, l with
  | [], [], _ =>
    injection h1 with h1 _
    injection h2 with h2 _
    subst h1 h2
    cases hs
  | y :: a, q :: ps, _ =>
    injection h1 with h1 _
    injection h2 with h2 _
    subst h1 h2
    simp [shortOfs, shortOf] at s

theorem c17f_true (toks : List Token) (ts : List ParamType) : c17f toks ts = true := by
  unfold c17f
  cases h : ts.all tupleFree with
  | false => rfl
  | true => simp only [C17_types_check_tuple_free toks ts h, decide_true, Bool.or_true]

theorem c19s_true (hash : Bytes → Word) (p : Profile) (f : Function) (toks : List Token) : c19s hash p f toks = true := by
  unfold c19s
  cases h : f.encodeInput hash p toks with
  | ok bs =>
    obtain ⟨e, he, hb⟩ := C19_selector hash p f toks bs h
    simp only [he]
    exact decide_eq_true hb
  | err _ => rfl
  | panic => rfl

end Ethabi.Checkers

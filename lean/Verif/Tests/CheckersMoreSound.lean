import Verif.Tests.CheckersMore
import Verif.Props.Tokenizer
import Verif.Props.Sizes
import Verif.Props.Reading
import Verif.Props.Targets
import Verif.Props.TargetText
import Verif.Props.TypeSize
import Verif.Props.Capacity
import Verif.Props.ReaderCount
import Verif.Props.DecoderCount
import Verif.Props.Canonical
/-! The checkers of `Tests/CheckersMore.lean` are instances of the property theorems (tests). -/
namespace Ethabi.Checkers
open Ethabi.Spec Ethabi.Props

theorem c46_true (p : ParamType) (s : Str) : c46 p s = true := by
  unfold c46
  split
  · rename_i t e
    exact decide_eq_true (C46_lenient_extends_strict p s t e)
  · rfl

theorem c47_true (m : Tokenizer) (p : ParamType) (s : Str) : c47 m p s = true := by
  unfold c47
  split
  · rename_i t e
    exact decide_eq_true (C47_type_checks m p s t e)
  · rfl

theorem c66_true (ts : List ParamType) (toks : List Token) (data : Bytes) : c66 ts toks data = true := by
  unfold c66
  rw [Bool.and_eq_true, Bool.or_eq_true, Bool.or_eq_true]
  constructor
  · by_cases h : encode .debug toks = .panic
    · exact .inl (decide_eq_true h)
    · exact .inr (decide_eq_true (C66_encode toks h))
  · by_cases h : decode .debug ts data = .panic
    · exact .inl (decide_eq_true h)
    · exact .inr (decide_eq_true (C66_decode_any ts data h))

theorem c75_true (p : Profile) (ts us : List ParamType) (data : Bytes) : c75 p ts us data = true := by
  unfold c75
  split
  · rename_i toks e
    exact decide_eq_true (C75_prefix p ts us data toks e)
  · rfl

theorem c87_true (p : Profile) (ts : List ParamType) (data : Bytes) : c87 p ts data = true :=
  decide_eq_true (C87_same_code p ts data)

theorem c94_true (s : Str) : c94 s = true := by
  unfold c94
  rw [Bool.and_eq_true, Bool.and_eq_true, Bool.or_eq_true]
  refine ⟨⟨decide_eq_true (C94_same_code s), ?_⟩, ?_⟩
  · split
    · rename_i t e
      exact decide_eq_true (C94_accepted s t e).1
    · rfl
  · rcases C94_same_or_refused s with h | ⟨h, _⟩
    · exact .inl (decide_eq_true h)
    · exact .inr (decide_eq_true h)

theorem c95_true (s : Str) : c95 s = true := by
  unfold c95
  cases ha : ascii s with
  | false => rfl
  | true =>
    rw [Bool.not_true, Bool.false_or]
    split
    · rename_i t e
      rw [Bool.and_eq_true]
      exact ⟨decide_eq_true (C95_size s ha t e), decide_eq_true (C95_nesting s ha t e)⟩
    · rfl

theorem c103_true (p : Profile) (toks : List Token) : c103 p toks = true := by
  unfold c103
  rw [Bool.and_eq_true]
  refine ⟨decide_eq_true (C103_same_code p toks), ?_⟩
  by_cases h : sizeAll toks < 2 ^ 32
  · rw [Bool.or_eq_true]
    exact .inr (decide_eq_true (C103_exact p toks h))
  · rw [decide_eq_false h]; rfl

theorem c107_true (s : Str) : c107 s = true := by
  unfold c107
  cases ha : ascii s with
  | false => rfl
  | true =>
    obtain ⟨a, b⟩ := C107_work s ha _ (Nat.le_refl _) ⟨.panic, 0⟩
    rw [Bool.not_true, Bool.false_or, Bool.and_eq_true]
    exact ⟨decide_eq_true a, decide_eq_true b⟩

theorem c109_true (p : Profile) (ts : List ParamType) (data : Bytes) : c109 p ts data = true :=
  decide_eq_true (C109_same p ts data)

theorem c116_true (pe pd : Profile) (ts : List ParamType) (data : Bytes) : c116 pe pd ts data = true := by
  unfold c116
  split
  · rename_i toks h
    cases hg : (ParamType.usizeOkAll ts && codableAll ts && decide (data.length < 2 ^ 32)) with
    | false => rfl
    | true =>
      simp only [Bool.and_eq_true, decide_eq_true_eq] at hg
      rw [Bool.not_true, Bool.false_or, beq_iff_eq, decide_eq_decide]
      exact C116_values pe pd ts data toks hg.1.1 hg.1.2 hg.2 h
  · rfl

end Ethabi.Checkers

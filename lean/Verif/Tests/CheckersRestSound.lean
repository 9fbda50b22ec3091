import Verif.Tests.CheckersRest
import Verif.Tests.CheckersCallsSound
import Verif.Props.Targets
import Verif.Props.TargetText
import Verif.Props.Capacity
import Verif.Props.ReaderCount
import Verif.Props.DecoderCount
/-! The checkers of `Tests/CheckersRest.lean` follow from the theorems. -/
namespace Ethabi.Checkers
open Ethabi.Spec Ethabi.Props

theorem lastConstructor_none : ∀ (ops : List Operation), lastConstructor ops = none ↔ ∀ k, Operation.constructor k ∉ ops
  | [] => by simp [lastConstructor]
  | op :: ops => by
    cases op with
    | constructor k => exact ⟨fun h => (nomatch h), fun h => absurd List.mem_cons_self (h k)⟩
    | _ => simp only [lastConstructor]; rw [lastConstructor_none ops]; simp

theorem lastConstructor_some : ∀ (ops : List Operation) (k : Constructor), lastConstructor ops = some k →
    ∃ before after, ops = before ++ .constructor k :: after ∧ ∀ k', Operation.constructor k' ∉ after
  | [], k, h => by simp [lastConstructor] at h
  | op :: ops, k, h => by
    have rest : lastConstructor ops = some k → ∃ before after, op :: ops = before ++ .constructor k :: after ∧
        ∀ k', Operation.constructor k' ∉ after := by
      intro h
      obtain ⟨b, a, e, ha⟩ := lastConstructor_some ops k h
      exact ⟨op :: b, a, by rw [e]; rfl, ha⟩
    cases op with
    | constructor k0 =>
      simp only [lastConstructor, Option.some.injEq] at h
      cases e : lastConstructor ops with
      | none =>
        rw [e] at h
        cases (show k0 = k from h)
        exact ⟨[], ops, rfl, (lastConstructor_none ops).1 e⟩
      | some k1 =>
        rw [e] at h
        cases (show k1 = k from h)
        exact rest e
    | _ => exact rest h

theorem c30c_true (js : List Json) : c30c js = true := by
  unfold c30c
  split
  · rfl
  · rename_i ops h
    obtain ⟨c, e, -, -, h1, h2⟩ := C30_constructor_flags js ops (operations_ok js ops h)
    rw [e]
    refine decide_eq_true ?_
    cases hl : lastConstructor ops with
    | none => exact h1.2 ((lastConstructor_none ops).1 hl)
    | some k => exact (h2 k).2 (lastConstructor_some ops k hl)

theorem c41c_true (a : Nat) (o : Option Nat) (l : List Nat) : c41c a o l = true := by
  obtain ⟨h1, h2, h3, h4, h5, h6⟩ := C41_conversions a o l
  unfold c41c
  simp only [Bool.and_eq_true, decide_eq_true_eq]
  exact ⟨⟨⟨⟨⟨h1, h2⟩, h3⟩, h4⟩, h5⟩, h6⟩

theorem c87v_true (p : Profile) (ts : List ParamType) (data : Bytes) : c87v p ts data = true := by
  unfold c87v
  cases hg : (narrow32All ts && decide (data.length < 2 ^ 31)) with
  | false => rfl
  | true =>
    simp only [Bool.and_eq_true, decide_eq_true_eq] at hg
    rw [Bool.not_true, Bool.false_or]
    split
    · rename_i toks h
      refine decide_eq_true ((C87_decodes_exactly p ts data toks hg.1 hg.2).2 ?_)
      exact (C74_decodes_exactly p ts data toks (Targets.narrowAll_of_narrow32 ts hg.1) (by omega)).1 h
    · rfl

theorem c87x_true : c87x = true := by
  unfold c87x
  simp only [Bool.and_eq_true, decide_eq_true_eq]
  exact ⟨⟨⟨C87_counterexample_length.1, C87_counterexample_length.2.1⟩, C87_counterexample_offset.1⟩, C87_counterexample_offset.2.1⟩

mutual
theorem sizesFit_iff (bits : Nat) : ∀ t, sizesFit bits t = true ↔ sizesBelow bits t
  | .int _ | .uint _ | .fixedBytes _ | .bool | .address | .bytes | .string => by simp [sizesFit, sizesBelow]
  | .fixedArray t n => by simp only [sizesFit, sizesBelow, Bool.and_eq_true, decide_eq_true_eq, sizesFit_iff bits t]
  | .array t => by simp only [sizesFit, sizesBelow, sizesFit_iff bits t]
  | .tuple ts => by simp only [sizesFit, sizesBelow, allSizesFit_iff bits ts]
theorem allSizesFit_iff (bits : Nat) : ∀ ts, allSizesFit bits ts = true ↔ sizesBelowAll bits ts
  | [] => by simp [allSizesFit, sizesBelowAll]
  | t :: ts => by simp only [allSizesFit, sizesBelowAll, Bool.and_eq_true, sizesFit_iff bits t, allSizesFit_iff bits ts]
end

theorem c94x_true (s : Str) : c94x s = true := by
  unfold c94x
  simp only [Bool.and_eq_true]
  refine ⟨⟨?_, ?_⟩, ?_⟩
  · split
    · rename_i t h
      obtain ⟨h1, h2⟩ := C94_accepted s t h
      rw [Bool.and_eq_true]
      exact ⟨decide_eq_true h1, (sizesFit_iff 32 t).2 h2⟩
    · rfl
  · split
    · rename_i t h
      rw [Bool.or_eq_true, sizesFit_iff]
      by_cases hs : sizesBelow 32 t
      · exact .inl hs
      · exact .inr (decide_eq_true (C94_too_large s t h hs))
    · rfl
  · rw [Bool.or_eq_true, decide_eq_true_eq]
    by_cases hp : ')' ∈ s
    · exact .inl hp
    · refine .inr ?_
      split
      · rename_i t h
        cases hs : sizesFit 32 t with
        | false => rfl
        | true => exact decide_eq_true ((C94_without_tuples s t hp).2 ⟨h, (sizesFit_iff 32 t).1 hs⟩)
      · rfl

theorem c103f_true (hash : Bytes → Word) (p : Profile) (f : Function) (c : Constructor) (code : Bytes) (toks : List Token) :
    c103f hash p f c code toks = true := by
  unfold c103f
  by_cases hs : sizeAll toks < 2 ^ 26
  · have hb := Capacity.bytes_sum toks
    have hn : ¬ (2 ^ 26 ≤ headBytes toks ∨ 2 ^ 26 ≤ tailBytes toks) := by omega
    have h1 := C103_function hash p f toks (by omega)
    have h2 := C103_constructor p c code toks (by omega)
    rw [decide_eq_true hs, Bool.not_true, Bool.false_or, Bool.and_eq_true, decide_eq_true_eq, decide_eq_true_eq, h1, h2]
    constructor
    · cases f.encodeInput hash p toks with
      | ok out => exact if_neg hn
      | err e => rfl
      | panic => rfl
    · cases c.encodeInput p code toks with
      | ok out => exact if_neg hn
      | err e => rfl
      | panic => rfl
  · rw [decide_eq_false hs]; rfl

theorem c107r_true (k : Nat) : c107r k = true := decide_eq_true (C107_reached k (k + 1) (Nat.le_refl _) _).2.2

theorem c107l_true (s : Str) : c107l s = true := by
  unfold c107l
  cases ha : ascii s with
  | false => rfl
  | true =>
    by_cases hb : ']' ∈ s
    · simp [hb]
    · rw [decide_eq_true (C107_linear s ha hb 3 (Nat.le_refl _) _), Bool.or_true]

theorem c109w_true (p : Profile) (ts : List ParamType) (data : Bytes) : c109w p ts data = true := by
  unfold c109w
  rw [Bool.and_eq_true]
  constructor
  · cases hg : (decide (data.length < 2 ^ 63) && noZeroWidthArrays ts) with
    | false => rfl
    | true =>
      simp only [Bool.and_eq_true, decide_eq_true_eq] at hg
      rw [Bool.not_true, Bool.false_or]
      exact decide_eq_true (C109_work p ts data hg.1 hg.2)
  · split
    · rename_i toks h
      exact decide_eq_true (C109_at_least p ts data toks h)
    · rfl

end Ethabi.Checkers

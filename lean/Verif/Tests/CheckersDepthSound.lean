import Verif.Tests.CheckersDepth
import Verif.Props.Canonical
import Verif.Props.CallDepth
import Verif.Props.CallDepthEncode
/-! The tests of Tests/CheckersDepth.lean cannot fail: each follows from the theorem it is named after. -/
namespace Ethabi.Checkers
open Spec Props CallDepth

mutual
theorem isPadded_iff : ∀ (t : ParamType) (off : Nat) (a : Bytes), isPadded t off a = true ↔ padded t off a
  | .address, off, a => by simp [isPadded, padded]
  | .bool, off, a => by simp [isPadded, padded]
  | .fixedBytes n, off, a => by simp [isPadded, padded]
  | .fixedArray t k, off, a => by
    simp only [isPadded, padded, List.all_eq_true, List.mem_range]
    exact forall_congr' fun i => imp_congr_right fun _ => isPadded_iff t _ a
  | .tuple ts, off, a => by simp only [isPadded, padded]; exact arePadded_iff ts off a
  | .bytes, off, a | .string, off, a | .int _, off, a | .uint _, off, a | .array _, off, a => by simp [isPadded, padded]
theorem arePadded_iff : ∀ (ts : List ParamType) (off : Nat) (a : Bytes), arePadded ts off a = true ↔ paddedAll ts off a
  | [], off, a => by simp [arePadded, paddedAll]
  | t :: ts, off, a => by
    simp only [arePadded, paddedAll, Bool.and_eq_true]
    rw [isPadded_iff t, arePadded_iff ts]
end

theorem c116s_true (pe pd : Profile) (ts : List ParamType) (data : Bytes) : c116s pe pd ts data = true := by
  unfold c116s
  split
  · rename_i toks h
    cases hg : (ParamType.usizeOkAll ts && codableAll ts && !dynamicAny ts && decide (staticSizeAll ts < 2 ^ 32) &&
        decide (data.length < 2 ^ 63)) with
    | false => rfl
    | true =>
      simp only [Bool.and_eq_true, decide_eq_true_eq, Bool.not_eq_true'] at hg
      rw [Bool.not_true, Bool.false_or, beq_iff_eq, Bool.eq_iff_iff, Bool.and_eq_true, decide_eq_true_eq, decide_eq_true_eq,
        arePadded_iff]
      exact C116_static pe pd ts data toks hg.1.1.1.1 hg.1.1.1.2 hg.1.1.2 hg.1.2 hg.2 h
  · rfl

theorem c115_true (p : Profile) (ts : List ParamType) (data : Bytes) : c115 p ts data = true :=
  decide_eq_true (C115_decode p ts data _ (Nat.le_refl _) _)

theorem c115x_true (p : Profile) (ts : List ParamType) (data : Bytes) : c115x p ts data = true := by
  unfold c115x
  split
  · rename_i toks h
    rw [Bool.and_eq_true, Bool.or_eq_true, decide_eq_true_eq, decide_eq_true_eq, decide_eq_true_eq]
    refine ⟨(C115_decode_exactly p ts data toks _ h).1 (Nat.le_refl _), ?_⟩
    by_cases h0 : tokenDepthAll toks = 0
    · exact .inl h0
    · exact .inr ((C115_decode_exactly p ts data toks _ h).2 (by omega))
  · rfl

theorem c115t_true (m : Tokenizer) (t : ParamType) (v : Str) : c115t m t v = true :=
  decide_eq_true (C115_tokenize m t v _ (Nat.le_refl _) _)

theorem c117_true (p : Profile) (toks : List Token) : c117 p toks = true := by
  unfold c117
  rw [Bool.and_eq_true, Bool.or_eq_true, decide_eq_true_eq, decide_eq_true_eq, decide_eq_true_eq]
  refine ⟨C117_encode p _ toks _ (Nat.le_refl _), ?_⟩
  by_cases h0 : tokenDepthAll toks = 0
  · exact .inl h0
  · exact .inr (C117_encode_exactly p toks _ (by omega))

theorem c117c_true (t : Token) (ty : ParamType) : c117c t ty = true := by
  unfold c117c
  rw [Bool.and_eq_true, Bool.and_eq_true, Bool.or_eq_true, decide_eq_true_eq, decide_eq_true_eq, decide_eq_true_eq,
    decide_eq_true_eq]
  refine ⟨⟨C117_type_check _ t ty _ (.inl (Nat.le_refl _)), C117_type_check _ t ty _ (.inr (Nat.le_refl _))⟩, ?_⟩
  by_cases h : Token.typeCheck t ty = .ok true
  · exact .inr (C117_type_check_exactly t ty _ h (by have := tokenDepth_pos t; omega))
  · exact .inl h

theorem c117d_true (t : Token) : c117d t = true := by
  unfold c117d
  rw [Bool.and_eq_true, decide_eq_true_eq, decide_eq_true_eq]
  exact ⟨(C117_display t _).1 (Nat.le_refl _) _, (C117_display t _).2 (by have := tokenDepth_pos t; omega)⟩

theorem c117w_true (t : ParamType) : c117w t = true := by
  unfold c117w
  rw [Bool.and_eq_true, Bool.and_eq_true, Bool.and_eq_true, decide_eq_true_eq, decide_eq_true_eq, decide_eq_true_eq,
    decide_eq_true_eq]
  exact ⟨⟨⟨(C117_write t _).1 (Nat.le_refl _) _, (C117_write t _).2 (by have := storeys_pos t; omega)⟩,
    (C117_write_for_abi t _).1 (Nat.le_refl _) _⟩, (C117_write_for_abi t _).2 (by have := brackets_pos t; omega)⟩

end Ethabi.Checkers

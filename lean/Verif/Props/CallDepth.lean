import Verif.Proofs.CallDepth
/-!
# C115: how many calls of `decode_param` and `tokenize` are under way at a time

`Model/CallDepth.lean` has `decode` and `tokenize` with a limit on the calls under way; being equal to the function without
limit for every behaviour beyond the limit means that the call that exceeds it is not made.
-/
namespace Ethabi.Props
open Spec CallDepth

/-- the bodies are those of the functions: with the function itself for the recursive call they are the function -/
theorem C115_same (prof : Profile) (m : Tokenizer) (t : ParamType) :
    decodeStep prof (decodeParam prof) t = decodeParam prof t ∧ tokenizeStep m (tokenize m) t = tokenize m t :=
  ⟨step_same prof t, tokenStep_same m t⟩

/-- **C115**, `decode`: whatever the data, not more calls than the types are nested. -/
theorem C115_decode (prof : Profile) (ts : List ParamType) (data : Bytes) (n : Nat) (hn : storeysAll ts ≤ n)
    (beyond : Res (Token × Nat)) : decodeAllWithin prof beyond n ts data = decode prof ts data := by
  unfold decodeAllWithin decode
  rw [seq_congr (g := decodeParam prof) ts data 0 (fun t ht => within_enough prof beyond n t
    (Nat.le_trans (storeys_mem ht) hn)), seq_same]

/-- **C115**, `decode`: when it succeeds, exactly as many calls as the values are nested. -/
theorem C115_decode_exactly (prof : Profile) (ts : List ParamType) (data : Bytes) (toks : List Token) (n : Nat)
    (h : decode prof ts data = .ok toks) :
    (tokenDepthAll toks ≤ n → decodeAllWithin prof .panic n ts data = .ok toks) ∧
    (n < tokenDepthAll toks → decodeAllWithin prof .panic n ts data = .panic) := by
  have hf : Found (tokenDepthAll toks) n (decode prof ts data) (decodeAllWithin prof .panic n ts data) := by
    unfold decode at h ⊢
    unfold decodeAllWithin
    by_cases c : (!(ts.all ParamType.isEmptyBytesValidEncoding) && data.isEmpty) = true
    · rw [if_pos c] at h; cases h
    rw [if_neg c] at h
    rw [if_neg c, if_neg c, ← seq_same] at *
    refine found_last h fun v hv e => ?_
    obtain ⟨toks', o⟩ := v
    cases e
    exact found_seq (fun t data off tok o => found_within prof n t data off tok o) ts data 0 toks o hv
  rw [h] at hf
  exact hf

/-- **C115**, `tokenize`: whatever the text, not more calls than the type is nested. -/
theorem C115_tokenize (m : Tokenizer) (t : ParamType) (v : Str) (n : Nat) (hn : storeys t ≤ n) (beyond : Res Token) :
    tokenizeWithin m beyond n t v = tokenize m t v := by
  rw [tokens_enough m beyond n t hn]

/-- **C115**, `tokenize`: when it succeeds, exactly as many calls as the value is nested. -/
theorem C115_tokenize_exactly (m : Tokenizer) (t : ParamType) (v : Str) (tok : Token) (n : Nat) (h : tokenize m t v = .ok tok) :
    (tokenDepth tok ≤ n → tokenizeWithin m .panic n t v = .ok tok) ∧
    (n < tokenDepth tok → tokenizeWithin m .panic n t v = .panic) := by
  have hf := found_tokenize m n t v tok h
  rw [h] at hf
  exact hf

/-- **C115**, a consequence: there is no number of calls that is enough for all types; 32 bytes decode as a bool in `k` tuples
and take `k + 1` calls. -/
theorem C115_no_bound (prof : Profile) (k : Nat) : decode prof [tupleIn k] (word 1) = .ok [valueIn k] ∧
    decodeAllWithin prof .panic k [tupleIn k] (word 1) = .panic := by
  have hdyn : ∀ k, (tupleIn k).isDynamic = false := by
    intro k
    induction k with
    | zero => rfl
    | succ k ih => simp [tupleIn, ParamType.isDynamic, ParamType.anyDynamic, ih]
  have hnest : ∀ k, tokenDepth (valueIn k) = k + 1 := by
    intro k
    induction k with
    | zero => rfl
    | succ k ih => simp [valueIn, tokenDepth, tokenDepthAll, ih]
  have hdec : ∀ k, decodeParam prof (tupleIn k) (word 1) 0 = .ok (valueIn k, 32) := by
    intro k
    induction k with
    | zero => cases prof <;> decide +kernel
    | succ k ih =>
      simp only [tupleIn, valueIn]
      rw [decodeParam]
      simp only [ParamType.anyDynamic, hdyn k, Bool.or_self, Bool.false_eq_true, if_false]
      simp only [decodeParams]
      rw [ih]
      rfl
  have h : decode prof [tupleIn k] (word 1) = .ok [valueIn k] := by
    unfold decode
    have hne : (word 1).isEmpty = false := by decide
    rw [hne]
    simp only [Bool.and_false, Bool.false_eq_true, if_false, decodeParams]
    rw [hdec k]
    rfl
  exact ⟨h, (C115_decode_exactly prof _ _ _ k h).2 (by simp [tokenDepthAll, hnest])⟩

/-- the limit is not idle: `uint256[][]` is nested 3 deep; two calls are enough for an empty array in an array and not for a number -/
example : storeysAll [.array (.array (.uint 256))] = 3 ∧
    decodeAllWithin .debug .panic 2 [.array (.array (.uint 256))] (word 32 ++ word 1 ++ word 32 ++ word 0) =
      .ok [.array [.array []]] ∧
    decodeAllWithin .debug .panic 2 [.array (.array (.uint 256))] (word 32 ++ word 1 ++ word 32 ++ word 1 ++ word 5) = .panic ∧
    decodeAllWithin .debug .panic 3 [.array (.array (.uint 256))] (word 32 ++ word 1 ++ word 32 ++ word 1 ++ word 5) =
      .ok [.array [.array [.uint 5]]] := by decide +kernel

example : tokenizeWithin .lenient .panic 2 (.array (.array .bool)) (lit "[[],[]]") = .ok (.array [.array [], .array []]) ∧
    tokenizeWithin .lenient .panic 2 (.array (.array .bool)) (lit "[[true],[]]") = .panic ∧
    tokenizeWithin .lenient .panic 3 (.array (.array .bool)) (lit "[[true],[]]") = .ok (.array [.array [.bool true], .array []]) := by
  decide +kernel

end Ethabi.Props

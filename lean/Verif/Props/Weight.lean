import Verif.Proofs.Weight
import Verif.Props.Reading
/-!
# C83: how large decoded values can be

`Spec/Weight.lean` defines the weight of a value (one per token, one per payload byte) and a bound on it that depends only on
the types and on the length of the data.
-/
namespace Ethabi.Props
open Spec Weight

/-- **C83**: whatever the data (overlapping or repeated offsets included), a successful `decode` returns values that weigh at
most `maxWeightAll data.length ts`, provided no array has elements of width zero. -/
theorem C83_decoded_size (prof : Profile) (ts : List ParamType) (data : Bytes) (toks : List Token)
    (hn : narrowAll ts = true) (hu : ParamType.usizeOkAll ts = true) (hz : noZeroWidthArrays ts = true)
    (hd : data.length < 2 ^ 63) (h : decode prof ts data = .ok toks) : weightAll toks ≤ maxWeightAll data.length ts :=
  readsAll_weight data.length ts data 0 toks (Nat.le_refl _) ((C74_decodes_exactly prof ts data toks hn hd).1 h).2
    (C10_array_length_bound prof ts data toks hu hz hd h)

/-- **C83**: the bound is a polynomial in the length of the data; its degree is the number of dynamic layers of the types. -/
theorem C83_polynomial (prof : Profile) (ts : List ParamType) (data : Bytes) (toks : List Token)
    (hn : narrowAll ts = true) (hu : ParamType.usizeOkAll ts = true) (hz : noZeroWidthArrays ts = true)
    (hd : data.length < 2 ^ 63) (h : decode prof ts data = .ok toks) :
    weightAll toks ≤ skeletonAll ts * (data.length + 1) ^ layersAll ts :=
  Nat.le_trans (C83_decoded_size prof ts data toks hn hu hz hd h) (maxWeightAll_poly _ ts)

example : narrowAll [.array .bytes, .uint 8] = true ∧ ParamType.usizeOkAll [.array .bytes, .uint 8] = true ∧
    noZeroWidthArrays [.array .bytes, .uint 8] = true ∧ layersAll [.array .bytes, .uint 8] = 2 ∧
    decode .release [.array .bytes, .uint 8]
        (word 64 ++ word 7 ++ word 2 ++ word 64 ++ word 64 ++ word 5 ++ padRight [1, 2, 3, 4, 5])
      = .ok [.array [.bytes [1, 2, 3, 4, 5], .bytes [1, 2, 3, 4, 5]], .uint 7] := by decide +kernel

/-- **C83**, the bound is not far off: `96 + 32 k + |p|` bytes of data decode, as a `bytes[]`, to `k` copies of the payload `p`;
for `k = n` and `|p| = 32 n` that is data of size `64 n + 96` and a value of weight above `32 n²`. -/
theorem C83_amplification (prof : Profile) (k : Nat) (p : Bytes) (hk : 32 * k < 2 ^ 32) (hp : p.length < 2 ^ 32) :
    decode prof [.array .bytes] (word 32 ++ word k ++ (List.replicate k (word (32 * k))).flatten ++ word p.length ++ p)
      = .ok [.array (List.replicate k (.bytes p))] ∧
    (word 32 ++ word k ++ (List.replicate k (word (32 * k))).flatten ++ word p.length ++ p).length = 96 + 32 * k + p.length ∧
    weightAll [.array (List.replicate k (.bytes p))] = 1 + k * (1 + p.length) := by
  have hl : ∀ j, ((List.replicate j (word (32 * k))).flatten).length = 32 * j := by
    intro j
    induction j with
    | zero => simp
    | succ j ih => rw [List.replicate_succ, List.flatten_cons, List.length_append, length_word, ih]; omega
  have hlen : (word 32 ++ word k ++ (List.replicate k (word (32 * k))).flatten ++ word p.length ++ p).length
      = 96 + 32 * k + p.length := by
    simp only [List.length_append, length_word, hl]; omega
  have hw : ∀ j, weightAll (List.replicate j (Token.bytes p)) = j * (1 + p.length) := by
    intro j
    induction j with
    | zero => simp [weightAll]
    | succ j ih => rw [List.replicate_succ, weightAll, ih, weight, Nat.succ_mul]; omega
  refine ⟨?_, hlen, by rw [weightAll, weightAll, weight, hw, Nat.add_zero]⟩
  rw [C74_decodes_exactly prof _ _ _ (by decide) (by rw [hlen]; omega)]
  refine ⟨Or.inl (fun h => by rw [h] at hlen; simp at hlen; omega), ?_⟩
  have hdrop : (word 32 ++ word k ++ (List.replicate k (word (32 * k))).flatten ++ word p.length ++ p).drop (32 + 32)
      = (List.replicate k (word (32 * k))).flatten ++ (word p.length ++ p) := by
    rw [show word 32 ++ word k ++ (List.replicate k (word (32 * k))).flatten ++ word p.length ++ p
      = (word 32 ++ word k) ++ ((List.replicate k (word (32 * k))).flatten ++ (word p.length ++ p)) by
        simp only [List.append_assoc]]
    exact List.drop_left' (by simp)
  refine ⟨_, [], ⟨32, List.replicate k (.bytes p), ⟨by omega, ?_⟩, ⟨by rw [List.length_replicate]; omega, ?_⟩, ?_, rfl⟩, rfl, rfl⟩
  · rw [List.drop_zero]; simp only [List.append_assoc]; exact List.take_left' (length_word _)
  · rw [List.length_replicate]
    simp only [List.append_assoc]
    rw [List.drop_left' (length_word _)]; exact List.take_left' (length_word _)
  · rw [hdrop]
    intro i tok hi
    obtain ⟨hik, rfl⟩ : i < k ∧ Token.bytes p = tok := by
      rw [List.getElem?_replicate] at hi
      split at hi
      · exact ⟨by assumption, by simpa using hi⟩
      · cases hi
    refine ⟨32 * k, p, ⟨hk, ?_⟩, ⟨⟨hp, ?_⟩, ?_⟩, rfl⟩
    · have e : List.replicate k (word (32 * k)) = List.replicate i (word (32 * k)) ++ word (32 * k) ::
          List.replicate (k - i - 1) (word (32 * k)) := by
        rw [← List.replicate_succ, List.replicate_append_replicate]; congr 1; omega
      rw [e, List.flatten_append, List.flatten_cons, List.append_assoc, List.append_assoc,
        List.drop_left' (by rw [hl]; simp [headWidth, dynamic]; omega)]
      exact List.take_left' (length_word _)
    · rw [List.drop_left' (hl k)]; exact List.take_left' (length_word _)
    · rw [← List.append_assoc, List.drop_left' (by simp [hl]), List.take_length]

/-- The remaining hypothesis is needed: the 64 bytes of `C10_counterexample_zero_width` decode to a value of any weight below
2^32, so no bound in terms of the length of the data exists for arrays of empty tuples. -/
theorem C83_counterexample_zero_width (prof : Profile) (n : Nat) (hn : n < 2 ^ 32) :
    ∃ toks, decode prof [.array (.tuple [])] (word 32 ++ word n) = .ok toks ∧ weightAll toks = 1 + n ∧
      (word 32 ++ word n).length = 64 := by
  refine ⟨_, C10_counterexample_zero_width prof n hn, ?_, by simp⟩
  have hw : ∀ j, weightAll (List.replicate j (Token.tuple [])) = j := by
    intro j
    induction j with
    | zero => simp [weightAll]
    | succ j ih => rw [List.replicate_succ, weightAll, ih, weight, weightAll]; omega
  rw [weightAll, weightAll, weight, hw, Nat.add_zero]

end Ethabi.Props

import Verif.Proofs.ReaderOn
import Verif.Props.TypeText
/-! # Property C94: type strings on targets with a `usize` of 32 bits -/
namespace Ethabi.Props
open Spec

/-- The model with the width as a parameter is the model of the other claims for 64 bits. -/
theorem C94_same_code (s : Str) : readOn 64 s = read s := by rw [ReaderOn.same_code]

/-- **C94.** A 32-bit target does what a 64-bit target does, or it reports an error of the integer parser; the latter
only if the text holds a number of 2^32 or more. -/
theorem C94_same_or_refused (s : Str) :
    readOn 32 s = read s ∨ (readOn 32 s = .err .parseInt ∧ ∃ d n, d <:+: s ∧ numberText d n ∧ 2 ^ 32 ≤ n) := by
  refine (ReaderOn.rel_read (by omega) s).imp id fun h => ⟨h.2, ?_⟩
  have h1 := h.1
  unfold numbersBelow at h1
  push Not at h1
  obtain ⟨d, n, h1, h2, h3⟩ := h1
  exact ⟨d, n, h1, h2, h3⟩

/-- **C94.** Types that come back on a 32-bit target come back on a 64-bit target, and their sizes fit. -/
theorem C94_accepted (s : Str) (t : ParamType) (h : readOn 32 s = .ok t) : read s = .ok t ∧ sizesBelow 32 t := by
  refine ⟨?_, ReaderOn.read_below (by omega) h⟩
  rcases C94_same_or_refused s with h' | ⟨h', -⟩
  · rw [← h', h]
  · rw [h] at h'
    cases h'

/-- **C94.** A type with a size of 2^32 or more is refused with an error of the integer parser. -/
theorem C94_too_large (s : Str) (t : ParamType) (h : read s = .ok t) (ht : ¬ sizesBelow 32 t) :
    readOn 32 s = .err .parseInt := by
  rcases C94_same_or_refused s with h' | ⟨h', -⟩
  · exact absurd (C94_accepted s t (h'.trans h)).2 ht
  · exact h'

/-- **C94**, texts without tuples: accepted is exactly what a 64-bit target accepts and whose sizes fit. -/
theorem C94_without_tuples (s : Str) (t : ParamType) (hs : ')' ∉ s) :
    readOn 32 s = .ok t ↔ read s = .ok t ∧ sizesBelow 32 t := by
  refine ⟨C94_accepted s t, fun ⟨h, ht⟩ => ?_⟩
  rcases ReaderOn.large_read (bits := 32) (by omega) s hs with h' | ⟨-, h'⟩
  · rw [h', h]
  · exact absurd ht (h' t h)

/-- **C94**, as a grammar: the ASCII texts without tuples. -/
theorem C94_accepts_exactly (s : Str) (t : ParamType) (ha : s.all (fun c => decide (c.toNat < 128)) = true)
    (hs : ')' ∉ s) : readOn 32 s = .ok t ↔ TypeText s t ∧ sizesBelow 32 t := by
  rw [C94_without_tuples s t hs, (C76_without_tuples s ha hs).1 t]

/-- With tuples this does not suffice: a member that is dropped has to fit as well. -/
theorem C94_counterexample_dropped :
    readOn 32 (lit "((uint4294967296,),bool)") = .err .parseInt ∧
    read (lit "((uint4294967296,),bool)") = .ok (.tuple [.bool]) := by decide +kernel

example : readOn 32 (lit "bytes32[4294967295][]") = .ok (.array (.fixedArray (.fixedBytes 32) 4294967295)) ∧
    readOn 32 (lit "bytes32[4294967296][]") = .err .parseInt ∧
    read (lit "bytes32[4294967296][]") = .ok (.array (.fixedArray (.fixedBytes 32) 4294967296)) := by decide +kernel

/-- the same on both targets, errors and panics as well -/
example : readOn 32 (lit "(uint8,(address,string)[2])") = read (lit "(uint8,(address,string)[2])") ∧
    readOn 32 (lit "uint8[3") = .err .parseInt ∧ read (lit "uint8[3") = .err .parseInt ∧
    readOn 32 (lit "3]") = .panic ∧ read (lit "3]") = .panic := by decide +kernel

end Ethabi.Props

import Verif.Proofs.Targets
import Verif.Props.Reading
/-! # Property C87: decoding on targets with a `usize` of 32 bits -/
namespace Ethabi.Props
open Spec

/-- The model with the width as a parameter is the model of the other claims for 64 bits. -/
theorem C87_same_code (prof : Profile) (ts : List ParamType) (data : Bytes) :
    decodeOn 64 prof ts data = decode prof ts data := by
  rw [decodeOn, decode, Targets.decodeParamsOn_64]

/-- **C87.** Where a position or an extent of 2^32 or more is met, a 32-bit target panics, in both profiles; a 64-bit
target reports `InvalidData`.  (`data.length < 2^31` holds of all slices on a 32-bit target.) -/
theorem C87_wraps (prof : Profile) (ts : List ParamType) (data : Bytes) (hn : narrow32All ts = true)
    (hd : data.length < 2 ^ 31) (h : wrapsAny 32 ts data 0) :
    decodeOn 32 prof ts data = .panic ∧ decode prof ts data = .err .invalidData := by
  have hne : data ≠ [] := by
    rintro rfl
    exact Targets.wrapsAny_data ts 0 h
  obtain ⟨h1, h2⟩ := (Targets.runs_params prof ts hn data hd 0 (by omega)).wrap h
  rw [decodeOn, decode, if_neg (by simp [hne]), if_neg (by simp [hne]), h1, h2]
  exact ⟨rfl, rfl⟩

/-- **C87.** Everywhere else the two targets do the same: the same values, the same errors, the same panics. -/
theorem C87_otherwise_same (prof : Profile) (ts : List ParamType) (data : Bytes) (hn : narrow32All ts = true)
    (hd : data.length < 2 ^ 31) (h : ¬ wrapsAny 32 ts data 0) : decodeOn 32 prof ts data = decode prof ts data := by
  rw [decodeOn, decode, (Targets.runs_params prof ts hn data hd 0 (by omega)).same h]

/-- **C87**, values: a 32-bit target returns exactly the values that the data hold. -/
theorem C87_decodes_exactly (prof : Profile) (ts : List ParamType) (data : Bytes) (toks : List Token)
    (hn : narrow32All ts = true) (hd : data.length < 2 ^ 31) :
    decodeOn 32 prof ts data = .ok toks ↔ (data ≠ [] ∨ zeroTypes ts) ∧ readsAll ts data 0 toks := by
  rw [← C74_decodes_exactly prof ts data toks (Targets.narrowAll_of_narrow32 ts hn) (by omega)]
  by_cases h : wrapsAny 32 ts data 0
  · obtain ⟨h1, h2⟩ := C87_wraps prof ts data hn hd h
    rw [h1, h2]
    exact ⟨nofun, nofun⟩
  · rw [C87_otherwise_same prof ts data hn hd h]

/-- **C87**, panics: those of a 64-bit target and those from positions at 2^32 or behind. -/
theorem C87_panics_exactly (prof : Profile) (ts : List ParamType) (data : Bytes) (hn : narrow32All ts = true)
    (hd : data.length < 2 ^ 31) :
    decodeOn 32 prof ts data = .panic ↔ overrunsAny ts data 0 ∨ wrapsAny 32 ts data 0 := by
  have hx := C06_panics_exactly prof ts data (Targets.narrowAll_of_narrow32 ts hn) (by omega)
  by_cases h : wrapsAny 32 ts data 0
  · exact ⟨fun _ => Or.inr h, fun _ => (C87_wraps prof ts data hn hd h).1⟩
  · rw [C87_otherwise_same prof ts data hn hd h, hx]
    exact ⟨Or.inl, fun h' => h'.resolve_right h⟩

/-- The two targets differ: a length word of 2^32 - 1. -/
theorem C87_counterexample_length :
    decodeOn 32 .release [.bytes] (word 32 ++ word (2 ^ 32 - 1)) = .panic ∧
    decodeOn 32 .debug [.bytes] (word 32 ++ word (2 ^ 32 - 1)) = .panic ∧
    decode .release [.bytes] (word 32 ++ word (2 ^ 32 - 1)) = .err .invalidData := by decide +kernel

/-- An offset word of 2^32 - 8. -/
theorem C87_counterexample_offset :
    decodeOn 32 .release [.bool, .array .bool] (word 1 ++ word (2 ^ 32 - 8)) = .panic ∧
    decodeOn 32 .debug [.bool, .array .bool] (word 1 ++ word (2 ^ 32 - 8)) = .panic ∧
    decode .release [.bool, .array .bool] (word 1 ++ word (2 ^ 32 - 8)) = .err .invalidData := by decide +kernel

/-- the hypotheses of `C87_wraps`, inside an array -/
example : wrapsAny 32 [.array .string] (word 32 ++ word 1 ++ word 32 ++ word (2 ^ 32 - 64)) 0 ∧
    narrow32All [.array .string] = true := by
  refine ⟨?_, by decide⟩
  have h := C87_panics_exactly .debug [.array .string] (word 32 ++ word 1 ++ word 32 ++ word (2 ^ 32 - 64)) (by decide)
    (by decide +kernel)
  have h64 := C06_panics_exactly .debug [.array .string] (word 32 ++ word 1 ++ word 32 ++ word (2 ^ 32 - 64)) (by decide)
    (by decide +kernel)
  have e1 : decodeOn 32 .debug [.array .string] (word 32 ++ word 1 ++ word 32 ++ word (2 ^ 32 - 64)) = .panic := by
    decide +kernel
  have e2 : decode .debug [.array .string] (word 32 ++ word 1 ++ word 32 ++ word (2 ^ 32 - 64)) ≠ .panic := by
    decide +kernel
  exact (h.1 e1).resolve_left fun x => e2 (h64.2 x)

/-- one byte less: an error on both -/
example : decodeOn 32 .debug [.array .string] (word 32 ++ word 1 ++ word 32 ++ word (2 ^ 32 - 65)) = .err .invalidData ∧
    decode .debug [.array .string] (word 32 ++ word 1 ++ word 32 ++ word (2 ^ 32 - 65)) = .err .invalidData := by
  decide +kernel

end Ethabi.Props

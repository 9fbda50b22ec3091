import Verif.Proofs.DecoderCount
import Verif.Props.Weight
/-! # The work of `decode` -/
namespace Ethabi.Props
open Spec

/-- counting the work does not change the result -/
theorem C109_same (prof : Profile) (ts : List ParamType) (data : Bytes) :
    (decodeCount prof ts data).res = decode prof ts data := DecoderCount.res_decode prof ts data

/-- **C109.** The work of `decode` is bounded in terms of the types and the length of the data, whether the data are read,
refused or make it panic, as long as there is no array of elements of width zero. -/
theorem C109_work (prof : Profile) (ts : List ParamType) (data : Bytes) (hd : data.length < 2 ^ 63)
    (hz : noZeroWidthArrays ts = true) : (decodeCount prof ts data).work ≤ ts.length + maxWorkAll data.length ts :=
  DecoderCount.work_decode prof ts data hd hz

/-- **C109.** The bound is a polynomial in the length of the data, of the degree of C83: the number of dynamic layers of the
types. -/
theorem C109_polynomial (prof : Profile) (ts : List ParamType) (data : Bytes) (hd : data.length < 2 ^ 63)
    (hz : noZeroWidthArrays ts = true) :
    (decodeCount prof ts data).work ≤ ts.length + basicWorkAll ts * (data.length + 1) ^ layersAll ts :=
  Nat.le_trans (C109_work prof ts data hd hz) (Nat.add_le_add_left (DecoderCount.maxWorkAll_poly _ ts) _)

/-- **C109.** Types without `bytes`, `string` and `T[]` take work that does not depend on the data at all. -/
theorem C109_static (prof : Profile) (ts : List ParamType) (data : Bytes) (hd : data.length < 2 ^ 63)
    (hs : layersAll ts = 0) (hz : noZeroWidthArrays ts = true) :
    (decodeCount prof ts data).work ≤ ts.length + basicWorkAll ts := by
  have := C109_polynomial prof ts data hd hz
  rwa [hs, Nat.pow_zero, Nat.mul_one] at this

/-- **C109.** No value is had for nothing: the values returned weigh at most twice the work. -/
theorem C109_at_least (prof : Profile) (ts : List ParamType) (data : Bytes) (toks : List Token)
    (h : decode prof ts data = .ok toks) : weightAll toks ≤ 2 * (decodeCount prof ts data).work :=
  DecoderCount.least_decode prof ts data toks h

/-- **C109.** The degree is reached for `bytes[]`: there are `64 n + 96` bytes that take work `16 n²`. -/
theorem C109_reached (prof : Profile) (n : Nat) (hn : 32 * n < 2 ^ 32) :
    ∃ data : Bytes, data.length = 64 * n + 96 ∧ 16 * n * n ≤ (decodeCount prof [.array .bytes] data).work := by
  obtain ⟨h1, h2, h3⟩ := C83_amplification prof n (List.replicate (32 * n) 0) hn (by simp; omega)
  refine ⟨_, by rw [h2, List.length_replicate]; omega, ?_⟩
  have := C109_at_least prof _ _ _ h1
  have e : n * (1 + (List.replicate (32 * n) (0 : UInt8)).length) = n + 32 * (n * n) := by
    rw [List.length_replicate, Nat.mul_add, Nat.mul_one, Nat.mul_left_comm]
  rw [h3, e] at this
  rw [Nat.mul_assoc]
  omega

/-- With elements of width zero there is no bound: 64 bytes take as much work as the length word says. -/
theorem C109_counterexample_zero_width (prof : Profile) (n : Nat) (hn : n < 2 ^ 32) :
    ∃ data : Bytes, data.length = 64 ∧ n ≤ 2 * (decodeCount prof [.array (.tuple [])] data).work := by
  obtain ⟨toks, h1, h2, h3⟩ := C83_counterexample_zero_width prof n hn
  have := C109_at_least prof _ _ _ h1
  exact ⟨_, h3, by omega⟩

/-- the bounds at work: refused data with a long list of offsets, and the numbers for `(uint8,string)[]` -/
example : decode .release [.array (.tuple [.uint 8, .string])] (word 32 ++ word 3 ++ word 64) = .err .invalidData ∧
    (decodeCount .release [.array (.tuple [.uint 8, .string])] (word 32 ++ word 3 ++ word 64)).work = 6 ∧
    maxWorkAll 96 [.array (.tuple [.uint 8, .string])] = 991 ∧
    noZeroWidthArrays [.array (.tuple [.uint 8, .string])] = true ∧
    layersAll [.array (.tuple [.uint 8, .string])] = 2 ∧ layersAll [.fixedArray (.uint 8) 7, .bool] = 0 := by
  decide +kernel

end Ethabi.Props

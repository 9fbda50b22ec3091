import Verif.Proofs.EncoderCount
import Verif.Props.Sizes
/-! # The work of `encode` -/
namespace Ethabi.Props
open Spec

/-- counting the work does not change the result -/
theorem C110_same (prof : Profile) (toks : List Token) : (encodeCount prof toks).res = encode prof toks :=
  EncoderCount.res_encode prof toks

/-- **C110.** The work of `encode` is at most in proportion to the size of the values times how deeply they are nested, whether
it returns or panics. -/
theorem C110_work (prof : Profile) (toks : List Token) :
    (encodeCount prof toks).work ≤ 2 + (15 + 10 * depthAll toks) * bulkAll toks := by
  have h1 := EncoderCount.encode_work prof toks
  have h2 := EncoderCount.weightAll_le toks (depthAll toks) (Nat.le_refl _)
  rw [Nat.add_mul, Nat.one_mul] at h2
  rw [Nat.add_mul, Nat.mul_assoc]
  omega

/-- **C110.** Values without arrays and tuples, and every bound on the nesting, take work in proportion to their size. -/
theorem C110_flat (prof : Profile) (toks : List Token) (d : Nat) (h : depthAll toks ≤ d) :
    (encodeCount prof toks).work ≤ 2 + (15 + 10 * d) * bulkAll toks :=
  Nat.le_trans (C110_work prof toks) (Nat.add_le_add_left (Nat.mul_le_mul_right _ (by omega)) _)

/-- **C110.** What is returned is had for at least half the size of the values and a unit of work for every word. -/
theorem C110_at_least (prof : Profile) (toks : List Token) (bs : Bytes) (h : encode prof toks = .ok bs) :
    bulkAll toks ≤ 2 * (encodeCount prof toks).work ∧ bs.length ≤ 32 * (encodeCount prof toks).work := by
  have := EncoderCount.encode_least prof toks bs (by rw [C110_same, h])
  omega

/-- **C110.** The nesting counts: `k + 1` arrays, one inside the other, are a value of size `2 (k + 1)` that takes work of at
least `(k + 1)²`, for an encoding of `64 (k + 1)` bytes. -/
theorem C110_reached (k : Nat) : bulk (nestedArrays k) = 2 * (k + 1) ∧ depthOf (nestedArrays k) = k + 1 ∧
    (k + 1) * (k + 1) ≤ (encodeCount .release [nestedArrays k]).work ∧
    ∃ bs, encode .release [nestedArrays k] = .ok bs ∧ bs.length = 64 * (k + 1) := by
  obtain ⟨bs, hb⟩ := (C67_never_error .release [nestedArrays k]).2
  have h := EncoderCount.nested_work .release k bs (by rw [C110_same, hb])
  exact ⟨(EncoderCount.nested_size k).1, (EncoderCount.nested_size k).2, h.2, bs, hb, h.1⟩

/-- the numbers for `([1, 2, 3], ("ab", true))` and for five arrays, one inside the other -/
example : bulkAll [.array [.uint 1, .uint 2, .uint 3], .tuple [.string (lit "ab"), .bool true]] = 14 ∧
    depthAll [.array [.uint 1, .uint 2, .uint 3], .tuple [.string (lit "ab"), .bool true]] = 1 ∧
    (encodeCount .debug [.array [.uint 1, .uint 2, .uint 3], .tuple [.string (lit "ab"), .bool true]]).work = 107 ∧
    (encodeCount .debug [nestedArrays 4]).work = 147 ∧ bulk (nestedArrays 4) = 10 := by
  decide +kernel

end Ethabi.Props

import Verif.Proofs.Significant
import Verif.Props.Reading
/-!
# C114: the bytes of the data that matter (static types)

`Spec/Significant.lean` says which bytes of the data a static type looks at.
-/
namespace Ethabi.Props
open Spec Significant

/-- **C114**: if `decode` accepts `a` for static types, then it gives the same values for `b` exactly if the two are alike
in the significant bytes. -/
theorem C114_exactly (prof : Profile) (ts : List ParamType) (a b : Bytes) (toks : List Token) (hn : narrowAll ts = true)
    (hs : dynamicAny ts = false) (ha : a.length < 2 ^ 63) (hb : b.length < 2 ^ 63) (hne : b ≠ [])
    (h : decode prof ts a = .ok toks) : decode prof ts b = .ok toks ↔ alikeAll ts 0 a b := by
  have h1 := ((C74_decodes_exactly prof ts a toks hn ha).1 h).2
  rw [C74_decodes_exactly prof ts b toks hn hb, ← readsAll_alike a b ts 0 toks hs h1]
  exact ⟨fun x => x.2, fun x => ⟨.inl hne, x⟩⟩

/-- **C114**, integers and `bytes32`: every bit matters.  The values determine all the bytes that belong to them. -/
theorem C114_every_byte (prof : Profile) (ts : List ParamType) (a b : Bytes) (toks : List Token) (hf : fullAll ts = true)
    (ha : a.length < 2 ^ 63) (hb : b.length < 2 ^ 63) (hne : b ≠ []) (h : decode prof ts a = .ok toks) :
    decode prof ts b = .ok toks ↔ staticSizeAll ts ≤ b.length ∧ b.take (staticSizeAll ts) = a.take (staticSizeAll ts) := by
  obtain ⟨hs, hn⟩ := fullAll_static ts hf
  have h1 := ((C74_decodes_exactly prof ts a toks hn ha).1 h).2
  have h2 := readsAll_reach a ts 0 toks hf h1 (Nat.zero_le _)
  rw [C114_exactly prof ts a b toks hn hs ha hb hne h, fullAll_alike a b ts 0 hf h2 (Nat.zero_le _)]
  unfold sameBytes
  simp only [Nat.zero_add, List.drop_zero]
  constructor
  · rintro ⟨x, y⟩; exact ⟨x, y.symm⟩
  · rintro ⟨x, y⟩; exact ⟨x, y.symm⟩

/-- **C114**, addresses: the 12 bytes before the address are not looked at. -/
theorem C114_address (prof : Profile) (pad rest : Bytes) (x : Address) (hp : pad.length = 12) (hl : rest.length < 2 ^ 62) :
    decode prof [.address] (pad ++ x.1 ++ rest) = .ok [.address x] := by
  have hx : x.1.length = 20 := x.2
  have hd : (pad ++ x.1 ++ rest).length < 2 ^ 63 := by
    simp only [List.length_append, hp, hx]
    omega
  rw [C74_decodes_exactly prof _ _ _ (by rfl) hd]
  refine ⟨.inl (by intro h; have := congrArg List.length h; simp [hp, hx] at this), ?_⟩
  simp only [readsAll, reads]
  refine ⟨_, [], ⟨pad, x, hp, ?_, rfl⟩, rfl, rfl⟩
  rw [List.drop_zero, List.take_left' (by simp [hp, hx])]

/-- **C114**, `bytesN`: the bytes behind the first N are not looked at; at the end of the data they may be missing. -/
theorem C114_fixedBytes (prof : Profile) (n : Nat) (x rest : Bytes) (hx : x.length = n) (h0 : n ≠ 0)
    (hl : (x ++ rest).length < 2 ^ 62) : decode prof [.fixedBytes n] (x ++ rest) = .ok [.fixedBytes x] := by
  have hn : n < 2 ^ 62 := by
    simp only [List.length_append] at hl
    omega
  rw [C74_decodes_exactly prof _ _ _ (by simpa [narrowAll, narrow] using hn) (by omega)]
  refine ⟨.inl (by intro h; have := congrArg List.length h; simp only [List.length_append, List.length_nil] at this; omega), ?_⟩
  simp only [readsAll, reads]
  refine ⟨_, [], ⟨by simp only [List.length_append]; omega, rfl⟩, rfl, ?_⟩
  rw [List.drop_zero, List.take_left' hx]

/-- **C114**, bools: false has 255 representations. -/
theorem C114_bool (prof : Profile) (n : Nat) (rest : Bytes) (h : n < 256) (hl : rest.length < 2 ^ 62) :
    decode prof [.bool] (List.replicate 31 0 ++ [UInt8.ofNat n] ++ rest) = .ok [.bool (decide (n = 1))] := by
  rw [C74_decodes_exactly prof _ _ _ (by rfl) (by simp; omega)]
  refine ⟨.inl (by intro h; have := congrArg List.length h; simp at this), ?_⟩
  simp only [readsAll, reads]
  refine ⟨_, [], ⟨n, h, ⟨by omega, ?_⟩, rfl⟩, rfl, rfl⟩
  rw [List.drop_zero, List.take_left' (by simp), word_small h]

/-- the hypotheses are met: data for `(address, bool, bytes4, uint8)` and other data with the same values -/
def significantTypes : List ParamType := [.address, .bool, .fixedBytes 4, .uint 8]
def significantData (pad : UInt8) (no : UInt8) : Bytes :=
  List.replicate 12 pad ++ List.replicate 20 7 ++ (List.replicate 31 0 ++ [no]) ++ ([1, 2, 3, 4] ++ List.replicate 28 pad) ++
    List.replicate 32 9
def significantValues (n : UInt8) : List Token :=
  [.address ⟨List.replicate 20 7, by decide⟩, .bool false, .fixedBytes [1, 2, 3, 4],
   .uint (U256.ofWord ⟨List.replicate 32 n, by simp⟩)]

example : narrowAll significantTypes = true ∧ dynamicAny significantTypes = false ∧ significantData 5 6 ≠ [] ∧
    decode .debug significantTypes (significantData 0 0) = .ok (significantValues 9) ∧
    decode .debug significantTypes (significantData 5 6) = .ok (significantValues 9) ∧
    significantData 0 0 ≠ significantData 5 6 := by decide +kernel

example : fullAll [.uint 256, .fixedArray (.tuple [.int 8, .fixedBytes 32]) 1] = true ∧
    decode .debug [.uint 256, .fixedArray (.tuple [.int 8, .fixedBytes 32]) 1] (List.replicate 96 3) =
      .ok [.uint (U256.ofWord ⟨List.replicate 32 3, by simp⟩),
        .fixedArray [.tuple [.int (U256.ofWord ⟨List.replicate 32 3, by simp⟩), .fixedBytes (List.replicate 32 3)]]] := by
  decide +kernel

end Ethabi.Props

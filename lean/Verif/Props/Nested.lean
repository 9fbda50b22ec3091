import Verif.Proofs.Nested
/-!
# C98: tuples and arrays are coded like lists of values
-/
namespace Ethabi.Props
open Spec

/-- **C98.** A tuple is encoded like the list of its members, after an offset of 32 if one of them is dynamic. -/
theorem C98_encode_tuple (prof : Profile) (ts : List Token) (x : Bytes) (h : encode prof [.tuple ts] = .ok x) :
    ∃ y, encode prof ts = .ok y ∧ x = (if tailedAny ts then word 32 else []) ++ y :=
  Nested.encode_tuple h

/-- **C98** for arrays of fixed length. -/
theorem C98_encode_fixed_array (prof : Profile) (ts : List Token) (x : Bytes) (h : encode prof [.fixedArray ts] = .ok x) :
    ∃ y, encode prof ts = .ok y ∧ x = (if tailedAny ts then word 32 else []) ++ y :=
  Nested.encode_fixedArray h

/-- **C98** for arrays: after an offset of 32 and the number of elements. -/
theorem C98_encode_array (prof : Profile) (ts : List Token) (x : Bytes) (h : encode prof [.array ts] = .ok x) :
    ∃ y, encode prof ts = .ok y ∧ x = word 32 ++ word (ts.length % 2 ^ 32) ++ y :=
  Nested.encode_array h

/-- the elements need not be of one type -/
example : ∃ x, encode .debug [.array [.string (lit "ab"), .tuple [.uint 1]]] = .ok x ∧ x.length = 192 := by
  refine ⟨_, rfl, ?_⟩
  decide +kernel

/-- **C98**, decoding, whatever the bytes are: a static tuple like the list of its members -/
theorem C98_decode_static_tuple (prof : Profile) (ts : List ParamType) (data : Bytes) (hs : dynamicAny ts = false) (hd : data ≠ []) :
    decode prof [.tuple ts] data = (do let xs ← decode prof ts data; .ok [.tuple xs]) :=
  Nested.decode_static_tuple prof ts (by rw [type_anyDynamic_eq]; exact hs) hd

/-- a static `T[k]` like `k` values -/
theorem C98_decode_static_fixed_array (prof : Profile) (t : ParamType) (k : Nat) (data : Bytes) (hs : dynamic t = false)
    (hd : data ≠ []) :
    decode prof [.fixedArray t k] data = (do let xs ← decode prof (List.replicate k t) data; .ok [.fixedArray xs]) :=
  Nested.decode_static_fixedArray prof t k (by rw [type_isDynamic_eq]; exact hs) hd

/-- a dynamic tuple like the list of its members in the bytes `d` from the offset `o` -/
theorem C98_decode_dynamic_tuple (prof : Profile) (ts : List ParamType) (data rest d : Bytes) (o : Nat)
    (hs : dynamicAny ts = true) (hl : data.length < 2 ^ 64) (h1 : data = word o ++ rest) (ho : o < 2 ^ 32)
    (h2 : data.drop o = d) (hd : d ≠ []) :
    decode prof [.tuple ts] data = (do let xs ← decode prof ts d; .ok [.tuple xs]) :=
  Nested.decode_dynamic_tuple prof ts (by rw [type_anyDynamic_eq]; exact hs) hl h1 ho h2 hd

/-- a dynamic `T[k]` like `k` values in the bytes from the offset -/
theorem C98_decode_dynamic_fixed_array (prof : Profile) (t : ParamType) (k : Nat) (data rest d : Bytes) (o : Nat)
    (hs : dynamic t = true) (hl : data.length < 2 ^ 64) (h1 : data = word o ++ rest) (ho : o < 2 ^ 32)
    (h2 : data.drop o = d) (hd : d ≠ []) :
    decode prof [.fixedArray t k] data = (do let xs ← decode prof (List.replicate k t) d; .ok [.fixedArray xs]) :=
  Nested.decode_dynamic_fixedArray prof t k (by rw [type_isDynamic_eq]; exact hs) hl h1 ho h2 hd

/-- `T[]` like as many values as the word at the offset says, in the bytes `d` after that word -/
theorem C98_decode_array (prof : Profile) (t : ParamType) (data rest d : Bytes) (o n : Nat)
    (hl : data.length < 2 ^ 64) (h1 : data = word o ++ rest) (ho : o < 2 ^ 32) (hn : n < 2 ^ 32)
    (h2 : data.drop o = word n ++ d) (hd : d ≠ []) :
    decode prof [.array t] data = (do let xs ← decode prof (List.replicate n t) d; .ok [.array xs]) :=
  Nested.decode_array prof t hl h1 ho hn h2 hd

/-- the hypotheses, with an offset that skips a word, and malformed elements -/
example : (word 64 ++ word 7 ++ word 2 ++ word 1 ++ word 300).length < 2 ^ 64 ∧
    (word 64 ++ word 7 ++ word 2 ++ word 1 ++ word 300).drop 64 = word 2 ++ (word 1 ++ word 300) ∧
    decode .debug [.bool, .bool] (word 1 ++ word 300) = .err .invalidData ∧
    decode .debug [.array .bool] (word 64 ++ word 7 ++ word 2 ++ word 1 ++ word 300) = .err .invalidData := by decide +kernel

example : dynamicAny [.uint 256, .string] = true ∧ dynamic .string = true ∧ dynamicAny [.uint 256, .fixedArray .bool 2] = false ∧
    tailedAny [.uint 1, .string []] = true := by decide

/-- `d ≠ []` is needed: no bytes are refused for an empty tuple, but not for the empty list. -/
theorem C98_counterexample_empty : decode .debug [] [] = .ok [] ∧ ∃ e, decode .debug [.tuple []] [] = .err e := by
  exact ⟨rfl, _, rfl⟩

end Ethabi.Props

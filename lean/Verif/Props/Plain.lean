import Verif.Proofs.PlainEncode
/-! # Property C121: the layout of data does not depend on what the words mean -/
namespace Ethabi.Props
open Spec Plain

theorem empty_data {prof : Profile} {ts : List ParamType} {data : Bytes}
    (h : (!(ts.all ParamType.isEmptyBytesValidEncoding) && data.isEmpty) = true) : decode prof ts data = .err (.invalidName emptyDataMsg) := by
  rw [decode, if_pos h]

/-- **C121.** What `decode` returns is what it returns for plain types, numbers for words and bytes for byte strings, with
every number and byte string read as its type. -/
theorem C121_accepted (prof : Profile) (ts : List ParamType) (data : Bytes) (ws : List Token) :
    decode prof ts data = .ok ws ↔ ∃ vs, decode prof (plainAll ts) data = .ok vs ∧ readAll ts vs = some ws := by
  by_cases h : (!(ts.all ParamType.isEmptyBytesValidEncoding) && data.isEmpty) = true
  · rw [empty_data h, empty_data (by rw [all_empty_plain]; exact h)]
    simp
  · rw [Bool.not_eq_true] at h
    rcases sees_decode (P := True) prof ts data (fun _ => trivial) h with ⟨x, y, e, e', hc⟩ | ⟨-, x, e, e', hc⟩ | ⟨e, e'⟩ | ⟨e, e'⟩ | ⟨-, e, e'⟩ <;>
      simp_all

/-- **C121.** Data refused for the plain types are refused with the same error. -/
theorem C121_refused (prof : Profile) (ts : List ParamType) (data : Bytes) (e : Err) (h : decode prof (plainAll ts) data = .err e) :
    decode prof ts data = .err e := by
  by_cases h0 : (!(ts.all ParamType.isEmptyBytesValidEncoding) && data.isEmpty) = true
  · rw [empty_data (by rw [all_empty_plain]; exact h0)] at h
    rw [empty_data h0, h]
  · rw [Bool.not_eq_true] at h0
    rcases sees_decode (P := True) prof ts data (fun _ => trivial) h0 with ⟨x, y, e1, e', hc⟩ | ⟨-, x, e1, e', hc⟩ | ⟨e1, e'⟩ | ⟨e1, e'⟩ | ⟨-, e1, e'⟩ <;>
      rw [h] at e1 <;> cases e1
    exact e'

/-- **C121.** A word that is no bool is the only other reason: the data are then refused as invalid, and this may come before
a panic. -/
theorem C121_other (prof : Profile) (ts : List ParamType) (data : Bytes) :
    (∀ vs, decode prof (plainAll ts) data = .ok vs → readAll ts vs = none → decode prof ts data = .err .invalidData) ∧
    (decode prof (plainAll ts) data = .panic → decode prof ts data = .panic ∨ decode prof ts data = .err .invalidData) ∧
    (decode prof ts data = .panic → decode prof (plainAll ts) data = .panic) := by
  by_cases h0 : (!(ts.all ParamType.isEmptyBytesValidEncoding) && data.isEmpty) = true
  · rw [empty_data h0, empty_data (by rw [all_empty_plain]; exact h0)]
    simp
  · rw [Bool.not_eq_true] at h0
    rcases sees_decode (P := True) prof ts data (fun _ => trivial) h0 with ⟨x, y, e1, e', hc⟩ | ⟨-, x, e1, e', hc⟩ | ⟨e1, e'⟩ | ⟨e1, e'⟩ | ⟨-, e1, e'⟩ <;>
      simp_all

/-- **C121.** Without bools nothing else is refused: the same data are accepted, are refused with the same error, and panic. -/
theorem C121_without_bools (prof : Profile) (ts : List ParamType) (data : Bytes) (hb : boolFreeAll ts = true) :
    (∀ vs, decode prof (plainAll ts) data = .ok vs → ∃ ws, readAll ts vs = some ws ∧ decode prof ts data = .ok ws) ∧
    (∀ e, decode prof ts data = .err e ↔ decode prof (plainAll ts) data = .err e) ∧
    (decode prof ts data = .panic ↔ decode prof (plainAll ts) data = .panic) := by
  by_cases h0 : (!(ts.all ParamType.isEmptyBytesValidEncoding) && data.isEmpty) = true
  · rw [empty_data h0, empty_data (by rw [all_empty_plain]; exact h0)]
    simp
  · rw [Bool.not_eq_true] at h0
    rcases sees_decode (P := False) prof ts data (fun h => by rw [hb] at h; cases h) h0 with
      ⟨x, y, e1, e', hc⟩ | ⟨h, -⟩ | ⟨e1, e'⟩ | ⟨e1, e'⟩ | ⟨h, -⟩
    · simp [e1, e', hc]
    · exact h.elim
    · simp [e1, e']
    · simp [e1, e']
    · exact h.elim

/-- **C121.** Types with the same plain types and no bools, `address` and `bytes32` and `uint8`, or `string` and `bytes`, accept
the same data, refuse the same data with the same errors and panic on the same data. -/
theorem C121_same_layout (prof : Profile) (ts us : List ParamType) (h : plainAll ts = plainAll us) (ht : boolFreeAll ts = true)
    (hu : boolFreeAll us = true) (data : Bytes) :
    ((∃ vs, decode prof ts data = .ok vs) ↔ ∃ vs, decode prof us data = .ok vs) ∧
    (∀ e, decode prof ts data = .err e ↔ decode prof us data = .err e) ∧
    (decode prof ts data = .panic ↔ decode prof us data = .panic) := by
  obtain ⟨h1, h2, h3⟩ := C121_without_bools prof ts data ht
  obtain ⟨k1, k2, k3⟩ := C121_without_bools prof us data hu
  refine ⟨⟨fun ⟨vs, hv⟩ => ?_, fun ⟨vs, hv⟩ => ?_⟩, fun e => by rw [h2, k2, h], by rw [h3, k3, h]⟩
  · obtain ⟨xs, hx, -⟩ := (C121_accepted prof ts data vs).1 hv
    obtain ⟨ws, -, hw⟩ := k1 xs (h ▸ hx)
    exact ⟨ws, hw⟩
  · obtain ⟨xs, hx, -⟩ := (C121_accepted prof us data vs).1 hv
    obtain ⟨ws, -, hw⟩ := h1 xs (h ▸ hx)
    exact ⟨ws, hw⟩

/-- **C121.** `encode` gives the same for a value and for its plain value: the same bytes, or a panic for both. -/
theorem C121_encode (prof : Profile) (vs : List Token) : encode prof (plainValues vs) = encode prof vs := by
  simp only [encode, encodeTokens_plain]

/-- **C121.** The plain values of values of the types, read as the types, are the values. -/
theorem C121_read_back (ts : List ParamType) (vs : List Token) (h : haveTypes vs ts = true) :
    readAll ts (plainValues vs) = some vs := readAll_plain vs ts h

/-- A bool that is refused comes before a panic. -/
theorem C121_counterexample_bool :
    let data := word 256 ++ word 1000
    decode .release [.bool, .fixedArray .string 2] data = .err .invalidData ∧
    decode .release (plainAll [.bool, .fixedArray .string 2]) data = .panic := by decide +kernel

/-- the upper bytes of an address are dropped, 2 is false, 256 is no bool -/
example :
    plainAll [.address, .bool, .fixedBytes 32, .int 8] = [.uint 256, .uint 256, .uint 256, .uint 256] ∧
    (decode .release [.uint 256, .uint 256, .uint 256, .uint 256] (word (2 ^ 255 + 7) ++ word 2 ++ word 9 ++ word (2 ^ 255)) =
      .ok [.uint (2 ^ 255 + 7), .uint 2, .uint 9, .uint (2 ^ 255)]) ∧
    (decode .release [.address, .bool, .fixedBytes 32, .int 8] (word (2 ^ 255 + 7) ++ word 2 ++ word 9 ++ word (2 ^ 255)) =
      .ok [.address (lastTwenty 7), .bool false, .fixedBytes (word 9), .int (2 ^ 255)]) ∧
    decode .release [.bool] (word 256) = .err .invalidData := by decide +kernel

example : plainAll [.tuple [.string, .address], .array .bool] = plainAll [.tuple [.bytes, .int 8], .array (.fixedBytes 32)] ∧
    plainAll [.fixedBytes 31] ≠ plainAll [.fixedBytes 32] ∧
    encode .release [.string "é".toList, .bool true] = encode .release [.bytes [0xC3, 0xA9], .uint 1] := by decide +kernel

end Ethabi.Props

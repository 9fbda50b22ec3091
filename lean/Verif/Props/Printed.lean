import Verif.Proofs.Printed
import Verif.Proofs.ReaderSizes
import Verif.Props.Codec
/-!
# C97: printed values determine the values
-/
namespace Ethabi.Props
open Spec Printed

/-- **C97.** Two values of one type without `string` are printed alike exactly if they differ at most in that one has an empty
array `bytes[]` (or `bytes0[]`) where the other has an array of one empty byte string. -/
theorem C97_values (p : ParamType) (hp : stringFree p = true) (a b : Token) (ha : hasType a p = true) (hb : hasType b p = true) :
    a.display = b.display ↔ blur a = blur b := by
  constructor
  · intro h
    exact (cut p hp a b [] [] ha hb (by simp [Stop]) (by simp [Stop]) (by simpa using h)).1
  · intro h
    rw [← display_blur a, h, display_blur]

/-- **C97**: for types without `string`, `bytes[]` and `bytes0[]`, different values are printed differently. -/
theorem C97_distinct (p : ParamType) (hp : stringFree p = true) (hs : sharp p = true) (a b : Token) (ha : hasType a p = true)
    (hb : hasType b p = true) : a.display = b.display ↔ a = b := by
  rw [C97_values p hp a b ha hb, blur_sharp p hs a ha, blur_sharp p hs b hb]

/-- a string on its own is printed as it is -/
theorem C97_string (a b : Token) (ha : hasType a .string = true) (hb : hasType b .string = true) : a.display = b.display ↔ a = b := by
  cases a <;> simp only [hasType, Bool.false_eq_true] at ha
  cases b <;> simp only [hasType, Bool.false_eq_true] at hb
  simp [Token.display]

example : stringFree (.tuple [.array (.uint 256), .fixedArray .bytes 2, .tuple [.address, .bool]]) = true ∧
    sharp (.tuple [.array (.uint 256), .fixedArray .bytes 2, .tuple [.address, .bool]]) = true ∧
    hasType (.tuple [.array [.uint 1, .uint 16], .fixedArray [.bytes [], .bytes [1]], .tuple [.address ⟨List.replicate 20 0, rfl⟩,
      .bool true]]) (.tuple [.array (.uint 256), .fixedArray .bytes 2, .tuple [.address, .bool]]) = true := by decide

/-- `bytes[]`: no element, or one that is empty -/
theorem C97_counterexample_bytes : hasType (.array []) (.array .bytes) = true ∧ hasType (.array [.bytes []]) (.array .bytes) = true ∧
    (Token.array []).display = (Token.array [.bytes []]).display := by decide

/-- strings are not quoted: `string[]` and a tuple of two strings -/
theorem C97_counterexample_strings :
    hasType (.array [.string (lit "a"), .string (lit "b")]) (.array .string) = true ∧
    hasType (.array [.string (lit "a,b")]) (.array .string) = true ∧
    (Token.array [.string (lit "a"), .string (lit "b")]).display = (Token.array [.string (lit "a,b")]).display ∧
    hasType (.tuple [.string (lit "a,b"), .string (lit "c")]) (.tuple [.string, .string]) = true ∧
    hasType (.tuple [.string (lit "a"), .string (lit "b,c")]) (.tuple [.string, .string]) = true ∧
    (Token.tuple [.string (lit "a,b"), .string (lit "c")]).display = (Token.tuple [.string (lit "a"), .string (lit "b,c")]).display := by
  decide

/-- **C97** for the command line tool: if `decode params` prints the same for two inputs, and the types are without `string`, the
values in them are the same up to the exception above. -/
theorem C97_decode_params (prof : Profile) (texts : List Str) (ts : List ParamType) (hr : readAll texts = .ok ts)
    (hs : stringFreeAll ts = true) (x y out : Str) (data data' : Bytes) (hx : hexDecode x = .ok data) (hy : hexDecode y = .ok data')
    (hl : data.length < 2 ^ 63) (hl' : data'.length < 2 ^ 63) (h : cliDecodeParams prof texts x = .ok out)
    (h' : cliDecodeParams prof texts y = .ok out) :
    ∃ as bs, decode prof ts data = .ok as ∧ decode prof ts data' = .ok bs ∧ blurAll as = blurAll bs := by
  have fits : ∀ (ss : List Str) (us : List ParamType), readAll ss = .ok us → ParamType.usizeOkAll us = true := by
    intro ss
    induction ss with
    | nil => intro us h; cases h; rfl
    | cons s ss ih =>
      intro us h
      simp only [readAll, Res.bind_eq_ok] at h
      obtain ⟨t, h1, us', h2, h3⟩ := h
      cases h3
      rw [ParamType.usizeOkAll, read_fits h1, ih _ h2]; rfl
  have hu := fits _ _ hr
  have run : ∀ (z : Str) (d : Bytes), hexDecode z = .ok d → cliDecodeParams prof texts z = .ok out →
      ∃ cs, decode prof ts d = .ok cs ∧ out = join (lit "\n") (typedLines ts cs) := by
    intro z d hz hc
    simp only [cliDecodeParams, hr, hz, Res.ok_bind, Res.bind_eq_ok] at hc
    obtain ⟨cs, h1, h2⟩ := hc
    split at h2
    · cases h2
    · exact ⟨cs, h1, (Res.ok.inj h2).symm⟩
  obtain ⟨as, ha, ea⟩ := run x data hx h
  obtain ⟨bs, hb, eb⟩ := run y data' hy h'
  have ta := (C05_decoded_typed prof ts data as hu hl ha).2.1
  have tb := (C05_decoded_typed prof ts data' bs hu hl' hb).2.1
  exact ⟨as, bs, ha, hb, lines_cut ts hs as bs ta tb (ea.symm.trans eb)⟩

/-- the hypotheses: `decode params -t bool[]` with two elements -/
example : readAll [lit "bool[]"] = .ok [.array .bool] ∧ stringFreeAll [.array .bool] = true ∧
    cliDecodeParams .debug [lit "bool[]"] (hexEncode (word 32 ++ word 2 ++ word 1 ++ word 0)) = .ok (lit "bool[] [true,false]") := by
  decide +kernel

end Ethabi.Props

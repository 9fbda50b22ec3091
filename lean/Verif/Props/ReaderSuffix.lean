import Verif.Proofs.ReaderSuffix
import Verif.Props.Reader
/-! # C27 for texts that need not be ASCII -/
namespace Ethabi.Props
open Spec

/-- **C27, every text.** The element type of `s[]` and `s[k]` is read from the first `n` bytes of `s`, where `n` is the number of
characters of `s`; it panics if these end inside a character. -/
theorem C27_any_text (s : Str) (k : Nat) (hk : k < 2 ^ 64) :
    (∀ p q, s = p ++ q → (p.flatMap String.utf8EncodeChar).length = s.length →
      read (s ++ lit "[]") = (match read p with | .ok t => .ok (.array t) | .err e => .err e | .panic => .panic) ∧
      read (s ++ (s!"[{k}]").toList) =
        (match read p with | .ok t => .ok (.fixedArray t k) | .err e => .err e | .panic => .panic)) ∧
    ((∀ p q, s = p ++ q → (p.flatMap String.utf8EncodeChar).length ≠ s.length) →
      read (s ++ lit "[]") = .panic ∧ read (s ++ (s!"[{k}]").toList) = .panic) := by
  have e : (s!"[{k}]").toList = '[' :: (natText k ++ [']']) := by
    have hs : ∀ s : String, toString s = s := fun _ => rfl
    simp [natText, hs]
  rw [e, read_array_any, read_fixedArray_any s hk]
  simp only [← byteLen_eq]
  constructor
  · rintro p q hs hp
    rw [← hp, hs, List.append_assoc, List.append_assoc, strSlice_prefix, strSlice_prefix, Res.ok_bind, Res.ok_bind]
    cases read p <;> exact ⟨rfl, rfl⟩
  · intro h
    rw [strSlice_inside (length_le_byteLen s) h, strSlice_inside (length_le_byteLen s) h]
    exact ⟨rfl, rfl⟩

/-- **C27, false for other texts**: an accepted text whose array is refused -/
theorem C27_counterexample_accepted : read (lit "(é((bool)x)") = .ok (.tuple [.tuple [.tuple [.tuple [.bool]]]]) ∧
    read (lit "(é((bool)x)[]") = .err (.invalidName (lit "(é((bool)x")) := by
  decide +kernel

/-- both cases of `C27_any_text` occur: ten bytes of eleven, and an end inside the character -/
example : (lit "(é((bool)x)" = lit "(é((bool)x" ++ lit ")" ∧ ((lit "(é((bool)x").flatMap String.utf8EncodeChar).length = (lit "(é((bool)x)").length) ∧
    ∀ p q, lit "é" = p ++ q → (p.flatMap String.utf8EncodeChar).length ≠ (lit "é").length := by
  refine ⟨⟨by decide +kernel, by decide +kernel⟩, ?_⟩
  intro p q h
  rcases p with _ | ⟨c, _ | ⟨d, p⟩⟩
  · decide
  · have : c = 'é' := by cases h; rfl
    subst this
    decide +kernel
  · cases h

end Ethabi.Props

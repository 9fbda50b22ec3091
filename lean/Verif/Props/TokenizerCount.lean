import Verif.Proofs.TokenizerCount
import Verif.Spec.TokenText
import Verif.Proofs.TokenText
/-! # The work of the tokenizers -/
namespace Ethabi.Props
open Spec

/-- counting the work does not change the result -/
theorem C111_same (m : Tokenizer) (t : ParamType) (s : Str) : (tokenizeCount m t s).res = tokenize m t s :=
  TokenizerCount.res_tokenize m t s

/-- **C111.** The work of both tokenizers is at most in proportion to the bytes of the text times the arrays and tuples of the
type that lie inside one another, for every text, ASCII or not, whether it is read, refused or makes them panic. -/
theorem C111_work (m : Tokenizer) (t : ParamType) (s : Str) :
    (tokenizeCount m t s).work ≤ 3 * (nesting t + 1) * (bytesIn s + 1) := by
  have := TokenizerCount.work_tokenize m t s
  rwa [TokenText.byteLen_eq] at this

/-- **C111.** The nesting counts: `[[…[x]…]]` with `k` pairs of brackets has `2 k + 1` bytes and takes `2 k² + 5 k + 2` steps to
be read as a value of type `string[]…[]`. -/
theorem C111_reached (m : Tokenizer) (k : Nat) :
    nesting (stringArrays k) = k ∧ bytesIn (inBrackets k) = 2 * k + 1 ∧
    tokenize m (stringArrays k) (inBrackets k) = .ok (inArrays k) ∧
    (tokenizeCount m (stringArrays k) (inBrackets k)).work = 2 * (k * k) + 5 * k + 2 := by
  obtain ⟨h1, h2⟩ := TokenizerCount.nested_exact m k
  refine ⟨?_, ?_, by rw [← C111_same]; exact h1, h2⟩
  · clear h1 h2
    induction k with
    | zero => rfl
    | succ k ih => rw [stringArrays, nesting, ih]; omega
  · rw [← TokenText.byteLen_eq]; exact TokenizerCount.byteLen_bracketed k

/-- the numbers for a text that is read, one that is refused and one that makes the tokenizer panic -/
example : tokenize .lenient (.array (.array (.uint 8))) (lit "[[1,2],[30]]") =
      .ok (.array [.array [.uint 1, .uint 2], .array [.uint 30]]) ∧
    (tokenizeCount .lenient (.array (.array (.uint 8))) (lit "[[1,2],[30]]")).work = 56 ∧
    tokenize .lenient (.array (.uint 8)) (lit "[1,2,x]") = .err .other ∧
    (tokenizeCount .lenient (.array (.uint 8)) (lit "[1,2,x]")).work = 24 ∧
    tokenize .strict (.array .string) (lit "[é,é]") = .panic ∧
    (tokenizeCount .strict (.array .string) (lit "[é,é]")).work = 12 ∧ nesting (.array (.array (.uint 8))) = 2 := by
  decide +kernel

end Ethabi.Props

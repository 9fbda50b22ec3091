import Verif.Proofs.TokenText
import Verif.Props.Tokenizer
/-!
# C81: exactly which texts the tokenizers accept, and as which values

`Spec/TokenText.lean` says which value a text denotes, for every type and every text, ASCII or not.
-/
namespace Ethabi.Props
open Spec TokenText

/-- **C81**, success. -/
theorem C81_accepts_exactly (m : Tokenizer) (p : ParamType) (s : Str) (t : Token) :
    tokenize m p s = .ok t ↔ denotes m p s t := tokenize_iff m p s t

/-- **C81**, panic: exactly if on the way through the list a cut falls inside a character. -/
theorem C81_panics_exactly (m : Tokenizer) (p : ParamType) (s : Str) : tokenize m p s = .panic ↔ breaks m p s :=
  tokenize_panic_iff m p s

/-- **C81**: a text denotes at most one value of a type. -/
theorem C81_unique (m : Tokenizer) (p : ParamType) (s : Str) (t t' : Token) (h : denotes m p s t) (h' : denotes m p s t') :
    t = t' := by
  rw [← C81_accepts_exactly] at h h'
  rw [h] at h'
  exact Res.ok.inj h'

/-- **C81**: what denotes no value and does not panic is an error. -/
theorem C81_refuses_exactly (m : Tokenizer) (p : ParamType) (s : Str) :
    (∃ e, tokenize m p s = .err e) ↔ (∀ t, ¬ denotes m p s t) ∧ ¬ breaks m p s := by
  simp only [← C81_accepts_exactly, ← C81_panics_exactly]
  cases tokenize m p s <;> simp

/-- Every ASCII list text is cut into the texts between its cuts: with ASCII text positions and bytes agree. -/
theorem C81_ascii_parts (s : Str) (h : isAscii s = true) (a b : Nat) (u : Str) (hab : a ≤ b) (hb : b ≤ s.length) :
    partOf s a b u ↔ u = (s.take b).drop a := by
  rw [← strSlice_iff, strSlice_ascii ((ascii_iff s).1 h) hab hb, Res.ok.injEq]
  exact eq_comm

/-- `[a,[b],"c,d"]` is cut at 2, 6 and 12 -/
example : cuts '[' ']' (lit "[a,[b],\"c,d\"]") = [2, 6, 12] ∧
    spans 1 (cuts '[' ']' (lit "[a,[b],\"c,d\"]")) = [(1, 2), (3, 6), (7, 12)] ∧
    sound '[' ']' (lit "[a,[b],\"c,d\"]") 13 = true ∧ quoted (lit "[a,[b],\"c,d\"]") = false := by decide +kernel

/-- a text that is accepted, one that panics, one that is refused -/
example (m : Tokenizer) :
    denotes m (.fixedArray (.array .bytes) 2) (lit "[[0a,ff],[]]") (.fixedArray [.array [.bytes [10], .bytes [255]], .array []]) ∧
    breaks m (.array .string) (lit "[é,a]") ∧
    (∀ t, ¬ denotes m (.array .bool) (lit "[1,]") t) ∧ ¬ breaks m (.array .bool) (lit "[1,]") := by
  refine ⟨?_, ?_, ?_⟩
  · rw [← C81_accepts_exactly]; cases m <;> decide +kernel
  · rw [← C81_panics_exactly]; cases m <;> decide +kernel
  · rw [← C81_refuses_exactly]
    exact ⟨.invalidData, by cases m <;> decide +kernel⟩

/-- **C48**, exactly: tokenizing panics if and only if `breaks`. -/
theorem C48_panics_exactly (m : Tokenizer) (p : ParamType) (s : Str) : tokenize m p s = .panic ↔ breaks m p s :=
  C81_panics_exactly m p s

/-- **C49**, exactly, for every text: the elements are the values of the parts, which `listOf` describes. -/
theorem C49_exactly (m : Tokenizer) (p : ParamType) (s : Str) (t : Token) :
    tokenize m (.array p) s = .ok t ↔ ∃ us ts, listOf '[' ']' s us ∧
      List.Forall₂ (fun u t => tokenize m p u = .ok t) us ts ∧ t = .array ts := by
  rw [C81_accepts_exactly, denotes]
  simp only [C81_accepts_exactly]

/-- **C50**, exactly, for every text: at most as many parts as members, each part a value of its member's type. -/
theorem C50_exactly (m : Tokenizer) (ps : List ParamType) (s : Str) (t : Token) :
    tokenize m (.tuple ps) s = .ok t ↔ ∃ us ts, listOf '(' ')' s us ∧ us.length ≤ ps.length ∧
      List.Forall₂ (fun x t => tokenize m x.1 x.2 = .ok t) (ps.zip us) ts ∧ t = .tuple ts := by
  rw [C81_accepts_exactly, denotes]
  simp only [← tokenizeEach_iff, and_assoc]

end Ethabi.Props

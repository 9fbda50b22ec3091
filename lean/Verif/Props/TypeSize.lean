import Verif.Proofs.TypeSize
import Verif.Props.AnyText
import Verif.Props.Reader
/-! # Property C95: how large the types are that are read -/
namespace Ethabi.Props
open Spec

/-- **C95.** A type read from an ASCII text holds at most as many types as the text has characters. -/
theorem C95_size (s : Str) (ha : s.all (fun c => decide (c.toNat < 128)) = true) (t : ParamType) (h : read s = .ok t) :
    nodes t ≤ s.length := TypeSize.text_nodes ((C92_accepts_exactly s ha t).1 h)

/-- **C95.** Tuples with members are nested at most three deep in a type read from an ASCII text. -/
theorem C95_nesting (s : Str) (ha : s.all (fun c => decide (c.toNat < 128)) = true) (t : ParamType) (h : read s = .ok t) :
    levels t ≤ 3 := TypeSize.text_levels ((C92_accepts_exactly s ha t).1 h)

/-- **C95**, a consequence: a type with tuples nested four deep is not read back from its own text. -/
theorem C95_text_not_read_back (t : ParamType) (ht : 4 ≤ levels t) : read (write t) ≠ .ok t := fun h =>
  absurd (C95_nesting (write t) (C26_type_texts t).1 t h) (by omega)

/-- three levels are reached -/
theorem C95_three_levels : read (lit "(((bool)))") = .ok (.tuple [.tuple [.tuple [.bool]]]) ∧
    levels (.tuple [.tuple [.tuple [.bool]]]) = 3 ∧
    read (lit "((((bool))))") = .ok (.tuple [.tuple [.tuple [.bool]]]) := by decide +kernel

/-- **C95**, false for other texts: four levels. -/
theorem C95_counterexample_unicode : ∃ t, read (lit "(é((bool)x)") = .ok t ∧ levels t = 4 :=
  ⟨_, C92_counterexample_unicode.1, by decide⟩

example : read (lit "(int,(int,(int),),)") = .ok (.tuple [.int 256, .tuple [.int 256, .tuple [.int 256]]]) ∧
    nodes (.tuple [.int 256, .tuple [.int 256, .tuple [.int 256]]]) = 6 := by decide +kernel

end Ethabi.Props

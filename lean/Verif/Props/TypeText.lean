import Verif.Proofs.TypeText
/-! # Property C76: exactly which type strings are accepted -/
namespace Ethabi.Props
open Spec

/-- **C76.** On ASCII strings with at most one `(` and at most one `)`, `Reader::read` accepts exactly the
texts of the grammar `FlatText` and returns the type the grammar gives them.
Strings with nested tuples: `C92_accepts_exactly`. -/
theorem C76_accepts_exactly (s : Str) (ha : s.all (fun c => decide (c.toNat < 128)) = true)
    (h1 : s.count '(' ≤ 1) (h2 : s.count ')' ≤ 1) (t : ParamType) : read s = .ok t ↔ FlatText s t :=
  (flatOutcome _ s rfl (ascii_of_all ha) h1 h2).1 t

/-- **C76.** On the same strings `read` panics exactly if a suffix `]` or `5]` without its `[` starts the
text, or starts a member of the tuple after well-formed members. -/
theorem C76_panics_exactly (s : Str) (ha : s.all (fun c => decide (c.toNat < 128)) = true)
    (h1 : s.count '(' ≤ 1) (h2 : s.count ')' ≤ 1) : read s = .panic ↔ FlatUnopened s :=
  (flatOutcome _ s rfl (ascii_of_all ha) h1 h2).2

/-- **C76** without any `)`: exactly the elementary names with array suffixes are accepted. -/
theorem C76_without_tuples (s : Str) (ha : s.all (fun c => decide (c.toNat < 128)) = true) (h : ')' ∉ s) :
    (∀ t, read s = .ok t ↔ TypeText s t) ∧ (read s = .panic ↔ Unopened s) :=
  textOutcome _ s rfl (ascii_of_all ha) h

/-- **C76** A type text has one reading. -/
theorem C76_unique (s : Str) (ha : s.all (fun c => decide (c.toNat < 128)) = true)
    (h1 : s.count '(' ≤ 1) (h2 : s.count ')' ≤ 1) (t u : ParamType) (ht : FlatText s t) (hu : FlatText s u) : t = u := by
  have e1 := (C76_accepts_exactly s ha h1 h2 t).2 ht
  rw [(C76_accepts_exactly s ha h1 h2 u).2 hu] at e1
  exact (Res.ok.inj e1).symm

/-- **C76** for every string: the only errors are `ParseInt` and `InvalidName`. -/
theorem C76_errors (s : Str) (e : Err) (h : read s = .err e) : e = .parseInt ∨ ∃ n, e = .invalidName n :=
  onlyNames_read s e h

/-- the aliases and a leading `+`: `(uint,int,,bytes+4[007])[]` is `(uint256,int256,bytes4[7])[]` -/
example : FlatText (lit "(uint,int,,bytes+4[007])[]")
    (.array (.tuple [.uint 256, .int 256, .fixedArray (.fixedBytes 4) 7])) :=
  .array (s := lit "(uint,int,,bytes+4[007])")
    (.tuple (ps := [lit "uint", lit "int", [], lit "bytes+4[007]"])
      (.cons (.elementary .uint) (.cons (.elementary .int) (.skip (.cons
        (.fixedArray (s := lit "bytes+4") (d := lit "007") (n := 7)
          (.elementary (.bytesN (d := lit "+4") (n := 4)
            ⟨lit "4", Or.inr rfl, by decide, by decide, by decide, by decide⟩))
          ⟨lit "007", Or.inl rfl, by decide, by decide, by decide, by decide⟩) .nil)))))

example : read (lit "(uint,int,,bytes+4[007])[]") =
    .ok (.array (.tuple [.uint 256, .int 256, .fixedArray (.fixedBytes 4) 7])) := by decide +kernel

/-- a panic inside a tuple -/
example : FlatUnopened (lit "(bool,,7][],x)[2]") :=
  .fixedArray (s := lit "(bool,,7][],x)") (d := lit "2") (n := 2)
    (.tuple (ps := [lit "bool", []]) (p := lit "7][]") (qs := [lit "x"])
      (.cons (.elementary .bool) (.skip .nil))
      (.array (s := lit "7]") (.number (d := lit "7") (n := 7)
        ⟨lit "7", Or.inl rfl, by decide, by decide, by decide, by decide⟩))
      (by decide))
    ⟨lit "2", Or.inl rfl, by decide, by decide, by decide, by decide⟩

/-- with a second `(` texts outside the grammar are accepted: an unbalanced one -/
theorem C76_counterexample_unbalanced : read (lit "((bool)") = .ok (.tuple [.tuple [.bool]]) := by decide +kernel

end Ethabi.Props

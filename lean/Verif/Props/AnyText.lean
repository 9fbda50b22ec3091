import Verif.Proofs.AnyText
/-! # Property C92: exactly which ASCII type strings are accepted, however they are parenthesised -/
namespace Ethabi.Props
open Spec Spec.AnyText

/-- **C92.** On every ASCII string `Reader::read` accepts exactly the texts of `Text` and returns the type given there. -/
theorem C92_accepts_exactly (s : Str) (ha : s.all (fun c => decide (c.toNat < 128)) = true) (t : ParamType) :
    read s = .ok t ↔ Text s t := (AnyText.anyOutcome _ s rfl (ascii_of_all ha)).1 t

/-- **C92.** On every ASCII string it panics exactly on the texts of `Crash`. -/
theorem C92_panics_exactly (s : Str) (ha : s.all (fun c => decide (c.toNat < 128)) = true) :
    read s = .panic ↔ Crash s := (AnyText.anyOutcome _ s rfl (ascii_of_all ha)).2

/-- **C92.** On the other ASCII strings it returns an error. -/
theorem C92_refuses_exactly (s : Str) (ha : s.all (fun c => decide (c.toNat < 128)) = true) :
    (∃ e, read s = .err e) ↔ (∀ t, ¬ Text s t) ∧ ¬ Crash s := by
  have h1 := C92_accepts_exactly s ha
  have h2 := C92_panics_exactly s ha
  rw [← h2]
  simp only [← h1]
  cases read s <;> simp

/-- **C92** for a tuple's text cut at its parentheses and commas. -/
theorem C92_tuple (cs : List Cut) (h : Proper cs) :
    (∀ t, read ("(".toList ++ cutsText cs) = .ok t ↔
      ∃ ts, Understood (.inside 0 (some [])) [] cs (some ts) ∧ t = .tuple ts) ∧
    (read ("(".toList ++ cutsText cs) = .panic ↔ Understood (.inside 0 (some [])) [] cs none) := AnyText.read_cuts h

/-- **C92** Every ASCII text that starts with `(` and ends with `)` has exactly one such cut. -/
theorem C92_cuts (r : Str) (ha : r.all (fun c => decide (c.toNat < 128)) = true) (h : r.getLast? = some ')') :
    ∃ cs, (r = cutsText cs ∧ Proper cs) ∧ ∀ cs', r = cutsText cs' ∧ Proper cs' → cs' = cs := by
  obtain ⟨cs, h1, h2⟩ := AnyText.proper_exist (ascii_of_all ha) h
  refine ⟨cs, ⟨h1, h2⟩, ?_⟩
  rintro cs' ⟨h3, h4⟩
  exact (AnyText.cuts_unique h2.1 h4.1 (by rw [← h1, h3])).symm

/-- **C92** A text has one reading. -/
theorem C92_unique (s : Str) (ha : s.all (fun c => decide (c.toNat < 128)) = true) (t u : ParamType) (ht : Text s t)
    (hu : Text s u) : t = u := by
  have e1 := (C92_accepts_exactly s ha t).2 ht
  rw [(C92_accepts_exactly s ha u).2 hu] at e1
  exact (Res.ok.inj e1).symm

private def numberOk {d : Str} {n : Nat} (h : d ≠ [] ∧ (∀ c ∈ d, c.isDigit = true) ∧ n = Nat.ofDigitChars 10 d 0 ∧ n < 2 ^ 64) :
    numberText d n := ⟨d, Or.inl rfl, h⟩

/-- The cuts of `((bool,int8),(address,(string)),uint8)` -/
def leftoverCuts : List Cut := [⟨[], .opening⟩, ⟨lit "bool", .comma⟩, ⟨lit "int8", .closing⟩, ⟨[], .comma⟩, ⟨[], .opening⟩,
  ⟨lit "address", .comma⟩, ⟨[], .opening⟩, ⟨lit "string", .closing⟩, ⟨[], .closing⟩, ⟨[], .comma⟩, ⟨lit "uint8", .closing⟩]

example : "(".toList ++ cutsText leftoverCuts = lit "((bool,int8),(address,(string)),uint8)" := by decide +kernel

theorem leftover_proper : Proper leftoverCuts := by
  refine ⟨?_, rfl⟩
  unfold NoDelimiter
  decide

/-- what the cuts mean: `bool`, kept while the first list was read, becomes a member of the second one -/
theorem leftover_understood : Understood (.inside 0 (some [])) [] leftoverCuts
    (some [.tuple [.bool, .int 8], .tuple [.bool, .address, .tuple [.string]], .uint 8]) :=
  have h8 : numberText (lit "8") 8 := numberOk (by decide)
  .open (.keep (us := []) (.elementary .bool) rfl (.group (ps := [lit "bool"]) (by decide) (by decide)
    (.tuple (ps := [lit "bool", lit "int8"]) (.cons (.elementary .bool) (.cons (.elementary (.intN h8)) .nil)))
    (o := some [.tuple [.bool, .address, .tuple [.string]], .uint 8])
    (.skip (.open (.keep (us := [.bool]) (.elementary .address) rfl (.open
      (.deepGroup (n := 0) (us := [.bool, .address]) (ps := []) (by decide) (by decide)
        (.tuple (ps := [lit "string"]) (.cons (.elementary .string) .nil)) rfl (o := some [.uint 8])
        (.close (n := 1) (.skip (.last (o := some []) (.elementary (.uintN h8)) .done))))))))))

/-- **C92**, a consequence: in `((bool,int8),(address,(string)),uint8)` the member `bool` of the first inner tuple is
also put into the second one. -/
theorem C92_counterexample_leftover : read (lit "((bool,int8),(address,(string)),uint8)") =
    .ok (.tuple [.tuple [.bool, .int 8], .tuple [.bool, .address, .tuple [.string]], .uint 8]) :=
  ((C92_tuple leftoverCuts leftover_proper).1 _).2 ⟨_, leftover_understood, rfl⟩

/-- **C92**, a consequence: text outside the tuple's parentheses is accepted if a doubly parenthesised list follows. -/
theorem C92_counterexample_outside :
    read (lit "(bool)x,y(z(int8))") = .ok (.tuple [.bool, .tuple [.int 8]]) := by decide +kernel

/-- a panic behind a closed tuple -/
example : Crash (lit "(bool)((5],int8))[]") ∧ read (lit "(bool)((5],int8))[]") = .panic :=
  ⟨.array (s := lit "(bool)((5],int8))") (.tuple (cs := [⟨lit "bool", .closing⟩, ⟨[], .opening⟩, ⟨[], .opening⟩,
      ⟨lit "5]", .comma⟩, ⟨lit "int8", .closing⟩, ⟨[], .closing⟩])
    ⟨by unfold NoDelimiter; decide, rfl⟩
    (.last (o := none) (.elementary .bool) (.reopen (.again (.badMember
      (.number (d := lit "5") (n := 5) (numberOk (by decide)))))))), by decide +kernel⟩

/-- Outside ASCII the rules do not hold: positions count characters and are used as byte positions, and a character of
two bytes moves the slices. -/
theorem C92_counterexample_unicode :
    read (lit "(é((bool)x)") = .ok (.tuple [.tuple [.tuple [.tuple [.bool]]]]) ∧
    read (lit "(e((bool)x)") = .err (.invalidName (lit "(bool)x")) := by decide +kernel

end Ethabi.Props

import Verif.Proofs.AnyRefused
/-! # C93 continued: the error for every ASCII type text, with or without tuples -/
namespace Ethabi.Props
open Spec Spec.AnyText

/-- **C93**, all ASCII type texts: the error is that of `RefusedAny`. -/
theorem C93_any_type_texts (s : Str) (ha : s.all (fun c => decide (c.toNat < 128)) = true) (e : Err) :
    read s = .err e ↔ RefusedAny s e := AnyRefused.read_err _ s e rfl (ascii_of_all ha)

/-- **C93**, the text of a tuple cut at its parentheses and commas: reading stops at the first refused part. -/
theorem C93_tuple_texts (cs : List Cut) (h : Proper cs) (ha : (cutsText cs).all (fun c => decide (c.toNat < 128)) = true) (e : Err) :
    read ("(".toList ++ cutsText cs) = .err e ↔ Stops ("(".toList ++ cutsText cs) (.inside 0 "(".toList) cs e := by
  have ha' : ascii ("(".toList ++ cutsText cs) := by
    intro c hc
    rcases List.mem_append.1 hc with hc | hc
    · have : c = '(' := by simpa using hc
      subst this; decide
    · exact ascii_of_all ha c hc
  exact AnyRefused.read_tuple h ha' (fun q e hq _ => AnyRefused.read_err _ q e rfl hq) e

/-- **C93** A refused ASCII text has one error. -/
theorem C93_one_error (s : Str) (ha : s.all (fun c => decide (c.toNat < 128)) = true) (e f : Err) (he : RefusedAny s e)
    (hf : RefusedAny s f) : e = f := by
  have h1 := (C93_any_type_texts s ha e).2 he
  rw [(C93_any_type_texts s ha f).2 hf] at h1
  exact (Res.err.inj h1).symm

/-- **C93** Every ASCII text is accepted, refused or panics, and only one of them. -/
theorem C93_trichotomy (s : Str) (ha : s.all (fun c => decide (c.toNat < 128)) = true) :
    ((∃ t, Text s t) ∨ (∃ e, RefusedAny s e) ∨ Crash s) ∧ ¬ ((∃ t, Text s t) ∧ ∃ e, RefusedAny s e) ∧
    ¬ ((∃ t, Text s t) ∧ Crash s) ∧ ¬ ((∃ e, RefusedAny s e) ∧ Crash s) := by
  have h1 := (AnyText.anyOutcome _ s rfl (ascii_of_all ha)).1
  have h2 := (AnyText.anyOutcome _ s rfl (ascii_of_all ha)).2
  have h3 := C93_any_type_texts s ha
  simp only [← h1, ← h2, ← h3]
  cases read s <;> simp

private theorem notKnown {s : Str} (h : (s.getLast? ≠ some ']' ∧ s.getLast? ≠ some ')') ∧ s ∉ named ∧ ∀ p ∈ numbered, ¬ p <+: s) :
    RefusedAny s (.invalidName s) := .name h.1 h.2.1 h.2.2

/-- the cuts of `((bool,string)y,z)` -/
def refusedCuts : List Cut := [⟨[], .opening⟩, ⟨lit "bool", .comma⟩, ⟨lit "string", .closing⟩, ⟨lit "y", .comma⟩, ⟨lit "z", .closing⟩]

example : "(".toList ++ cutsText refusedCuts = lit "((bool,string)y,z)" := by decide +kernel

theorem refused_proper : Proper refusedCuts := by
  refine ⟨?_, rfl⟩
  unfold NoDelimiter
  decide

/-- In `((bool,string)y,z)` what is refused is `(bool,string)y`. -/
theorem refused_stops : Stops ("(".toList ++ cutsText refusedCuts) (.inside 0 "(".toList) refusedCuts
    (.invalidName (lit "(bool,string)y")) :=
  .open (.member (Or.inr ⟨_, .elementary .bool⟩) (.badGroup (by decide) (notKnown (by decide +kernel))))

example : read (lit "((bool,string)y,z)") = .err (.invalidName (lit "(bool,string)y")) :=
  (C93_tuple_texts refusedCuts refused_proper (by decide) _).2 refused_stops

/-- the error is that of the first refused member -/
example : read (lit "(bool,foo,bar)") = .err (.invalidName (lit "foo")) := by decide +kernel
/-- a width that is no number, in an array of tuples -/
example : read (lit "(bool,(uintx,string))[2][]") = .err .parseInt := by decide +kernel
/-- one closing parenthesis too many: the whole text -/
example : read (lit "(bool))") = .err (.invalidName (lit "(bool))")) := by decide +kernel
/-- also in an array: the text without the suffix -/
example : read (lit "(bool))[3]") = .err (.invalidName (lit "(bool))")) := by decide +kernel
/-- the tuple is not opened -/
example : read (lit "bool)") = .err (.invalidName (lit "bool)")) := by decide +kernel
/-- what is behind the tuple is read with its parenthesis -/
example : read (lit "(bool)x(string)") = .err (.invalidName (lit "x(string")) := by decide +kernel
/-- a comma at the start of it is dropped, a later one is kept -/
example : read (lit "(bool),x,y(string)") = .err (.invalidName (lit "x,y(string")) := by decide +kernel
/-- not all refused: the text before an inner parenthesis is ignored -/
example : read (lit "(foo(bool))") = .ok (.tuple [.tuple [.bool]]) := by decide +kernel

end Ethabi.Props

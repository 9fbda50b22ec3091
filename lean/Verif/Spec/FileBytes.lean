import Verif.Spec.Files
/-! # Specification: files of bytes -/
namespace Ethabi.JsonGrammar

/-- the bytes are the UTF-8 encoding (of Lean's library) of the text -/
def Encodes (s : Str) (bs : Bytes) : Prop := bs = s.flatMap String.utf8EncodeChar

/-- the bytes are those of a text of the value -/
def Holds (fits : Str → Bool) (j : Json) (bs : Bytes) : Prop := ∃ s, Encodes s bs ∧ Text fits j s

/-- `trees` shows the files as JSON values: the same files exist, those that are JSON in UTF-8 have their value, the others have none -/
def RendersBytes (fits : Str → Bool) (file : Str → Option Bytes) (trees : Str → Option (Option Json)) : Prop :=
  ∀ path, (file path = none ∧ trees path = none) ∨
    (∃ bs j, file path = some bs ∧ trees path = some (some j) ∧ Holds fits j bs) ∨
    (∃ bs, file path = some bs ∧ trees path = some none ∧ ∀ j, ¬ Holds fits j bs)

/-- The bytes start like an array whose first elements are `good` and whose next one is `bad`; what follows is free and need not be
UTF-8. -/
def BreaksOffBytes (fits : Str → Bool) (good bad : Json → Prop) (bs : Bytes) : Prop :=
  ∃ w js t j a v front rest, Blank w ∧ Begun fits js t ∧ Blank a ∧ Value fits 126 j v ∧
    Encodes (w ++ '[' :: (t ++ (a ++ v))) front ∧ bs = front ++ rest ∧ (∀ x ∈ js, good x) ∧ bad j

end Ethabi.JsonGrammar

import Verif.Spec.JsonText
import Verif.Model.CliExecute
/-! # Specification: files of JSON texts -/
namespace Ethabi.JsonGrammar

/-- `trees` shows the files as JSON values: the same files exist, those that are JSON have their value, the others have none -/
def Renders (fits : Str → Bool) (file : Str → Option Str) (trees : Str → Option (Option Json)) : Prop :=
  ∀ path, (file path = none ∧ trees path = none) ∨
    (∃ s j, file path = some s ∧ trees path = some (some j) ∧ Text fits j s) ∨
    (∃ s, file path = some s ∧ trees path = some none ∧ ∀ j, ¬ Text fits j s)

/-- the text starts like an array whose first elements are `good` and whose next one is `bad`; what follows is free -/
def BreaksOff (fits : Str → Bool) (good bad : Json → Prop) (s : Str) : Prop :=
  ∃ w js t j a v r, Blank w ∧ Begun fits js t ∧ Blank a ∧ Value fits 126 j v ∧ s = w ++ '[' :: (t ++ (a ++ (v ++ r))) ∧
    (∀ x ∈ js, good x) ∧ bad j

/-- the command reads the file -/
def Opens : Command → Str → Prop
  | .encodeFunction p _ _ _, path => p = path
  | .decodeFunction p _ _, path => p = path
  | .decodeLog p _ _ _, path => p = path
  | .encodeParams _ _, _ => False
  | .decodeParams _ _, _ => False

end Ethabi.JsonGrammar

import Verif.Model.Json
/-!
# The type texts of an ABI
-/
namespace Ethabi.Spec

/-- the text stands somewhere in the JSON as the value of a key `type` -/
inductive HasTypeText (s : Str) : Json → Prop where
  | here (fs : List (Str × Json)) (h : ("type".toList, .str s) ∈ fs) : HasTypeText s (.obj fs)
  | inside (fs : List (Str × Json)) (k : Str) (x : Json) (h : (k, x) ∈ fs) (hx : HasTypeText s x) : HasTypeText s (.obj fs)
  | element (xs : List Json) (x : Json) (h : x ∈ xs) (hx : HasTypeText s x) : HasTypeText s (.arr xs)

end Ethabi.Spec

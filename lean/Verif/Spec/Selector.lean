import Verif.Spec.AbiJson
import Verif.Spec.TypeText
/-!
# Signatures of ABI JSON

The text whose hash identifies a function or an event, read off the JSON itself: the type strings, with `int` and `uint`
written out and `tuple` replaced by the parenthesised types of its components.
-/
namespace Ethabi.Spec

/-- array suffixes: `none` is `[]`, `some k` is `[k]` -/
def suffixText : List (Option Nat) → Str
  | [] => []
  | none :: ds => "[]".toList ++ suffixText ds
  | some k :: ds => "[".toList ++ (toString k).toList ++ "]".toList ++ suffixText ds

/-- the sizes are machine integers -/
def SizesFit (ds : List (Option Nat)) : Prop := ∀ k, some k ∈ ds → k < 2 ^ 64

/-- an elementary type as written in ABI JSON and its name in signatures -/
inductive CanonicalName : Str → Str → Prop where
  | word (w : String) : w ∈ ["address", "bytes", "bool", "string"] → CanonicalName w.toList w.toList
  | int : CanonicalName "int".toList "int256".toList
  | uint : CanonicalName "uint".toList "uint256".toList
  | sized (w : String) (n : Nat) : w ∈ ["int", "uint", "bytes"] → n < 2 ^ 64 →
      CanonicalName (w.toList ++ (toString n).toList) (w.toList ++ (toString n).toList)

mutual
/-- the text of a parameter's type in a signature, from the entries of its object -/
inductive CanonicalType : List (Str × Json) → Str → Prop where
  | plain {fs : List (Str × Json)} {b c : Str} (ds : List (Option Nat)) : CanonicalName b c → SizesFit ds →
      Once "type" fs (.str (b ++ suffixText ds)) → Absent "components" fs → CanonicalType fs (c ++ suffixText ds)
  | tuple {fs : List (Str × Json)} {xs : List Json} {cs : List Str} (ds : List (Option Nat)) : SizesFit ds →
      Once "type" fs (.str ("tuple".toList ++ suffixText ds)) → Once "components" fs (.arr xs) → CanonicalMembers xs cs →
      CanonicalType fs ("(".toList ++ commaSeparated cs ++ ")".toList ++ suffixText ds)
/-- the components of a tuple; names and internal types are optional -/
inductive CanonicalMembers : List Json → List Str → Prop where
  | nil : CanonicalMembers [] []
  | cons {fs : List (Str × Json)} {xs : List Json} {c : Str} {cs : List Str} (name internal : Option Str) :
      OptionalString "name" fs name → OptionalString "internalType" fs internal → CanonicalType fs c →
      CanonicalMembers xs cs → CanonicalMembers (.obj fs :: xs) (c :: cs)
end

/-- the parameters of a function: an array of objects with a name and a type -/
inductive CanonicalParams : Json → List Str → Prop where
  | nil : CanonicalParams (.arr []) []
  | cons {fs : List (Str × Json)} {xs : List Json} {c : Str} {cs : List Str} (name : Str) (internal : Option Str) :
      Once "name" fs (.str name) → OptionalString "internalType" fs internal → CanonicalType fs c →
      CanonicalParams (.arr xs) cs → CanonicalParams (.arr (.obj fs :: xs)) (c :: cs)

/-- the parameters of an event -/
inductive CanonicalEventParams : Json → List Str → Prop where
  | nil : CanonicalEventParams (.arr []) []
  | cons {fs : List (Str × Json)} {xs : List Json} {c : Str} {cs : List Str} (name : Str) (indexed : Bool) :
      Once "name" fs (.str name) → DefaultBool "indexed" fs false indexed → CanonicalType fs c →
      CanonicalEventParams (.arr xs) cs → CanonicalEventParams (.arr (.obj fs :: xs)) (c :: cs)

/-- the signature text, in UTF-8 -/
def signatureBytes (name : Str) (cs : List Str) : Bytes :=
  (name ++ "(".toList ++ commaSeparated cs ++ ")".toList).flatMap String.utf8EncodeChar

end Ethabi.Spec

import Verif.Spec.TypeText
import Verif.Model.Basic
/-!
# Why a type text without tuples is refused

The suffixes are looked at from the last to the first, then the name in front of them.
-/
namespace Ethabi.Spec

/-- no decimal number below 2^64 -/
def notNumber (d : Str) : Prop := ∀ n, ¬ numberText d n

/-- neither a suffix nor a tuple at the end -/
def noSuffix (s : Str) : Prop := s.getLast? ≠ some ']' ∧ s.getLast? ≠ some ')'

/-- the names that are followed by a number -/
def numbered : List Str := ["int".toList, "uint".toList, "bytes".toList]

/-- the other names -/
def named : List Str := ["address".toList, "bool".toList, "string".toList, "tuple".toList]

inductive Refused : Str → Err → Prop where
  /-- the last suffix holds something that is no number -/
  | size {s d : Str} : '[' ∉ d → d ≠ [] → notNumber d → Refused (s ++ "[".toList ++ d ++ "]".toList) .parseInt
  /-- also if it is not opened -/
  | unopened {d : Str} : '[' ∉ d → d ≠ [] → notNumber d → Refused (d ++ "]".toList) .parseInt
  | array {s : Str} {e : Err} : Refused s e → Refused (s ++ "[]".toList) e
  | fixedArray {s d : Str} {n : Nat} {e : Err} : Refused s e → numberText d n →
      Refused (s ++ "[".toList ++ d ++ "]".toList) e
  /-- a width that is no number -/
  | width {p d : Str} : p ∈ numbered → d ≠ [] → noSuffix (p ++ d) → notNumber d → Refused (p ++ d) .parseInt
  /-- a name that is not known is given back -/
  | name {s : Str} : noSuffix s → s ∉ named → (∀ p ∈ numbered, ¬ p <+: s) → Refused s (.invalidName s)

end Ethabi.Spec

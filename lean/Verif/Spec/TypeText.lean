import Verif.Model.Types
/-!
# Type texts without tuples

The texts `Reader::read` accepts, as a grammar.
-/
namespace Ethabi.Spec

/-- decimal digits, after an optional `+`, of a number below 2^64 -/
def numberText (d : Str) (n : Nat) : Prop :=
  ∃ ds : Str, (d = ds ∨ d = '+' :: ds) ∧ ds ≠ [] ∧ (∀ c ∈ ds, c.isDigit = true) ∧ n = Nat.ofDigitChars 10 ds 0 ∧ n < 2 ^ 64

/-- names of elementary types -/
inductive Elementary : Str → ParamType → Prop where
  | address : Elementary "address".toList .address
  | bytes : Elementary "bytes".toList .bytes
  | bool : Elementary "bool".toList .bool
  | string : Elementary "string".toList .string
  | int : Elementary "int".toList (.int 256)
  | uint : Elementary "uint".toList (.uint 256)
  | tuple : Elementary "tuple".toList (.tuple [])
  | intN {d : Str} {n : Nat} : numberText d n → Elementary ("int".toList ++ d) (.int n)
  | uintN {d : Str} {n : Nat} : numberText d n → Elementary ("uint".toList ++ d) (.uint n)
  | bytesN {d : Str} {n : Nat} : numberText d n → Elementary ("bytes".toList ++ d) (.fixedBytes n)

/-- elementary types with array suffixes -/
inductive TypeText : Str → ParamType → Prop where
  | elementary {s : Str} {t : ParamType} : Elementary s t → TypeText s t
  | array {s : Str} {t : ParamType} : TypeText s t → TypeText (s ++ "[]".toList) (.array t)
  | fixedArray {s d : Str} {t : ParamType} {n : Nat} : TypeText s t → numberText d n →
      TypeText (s ++ "[".toList ++ d ++ "]".toList) (.fixedArray t n)

/-- an array suffix without its opening bracket at the start of the text, followed by array suffixes -/
inductive Unopened : Str → Prop where
  | bare : Unopened "]".toList
  | number {d : Str} {n : Nat} : numberText d n → Unopened (d ++ "]".toList)
  | array {s : Str} : Unopened s → Unopened (s ++ "[]".toList)
  | fixedArray {s d : Str} {n : Nat} : Unopened s → numberText d n → Unopened (s ++ "[".toList ++ d ++ "]".toList)

/-- pieces of a text separated by commas -/
def commaSeparated (ps : List Str) : Str := List.intercalate ",".toList ps

/-- the members of a tuple: empty pieces stand for nothing -/
inductive Members : List Str → List ParamType → Prop where
  | nil : Members [] []
  | skip {ps : List Str} {ts : List ParamType} : Members ps ts → Members ([] :: ps) ts
  | cons {p : Str} {ps : List Str} {t : ParamType} {ts : List ParamType} : TypeText p t → Members ps ts →
      Members (p :: ps) (t :: ts)

/-- elementary types and tuples of them, with array suffixes inside and outside the tuple -/
inductive FlatText : Str → ParamType → Prop where
  | elementary {s : Str} {t : ParamType} : Elementary s t → FlatText s t
  | tuple {ps : List Str} {ts : List ParamType} : Members ps ts →
      FlatText ("(".toList ++ commaSeparated ps ++ ")".toList) (.tuple ts)
  | array {s : Str} {t : ParamType} : FlatText s t → FlatText (s ++ "[]".toList) (.array t)
  | fixedArray {s d : Str} {t : ParamType} {n : Nat} : FlatText s t → numberText d n →
      FlatText (s ++ "[".toList ++ d ++ "]".toList) (.fixedArray t n)

/-- an unopened suffix at the start of the text or of a member that follows well-formed members -/
inductive FlatUnopened : Str → Prop where
  | bare : FlatUnopened "]".toList
  | number {d : Str} {n : Nat} : numberText d n → FlatUnopened (d ++ "]".toList)
  | tuple {ps qs : List Str} {p : Str} {ts : List ParamType} : Members ps ts → Unopened p →
      (∀ q ∈ qs, ∀ c ∈ q, c ≠ '(' ∧ c ≠ ')' ∧ c ≠ ',') →
      FlatUnopened ("(".toList ++ commaSeparated (ps ++ p :: qs) ++ ")".toList)
  | array {s : Str} : FlatUnopened s → FlatUnopened (s ++ "[]".toList)
  | fixedArray {s d : Str} {n : Nat} : FlatUnopened s → numberText d n →
      FlatUnopened (s ++ "[".toList ++ d ++ "]".toList)

end Ethabi.Spec

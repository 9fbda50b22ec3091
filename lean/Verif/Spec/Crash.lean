import Verif.Spec.AbiJson
/-!
# ABI JSON on which loading panics

Only the reader of type strings can panic, so the question is when it is reached: entries and elements are read from the
front, and the first malformed one ends the loading with an error.
-/
namespace Ethabi.Spec

/-- at most one `type`, which the reader accepts -/
def TypeFine (fs : List (Str × Json)) : Prop := Absent "type" fs ∨ ∃ s t, Once "type" fs (.str s) ∧ read s = .ok t

/-- at most one `components`, an array of members -/
def ComponentsFine (mode : Mode) (fs : List (Str × Json)) : Prop :=
  Absent "components" fs ∨ ∃ xs ps, Once "components" fs (.arr xs) ∧ DenotesMembers mode xs ps

/-- at most one entry with the key `k`, an array of what `R` says -/
def ArrayFine {α : Type} (k : String) (R : Json → α → Prop) (fs : List (Str × Json)) : Prop :=
  Absent k fs ∨ ∃ v as, Once k fs v ∧ DenotesEach R v as

/-- the entries at the front of a parameter or tuple member are in order -/
def ParamFine (mode : Mode) (fs : List (Str × Json)) : Prop :=
  KnownKeys mode ["name", "type", "internalType", "components"] fs ∧ (∃ o, OptionalString "name" fs o) ∧
    (∃ o, OptionalString "internalType" fs o) ∧ TypeFine fs ∧ ComponentsFine mode fs

/-- the entries at the front of an event parameter are in order -/
def EventParamFine (mode : Mode) (fs : List (Str × Json)) : Prop :=
  KnownKeys mode ["name", "type", "components", "indexed"] fs ∧ (∃ o, OptionalString "name" fs o) ∧
    (∃ b, DefaultBool "indexed" fs false b) ∧ TypeFine fs ∧ ComponentsFine mode fs

/-- the entries at the front of a function are in order -/
def FunctionFine (fs : List (Str × Json)) : Prop :=
  (∃ o, OptionalString "name" fs o) ∧ ArrayFine "inputs" (DenotesParam .buffered) fs ∧
    ArrayFine "outputs" (DenotesParam .buffered) fs ∧ (∃ b, DefaultBool "constant" fs false b) ∧
    ∃ m, DenotesMutability fs m

/-- the entries at the front of an event are in order -/
def EventFine (fs : List (Str × Json)) : Prop :=
  (∃ o, OptionalString "name" fs o) ∧ ArrayFine "inputs" (DenotesEventParam .buffered) fs ∧
    ∃ b, DefaultBool "anonymous" fs false b

/-- parameters and tuple members: after entries in order comes a type string on which the reader panics, or components that
crash after members in order -/
inductive CrashesParam (mode : Mode) : Json → Prop where
  | type {before after : List (Str × Json)} {s : Str} : ParamFine mode before → Absent "type" before → read s = .panic →
      CrashesParam mode (.obj (before ++ ("type".toList, .str s) :: after))
  | components {before after : List (Str × Json)} {ys zs : List Json} {ps : List TupleParam} {x : Json} :
      ParamFine mode before → Absent "components" before → DenotesMembers mode ys ps → CrashesParam mode x →
      CrashesParam mode (.obj (before ++ ("components".toList, .arr (ys ++ x :: zs)) :: after))

/-- the same for event parameters -/
inductive CrashesEventParam (mode : Mode) : Json → Prop where
  | type {before after : List (Str × Json)} {s : Str} : EventParamFine mode before → Absent "type" before →
      read s = .panic → CrashesEventParam mode (.obj (before ++ ("type".toList, .str s) :: after))
  | components {before after : List (Str × Json)} {ys zs : List Json} {ps : List TupleParam} {x : Json} :
      EventParamFine mode before → Absent "components" before → DenotesMembers mode ys ps → CrashesParam mode x →
      CrashesEventParam mode (.obj (before ++ ("components".toList, .arr (ys ++ x :: zs)) :: after))

/-- an array crashes at an element after elements in order -/
def CrashesAt {α : Type} (R : Json → α → Prop) (C : Json → Prop) (j : Json) : Prop :=
  ∃ ys as x zs, j = .arr (ys ++ x :: zs) ∧ DenotesEach R (.arr ys) as ∧ C x

/-- elements of a contract: the kind of operation is known, and after entries (or places) in order come parameters that
crash -/
inductive CrashesOperation : Json → Prop where
  | constructor {before after : List (Str × Json)} {v : Json} :
      Once "type" (before ++ ("inputs".toList, v) :: after) (.str "constructor".toList) → Absent "inputs" before →
      CrashesAt (DenotesParam .buffered) (CrashesParam .buffered) v →
      CrashesOperation (.obj (before ++ ("inputs".toList, v) :: after))
  | function {before after : List (Str × Json)} {k : String} {v : Json} : k = "inputs" ∨ k = "outputs" →
      Once "type" (before ++ (k.toList, v) :: after) (.str "function".toList) → FunctionFine before → Absent k before →
      CrashesAt (DenotesParam .buffered) (CrashesParam .buffered) v →
      CrashesOperation (.obj (before ++ (k.toList, v) :: after))
  | event {before after : List (Str × Json)} {v : Json} :
      Once "type" (before ++ ("inputs".toList, v) :: after) (.str "event".toList) → EventFine before →
      Absent "inputs" before → CrashesAt (DenotesEventParam .buffered) (CrashesEventParam .buffered) v →
      CrashesOperation (.obj (before ++ ("inputs".toList, v) :: after))
  | constructorArray {v : Json} {rest : List Json} : CrashesAt (DenotesParam .buffered) (CrashesParam .buffered) v →
      CrashesOperation (.arr (.str "constructor".toList :: v :: rest))
  | functionArrayInputs {s : Str} {v : Json} {rest : List Json} :
      CrashesAt (DenotesParam .buffered) (CrashesParam .buffered) v →
      CrashesOperation (.arr (.str "function".toList :: .str s :: v :: rest))
  | functionArrayOutputs {s : Str} {v w : Json} {as : List Param} {rest : List Json} :
      DenotesEach (DenotesParam .buffered) v as → CrashesAt (DenotesParam .buffered) (CrashesParam .buffered) w →
      CrashesOperation (.arr (.str "function".toList :: .str s :: v :: w :: rest))
  | eventArray {s : Str} {v : Json} {rest : List Json} :
      CrashesAt (DenotesEventParam .buffered) (CrashesEventParam .buffered) v →
      CrashesOperation (.arr (.str "event".toList :: .str s :: v :: rest))

end Ethabi.Spec

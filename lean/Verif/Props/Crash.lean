import Verif.Proofs.Crash
import Verif.Props.AbiJson
/-! # Property C90: exactly when loading an ABI panics -/
namespace Ethabi.Props
open Spec Schema Crash

/-- **C90.** Deserialising a function parameter panics exactly if, after entries in order, it has a type string on which the
reader of types panics, or components that crash. -/
theorem C90_param (mode : Mode) (j : Json) : deParam mode j = .panic ↔ CrashesParam mode j := param_panic j

/-- **C90** for event parameters. -/
theorem C90_event_param (mode : Mode) (j : Json) : deEventParam mode j = .panic ↔ CrashesEventParam mode j :=
  eventParam_panic j

/-- **C90** for tuple members. -/
theorem C90_tuple_param (mode : Mode) (j : Json) : deTupleParam mode j = .panic ↔ CrashesParam mode j := member_panic j

/-- **C90** for the elements of a contract. -/
theorem C90_operation (j : Json) : deOperation j = .panic ↔ CrashesOperation j := operation_panic j

/-- **C90.** Loading a contract panics exactly if an element crashes and all elements before it denote operations. -/
theorem C90_contract (j : Json) : deContract j = .panic ↔ CrashesAt DenotesOperation CrashesOperation j := contract_panic j

/-- **C90.** Every other contract is loaded or refused with an error. -/
theorem C90_contract_refused (j : Json) : (∃ e, deContract j = .err e) ↔
    (¬ ∃ ops, DenotesEach DenotesOperation j ops) ∧ ¬ CrashesAt DenotesOperation CrashesOperation j := by
  rw [← contract_panic, ← (C77_contract j).1]
  cases deContract j <;> simp

/-- the function `f(5] a)` -/
def crashing : Json :=
  .obj [(lit "type", .str (lit "function")), (lit "name", .str (lit "f")), (lit "outputs", .arr []),
    (lit "inputs", .arr [.obj [(lit "name", .str (lit "a")), (lit "type", .str (lit "5]"))]])]

/-- it crashes alone and after a well-formed element, but not after a malformed one -/
example : CrashesAt DenotesOperation CrashesOperation (.arr [crashing]) ∧
    CrashesAt DenotesOperation CrashesOperation (.arr [.obj [(lit "type", .str (lit "receive"))], crashing, .null]) ∧
    ¬ CrashesAt DenotesOperation CrashesOperation (.arr [.null, crashing]) := by
  rw [← C90_contract, ← C90_contract, ← C90_contract]
  decide +kernel

/-- the order of the entries matters: a malformed name before the type ends the loading with an error -/
example : CrashesParam .direct (.obj [(lit "type", .str (lit "5]")), (lit "name", .num 7)]) ∧
    ¬ CrashesParam .direct (.obj [(lit "name", .num 7), (lit "type", .str (lit "5]"))]) := by
  rw [← C90_param, ← C90_param]
  decide +kernel

/-- inside components, and for an event written as an array -/
example : CrashesParam .direct (.obj [(lit "components", .arr [.obj [(lit "type", .str (lit "5]"))]])]) ∧
    CrashesOperation (.arr [.str (lit "event"), .str (lit "e"), .arr [.obj [(lit "type", .str (lit "5]"))]]]) := by
  rw [← C90_param, ← C90_operation]
  decide +kernel

end Ethabi.Props

import Verif.Tests.Helpers
import Verif.Spec.Keccak
import Verif.Model.Derive
/-!
# Tests: generated bindings

The unit tests of tests/src/lib.rs, with the declarations of res/Validators.abi and res/eip20.abi.
These are tests of the model (finitely many inputs), not proofs of any property.
-/
namespace Ethabi.Tests
open Keccak

def fn (name : String) (inputs outputs : List (String × ParamType)) : Function :=
  { name := lit name, inputs := inputs.map fun p => ⟨lit p.1, p.2, none⟩,
    outputs := outputs.map fun p => ⟨lit p.1, p.2, none⟩, constant := false, stateMutability := .nonPayable }

def first : Address := addr (List.replicate 20 0x11)
def second : Address := addr (List.replicate 20 0x22)

/-! tests/src/lib.rs:31-46 `test_encoding_function_input_as_array` -/
example : genEncodeInput keccak256 .debug (fn "setValidators" [("newValidators", .array .address)] [])
    (([first, second] : List Address), ()) =
    .ok (hx 4 [0x9300c926] ++ hx 128 [0x20, 2, 0x1111111111111111111111111111111111111111,
      0x2222222222222222222222222222222222222222]) := by decide +kernel

/-! tests/src/lib.rs:48-64 `test_decoding_function_output` -/
example : ((genDecodeOutput .debug (fn "totalSupply" [] [("total", .uint 256)]) (hx 32 [0x36455B])).bind
    fun x => Res.ok (show U256 from x.1)) = Res.ok (0x36455b#256 : U256) := by
  show (_ : Res U256) = _
  decide +kernel

/-! tests/src/lib.rs:66-82 `test_encoding_constructor_as_array` -/
example : genConstructor .debug ⟨[⟨lit "newValidators", .array .address, none⟩]⟩ []
    (([first, second] : List Address), ()) =
    .ok (hx 128 [0x20, 2, 0x1111111111111111111111111111111111111111,
      0x2222222222222222222222222222222222222222]) := by decide +kernel

/-! tests/src/lib.rs:84-101 `test_encoding_function_input_as_fixed_array` -/
example : genEncodeInput keccak256 .debug (fn "addTwoValidators" [("newValidators", .fixedArray .address 2)] [])
    ((⟨[first, second], rfl⟩ : { l : List Address // l.length = 2 }), ()) =
    .ok (hx 4 [0x7de33d20] ++ hx 64 [0x1111111111111111111111111111111111111111,
      0x2222222222222222222222222222222222222222]) := by decide +kernel
example : genEncodeInput keccak256 .debug (fn "setTitle" [("title", .string)] []) ((lit "foo" : Str), ()) =
    .ok (hx 4 [0x72910be0] ++ hx 96 [0x20, 3,
      0x666f6f0000000000000000000000000000000000000000000000000000000000]) := by decide +kernel

/-- res/eip20.abi -/
def transferEvent : Event :=
  { name := lit "Transfer",
    inputs := [⟨lit "from", .address, true⟩, ⟨lit "to", .address, true⟩, ⟨lit "value", .uint 256, false⟩],
    anonymous := false }

/-! tests/src/lib.rs:103-116 `encoding_input_works` -/
example : genEncodeInput keccak256 .debug
    (fn "allowance" [("_owner", .address), ("_spender", .address)] [("remaining", .uint 256)])
    (addr (List.replicate 20 0), addr (List.replicate 20 1), ()) =
    .ok (hx 4 [0xdd62ed3e] ++ hx 64 [0, 0x0101010101010101010101010101010101010101]) := by decide +kernel
example : genFilter id keccak256 .debug transferEvent ((.any : Topic Address), (.any : Topic Address), ()) =
    genWildcardFilter id keccak256 .debug transferEvent := by decide +kernel
example : ∃ f, genFilter id keccak256 .debug transferEvent
    ((.this (addr (List.replicate 20 2)) : Topic Address),
     (.oneOf [addr (List.replicate 20 3), addr (List.replicate 20 4)] : Topic Address), ()) = .ok f := ⟨_, rfl⟩

end Ethabi.Tests

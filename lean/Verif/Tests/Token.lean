import Verif.Tests.Helpers
import Verif.Model.Types
/-!
# Tests: unit tests of the Rust code run on the model

Generated by tools/rust_tests.py from ethabi/src/token/token.rs.
These are tests of the model (finitely many inputs), not proofs of any property.
-/
namespace Ethabi.Tests

/-! token/token.rs:230-283 `test_type_check` -/
example : Token.typesCheck [(.uint 0x0#256), (.bool false)] [(.uint 256), .bool] = .ok true := by decide +kernel
example : Token.typesCheck [(.uint 0x0#256), (.bool false)] [(.uint 32), .bool] = .ok true := by decide +kernel
example : Token.typesCheck [(.uint 0x0#256)] [(.uint 32), .bool] = .ok false := by decide +kernel
example : Token.typesCheck [(.uint 0x0#256), (.bool false)] [(.uint 32)] = .ok false := by decide +kernel
example : Token.typesCheck [(.bool false), (.uint 0x0#256)] [(.uint 32), .bool] = .ok false := by decide +kernel
example : Token.typesCheck [(.fixedBytes (hx 4 [0x00000000]))] [(.fixedBytes 4)] = .ok true := by decide +kernel
example : Token.typesCheck [(.fixedBytes (hx 3 [0x000000]))] [(.fixedBytes 4)] = .ok true := by decide +kernel
example : Token.typesCheck [(.fixedBytes (hx 4 [0x00000000]))] [(.fixedBytes 3)] = .ok false := by decide +kernel
example : Token.typesCheck [(.array [(.bool false), (.bool true)])] [(.array .bool)] = .ok true := by decide +kernel
example : Token.typesCheck [(.array [(.bool false), (.uint 0x0#256)])] [(.array .bool)] = .ok false := by decide +kernel
example : Token.typesCheck [(.array [(.bool false), (.bool true)])] [(.array .address)] = .ok false := by decide +kernel
example : Token.typesCheck [(.fixedArray [(.bool false), (.bool true)])] [(.fixedArray .bool 2)] = .ok true := by decide +kernel
example : Token.typesCheck [(.fixedArray [(.bool false), (.bool true)])] [(.fixedArray .bool 3)] = .ok false := by decide +kernel
example : Token.typesCheck [(.fixedArray [(.bool false), (.uint 0x0#256)])] [(.fixedArray .bool 2)] = .ok false := by decide +kernel
example : Token.typesCheck [(.fixedArray [(.bool false), (.bool true)])] [(.fixedArray .address 2)] = .ok false := by decide +kernel

/-! token/token.rs:285-298 `test_is_dynamic` -/
example : Token.isDynamic (.address (addr (hx 20 [0x0000000000000000000000000000000000000000]))) = false := by decide +kernel
example : Token.isDynamic (.bytes (hx 4 [0x00000000])) = true := by decide +kernel
example : Token.isDynamic (.fixedBytes (hx 4 [0x00000000])) = false := by decide +kernel
example : Token.isDynamic (.uint 0x0#256) = false := by decide +kernel
example : Token.isDynamic (.int 0x0#256) = false := by decide +kernel
example : Token.isDynamic (.bool false) = false := by decide +kernel
example : Token.isDynamic (.string (lit "")) = true := by decide +kernel
example : Token.isDynamic (.array [(.bool false)]) = true := by decide +kernel
example : Token.isDynamic (.fixedArray [(.uint 0x0#256)]) = false := by decide +kernel
example : Token.isDynamic (.fixedArray [(.string (lit ""))]) = true := by decide +kernel
example : Token.isDynamic (.fixedArray [(.array [(.bool false)])]) = true := by decide +kernel

end Ethabi.Tests

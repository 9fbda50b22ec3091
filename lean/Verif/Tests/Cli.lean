import Verif.Tests.Helpers
import Verif.Spec.Keccak
import Verif.Model.Cli
/-!
# Tests: unit tests of the command line tool run on the model

Generated by tools/rust_tests.py from cli/src/main.rs, with the ABI files of res/ as JSON values.
These are tests of the model (finitely many inputs), not proofs of any property.
-/
namespace Ethabi.Tests
open Keccak

/-- res/test.abi -/
def testAbi : Json := (.arr [.obj [(lit "inputs", .arr [.obj [(lit "name", .str (lit "a")), (lit "type", .str (lit "bool"))]]), (lit "name", .str (lit "foo")), (lit "outputs", .arr []), (lit "type", .str (lit "function"))], .obj [(lit "inputs", .arr [.obj [(lit "name", .str (lit "a")), (lit "type", .str (lit "bool"))]]), (lit "name", .str (lit "bar")), (lit "outputs", .arr []), (lit "type", .str (lit "function"))], .obj [(lit "inputs", .arr [.obj [(lit "name", .str (lit "a")), (lit "type", .str (lit "string"))]]), (lit "name", .str (lit "bar")), (lit "outputs", .arr [.obj [(lit "name", .str (lit "b")), (lit "type", .str (lit "uint256"))]]), (lit "type", .str (lit "function"))]] : Json)

/-- res/foo.abi -/
def fooAbi : Json := (.arr [.obj [(lit "constant", .bool false), (lit "inputs", .arr [.obj [(lit "name", .str (lit "hello")), (lit "type", .str (lit "address"))]]), (lit "name", .str (lit "bar")), (lit "outputs", .arr [.obj [(lit "name", .str (lit "")), (lit "type", .str (lit "bool"))]]), (lit "type", .str (lit "function"))]] : Json)

/-- res/event.abi -/
def eventAbi : Json := (.arr [.obj [(lit "anonymous", .bool true), (lit "inputs", .arr [.obj [(lit "indexed", .bool true), (lit "name", .str (lit "a")), (lit "type", .str (lit "bool"))], .obj [(lit "indexed", .bool false), (lit "name", .str (lit "b")), (lit "type", .str (lit "address"))]]), (lit "name", .str (lit "Event")), (lit "type", .str (lit "event"))]] : Json)

/-! cli/src/main.rs:256-261 `simple_encode` -/
example : cliEncodeParams .debug [lit "bool", lit "1"] false = .ok (lit "0000000000000000" ++ lit "0000000000000000" ++ lit "0000000000000000" ++ lit "0000000000000001") := by decide +kernel

/-! cli/src/main.rs:263-272 `int_encode` -/
example : cliEncodeParams .debug [lit "int256", lit "-2"] true = .ok (lit "ffffffffffffffff" ++ lit "ffffffffffffffff" ++ lit "ffffffffffffffff" ++ lit "fffffffffffffffe") := by decide +kernel
example : cliEncodeParams .debug [lit "int256", lit "-0"] true = .ok (lit "0000000000000000" ++ lit "0000000000000000" ++ lit "0000000000000000" ++ lit "0000000000000000") := by decide +kernel

/-! cli/src/main.rs:274-278 `uint_encode_must_be_positive` -/
example : isErr (cliEncodeParams .debug [lit "uint256", lit "-2"] true) = true := by decide +kernel

/-! cli/src/main.rs:280-287 `uint_encode_requires_decimal_inputs` -/
example : isErr (cliEncodeParams .debug [lit "uint256", lit "123abc"] true) = true := by decide +kernel

/-! cli/src/main.rs:289-296 `uint_encode_big_numbers` -/
example : cliEncodeParams .debug [lit "uint256", lit "1000000000000000" ++ lit "0000000000000000" ++ lit "0022222222222222" ++ lit "221111111111111"] true = .ok (lit "0000000000003e3a" ++ lit "eb4ae1383562f4b8" ++ lit "2261d96a3f7a5f62" ++ lit "ca19599c1ad6d1c7") := by decide +kernel

/-! cli/src/main.rs:298-308 `int_encode_large_negative_numbers` -/
example : cliEncodeParams .debug [lit "int256", lit "-578960446186580" ++ lit "9771178549250434" ++ lit "3953926634992332" ++ lit "8202820197287920" ++ lit "03956564819968"] true = .ok (lit "8000000000000000" ++ lit "0000000000000000" ++ lit "0000000000000000" ++ lit "0000000000000000") := by decide +kernel
example : isErr (cliEncodeParams .debug [lit "int256", lit "-578960446186580" ++ lit "9771178549250434" ++ lit "3953926634992332" ++ lit "8202820197287920" ++ lit "03956564819969"] true) = true := by decide +kernel

/-! cli/src/main.rs:310-324 `int_encode_large_positive_numbers` -/
example : isErr (cliEncodeParams .debug [lit "int256", lit "1000000000000000" ++ lit "0000000000000000" ++ lit "0022222222222222" ++ lit "2211111111111113" ++ lit "33333333344556"] true) = true := by decide +kernel
example : cliEncodeParams .debug [lit "int256", lit "5789604461865809" ++ lit "7711785492504343" ++ lit "9539266349923328" ++ lit "2028201972879200" ++ lit "3956564819967"] true = .ok (lit "7fffffffffffffff" ++ lit "ffffffffffffffff" ++ lit "ffffffffffffffff" ++ lit "ffffffffffffffff") := by decide +kernel
example : isErr (cliEncodeParams .debug [lit "int256", lit "5789604461865809" ++ lit "7711785492504343" ++ lit "9539266349923328" ++ lit "2028201972879200" ++ lit "3956564819968"] true) = true := by decide +kernel

/-! cli/src/main.rs:326-331 `multi_encode` -/
example : cliEncodeParams .debug [lit "bool", lit "1", lit "string", lit "gavofyork", lit "bool", lit "0"] false = .ok (lit "0000000000000000" ++ lit "0000000000000000" ++ lit "0000000000000000" ++ lit "0000000000000001" ++ lit "0000000000000000" ++ lit "0000000000000000" ++ lit "0000000000000000" ++ lit "0000000000000060" ++ lit "0000000000000000" ++ lit "0000000000000000" ++ lit "0000000000000000" ++ lit "0000000000000000" ++ lit "0000000000000000" ++ lit "0000000000000000" ++ lit "0000000000000000" ++ lit "0000000000000009" ++ lit "6761766f66796f72" ++ lit "6b00000000000000" ++ lit "0000000000000000" ++ lit "0000000000000000") := by decide +kernel

/-! cli/src/main.rs:333-338 `array_encode` -/
example : cliEncodeParams .debug [lit "bool[]", lit "[1,0,false]"] false = .ok (lit "0000000000000000" ++ lit "0000000000000000" ++ lit "0000000000000000" ++ lit "0000000000000020" ++ lit "0000000000000000" ++ lit "0000000000000000" ++ lit "0000000000000000" ++ lit "0000000000000003" ++ lit "0000000000000000" ++ lit "0000000000000000" ++ lit "0000000000000000" ++ lit "0000000000000001" ++ lit "0000000000000000" ++ lit "0000000000000000" ++ lit "0000000000000000" ++ lit "0000000000000000" ++ lit "0000000000000000" ++ lit "0000000000000000" ++ lit "0000000000000000" ++ lit "0000000000000000") := by decide +kernel

/-! cli/src/main.rs:340-345 `function_encode_by_name` -/
example : cliEncodeInput keccak256 .debug testAbi (lit "foo") [lit "1"] false = .ok (lit "4555757800000000" ++ lit "0000000000000000" ++ lit "0000000000000000" ++ lit "0000000000000000" ++ lit "00000001") := by decide +kernel

/-! cli/src/main.rs:347-352 `function_encode_by_signature` -/
example : cliEncodeInput keccak256 .debug testAbi (lit "foo(bool)") [lit "1"] false = .ok (lit "4555757800000000" ++ lit "0000000000000000" ++ lit "0000000000000000" ++ lit "0000000000000000" ++ lit "00000001") := by decide +kernel

/-! cli/src/main.rs:354-359 `nonexistent_function` -/
example : isErr (cliEncodeInput keccak256 .debug testAbi (lit "nope") [lit "1"] false) = true := by decide +kernel

/-! cli/src/main.rs:361-366 `overloaded_function_encode_by_name` -/
example : isErr (cliEncodeInput keccak256 .debug testAbi (lit "bar") [lit "1"] false) = true := by decide +kernel

/-! cli/src/main.rs:368-373 `overloaded_function_encode_by_first_signature` -/
example : cliEncodeInput keccak256 .debug testAbi (lit "bar(bool)") [lit "1"] false = .ok (lit "6fae941200000000" ++ lit "0000000000000000" ++ lit "0000000000000000" ++ lit "0000000000000000" ++ lit "00000001") := by decide +kernel

/-! cli/src/main.rs:375-382 `overloaded_function_encode_by_second_signature` -/
example : cliEncodeInput keccak256 .debug testAbi (lit "bar(string):(uint256)") [lit "1"] false = .ok (lit "d473a8ed00000000" ++ lit "0000000000000000" ++ lit "0000000000000000" ++ lit "0000000000000000" ++ lit "0000002000000000" ++ lit "0000000000000000" ++ lit "0000000000000000" ++ lit "0000000000000000" ++ lit "0000000131000000" ++ lit "0000000000000000" ++ lit "0000000000000000" ++ lit "0000000000000000" ++ lit "00000000") := by decide +kernel

/-! cli/src/main.rs:384-390 `simple_decode` -/
example : cliDecodeParams .debug [lit "bool"] (lit "0000000000000000" ++ lit "0000000000000000" ++ lit "0000000000000000" ++ lit "0000000000000001") = .ok (lit "bool true") := by decide +kernel

/-! cli/src/main.rs:392-398 `int_decode` -/
example : cliDecodeParams .debug [lit "int256"] (lit "ffffffffffffffff" ++ lit "ffffffffffffffff" ++ lit "ffffffffffffffff" ++ lit "fffffffffffffffe") = .ok (lit "int256 fffffffff" ++ lit "ffffffffffffffff" ++ lit "ffffffffffffffff" ++ lit "ffffffffffffffff" ++ lit "ffffffe") := by decide +kernel

/-! cli/src/main.rs:400-407 `multi_decode` -/
example : cliDecodeParams .debug [lit "bool", lit "string", lit "bool"] (lit "0000000000000000" ++ lit "0000000000000000" ++ lit "0000000000000000" ++ lit "0000000000000001" ++ lit "0000000000000000" ++ lit "0000000000000000" ++ lit "0000000000000000" ++ lit "0000000000000060" ++ lit "0000000000000000" ++ lit "0000000000000000" ++ lit "0000000000000000" ++ lit "0000000000000000" ++ lit "0000000000000000" ++ lit "0000000000000000" ++ lit "0000000000000000" ++ lit "0000000000000009" ++ lit "6761766f66796f72" ++ lit "6b00000000000000" ++ lit "0000000000000000" ++ lit "0000000000000000") = .ok (lit "bool true\nstring gavofyork\nbool false") := by decide +kernel

/-! cli/src/main.rs:409-414 `array_decode` -/
example : cliDecodeParams .debug [lit "bool[]"] (lit "0000000000000000" ++ lit "0000000000000000" ++ lit "0000000000000000" ++ lit "0000000000000020" ++ lit "0000000000000000" ++ lit "0000000000000000" ++ lit "0000000000000000" ++ lit "0000000000000003" ++ lit "0000000000000000" ++ lit "0000000000000000" ++ lit "0000000000000000" ++ lit "0000000000000001" ++ lit "0000000000000000" ++ lit "0000000000000000" ++ lit "0000000000000000" ++ lit "0000000000000000" ++ lit "0000000000000000" ++ lit "0000000000000000" ++ lit "0000000000000000" ++ lit "0000000000000000") = .ok (lit "bool[] [true,false,false]") := by decide +kernel

/-! cli/src/main.rs:416-421 `abi_decode` -/
example : cliDecodeOutput .debug fooAbi (lit "bar") (lit "0000000000000000" ++ lit "0000000000000000" ++ lit "0000000000000000" ++ lit "0000000000000001") = .ok (lit "bool true") := by decide +kernel

/-! cli/src/main.rs:423-429 `log_decode` -/
example : cliDecodeLog keccak256 parseHash .debug eventAbi (lit "Event") [lit "0000000000000000" ++ lit "0000000000000000" ++ lit "0000000000000000" ++ lit "0000000000000001"] (lit "0000000000000000" ++ lit "0000000044444444" ++ lit "4444444444444444" ++ lit "4444444444444444") = .ok (lit "a true\nb 4444444" ++ lit "4444444444444444" ++ lit "4444444444444444" ++ lit "4") := by decide +kernel

/-! cli/src/main.rs:431-437 `log_decode_signature` -/
example : cliDecodeLog keccak256 parseHash .debug eventAbi (lit "Event(bool,address)") [lit "0000000000000000" ++ lit "0000000000000000" ++ lit "0000000000000000" ++ lit "0000000000000001"] (lit "0000000000000000" ++ lit "0000000044444444" ++ lit "4444444444444444" ++ lit "4444444444444444") = .ok (lit "a true\nb 4444444" ++ lit "4444444444444444" ++ lit "4444444444444444" ++ lit "4") := by decide +kernel

/-! cli/src/main.rs:439-444 `nonexistent_event` -/
example : isErr (cliDecodeLog keccak256 parseHash .debug eventAbi (lit "Nope(bool,address)") [lit "0000000000000000" ++ lit "0000000000000000" ++ lit "0000000000000000" ++ lit "0000000000000000"] (lit "0000000000000000" ++ lit "0000000044444444" ++ lit "4444444444444444" ++ lit "4444444444444444")) = true := by decide +kernel

end Ethabi.Tests

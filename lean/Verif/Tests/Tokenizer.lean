import Verif.Tests.Helpers
import Verif.Model.Tokenizer
/-!
# Tests: unit tests of the Rust code run on the model

Generated by tools/rust_tests.py from ethabi/src/token/strict.rs, ethabi/src/token/mod.rs.
These are tests of the model (finitely many inputs), not proofs of any property.
-/
namespace Ethabi.Tests

/-! token/strict.rs:75-85 `tokenize_address` -/
example : tokenize .strict .address (lit "1111111111111111111111111111111111111111") = .ok (.address (addr (hx 20 [0x1111111111111111111111111111111111111111]))) := by decide +kernel
example : tokenize .strict .address (lit "2222222222222222222222222222222222222222") = .ok (.address (addr (hx 20 [0x2222222222222222222222222222222222222222]))) := by decide +kernel

/-! token/strict.rs:87-94 `tokenize_string` -/
example : tokenize .strict .string (lit "gavofyork") = .ok (.string (lit "gavofyork")) := by decide +kernel
example : tokenize .strict .string (lit "hello") = .ok (.string (lit "hello")) := by decide +kernel

/-! token/strict.rs:96-102 `tokenize_bool` -/
example : tokenize .strict .bool (lit "true") = .ok (.bool true) := by decide +kernel
example : tokenize .strict .bool (lit "1") = .ok (.bool true) := by decide +kernel
example : tokenize .strict .bool (lit "false") = .ok (.bool false) := by decide +kernel
example : tokenize .strict .bool (lit "0") = .ok (.bool false) := by decide +kernel

/-! token/strict.rs:104-111 `tokenize_bytes` -/
example : tokenize .strict .bytes (lit "123456") = .ok (.bytes (hx 3 [0x123456])) := by decide +kernel
example : tokenize .strict .bytes (lit "0017") = .ok (.bytes (hx 2 [0x0017])) := by decide +kernel

/-! token/strict.rs:113-123 `tokenize_fixed_bytes` -/
example : tokenize .strict (.fixedBytes 3) (lit "123456") = .ok (.fixedBytes (hx 3 [0x123456])) := by decide +kernel
example : tokenize .strict (.fixedBytes 2) (lit "0017") = .ok (.fixedBytes (hx 2 [0x0017])) := by decide +kernel

/-! token/strict.rs:125-144 `tokenize_uint` -/
example : tokenize .strict (.uint 256) (lit "1111111111111111" ++ lit "1111111111111111" ++ lit "1111111111111111" ++ lit "1111111111111111") = .ok (.uint 0x1111111111111111111111111111111111111111111111111111111111111111#256) := by decide +kernel
example : tokenize .strict (.uint 256) (lit "2222222222222222" ++ lit "2222222222222222" ++ lit "2222222222222222" ++ lit "2222222222222222") = .ok (.uint 0x2222222222222222222222222222222222222222222222222222222222222222#256) := by decide +kernel

/-! token/strict.rs:146-165 `tokenize_int` -/
example : tokenize .strict (.int 256) (lit "1111111111111111" ++ lit "1111111111111111" ++ lit "1111111111111111" ++ lit "1111111111111111") = .ok (.int 0x1111111111111111111111111111111111111111111111111111111111111111#256) := by decide +kernel
example : tokenize .strict (.int 256) (lit "2222222222222222" ++ lit "2222222222222222" ++ lit "2222222222222222" ++ lit "2222222222222222") = .ok (.int 0x2222222222222222222222222222222222222222222222222222222222222222#256) := by decide +kernel

/-! token/strict.rs:167-173 `tokenize_empty_array` -/
example : tokenize .strict (.array .bool) (lit "[]") = .ok (.array []) := by decide +kernel

/-! token/strict.rs:175-181 `tokenize_bool_array` -/
example : tokenize .strict (.array .bool) (lit "[true,1,0,false]") = .ok (.array [(.bool true), (.bool true), (.bool false), (.bool false)]) := by decide +kernel

/-! token/strict.rs:183-196 `tokenize_bool_array_of_arrays` -/
example : tokenize .strict (.array (.array .bool)) (lit "[[true,1,0],[false]]") = .ok (.array [(.array [(.bool true), (.bool true), (.bool false)]), (.array [(.bool false)])]) := by decide +kernel

/-! token/mod.rs:182-189 `single_quoted_in_array_must_error` -/
example : isErr (tokenizeArray (lit "[1,\"0,false]") (tokenize .lenient .bool)) = true := by decide +kernel
example : isErr (tokenizeArray (lit "[false\"]") (tokenize .lenient .bool)) = true := by decide +kernel
example : isErr (tokenizeArray (lit "[1,false\"]") (tokenize .lenient .bool)) = true := by decide +kernel
example : isErr (tokenizeArray (lit "[1,\"0\",false]") (tokenize .lenient .bool)) = true := by decide +kernel
example : isOk (tokenizeArray (lit "[1,0]") (tokenize .lenient .bool)) = true := by decide +kernel

end Ethabi.Tests

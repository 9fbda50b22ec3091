import Verif.Tests.Helpers
import Verif.Model.Types
import Verif.Model.Reader
import Verif.Model.Writer
/-!
# Tests: unit tests of the Rust code run on the model

Generated by tools/rust_tests.py from ethabi/src/param_type/param_type.rs, ethabi/src/param_type/reader.rs, ethabi/src/param_type/writer.rs.
These are tests of the model (finitely many inputs), not proofs of any property.
-/
namespace Ethabi.Tests

/-! param_type/param_type.rs:72-88 `test_param_type_display` -/
example : write .address = (lit "address") := by decide +kernel
example : write .bytes = (lit "bytes") := by decide +kernel
example : write (.fixedBytes 32) = (lit "bytes32") := by decide +kernel
example : write (.uint 256) = (lit "uint256") := by decide +kernel
example : write (.int 64) = (lit "int64") := by decide +kernel
example : write .bool = (lit "bool") := by decide +kernel
example : write .string = (lit "string") := by decide +kernel
example : write (.array .bool) = (lit "bool[]") := by decide +kernel
example : write (.fixedArray (.uint 256) 2) = (lit "uint256[2]") := by decide +kernel
example : write (.fixedArray .string 2) = (lit "string[2]") := by decide +kernel
example : write (.fixedArray (.array .bool) 2) = (lit "bool[][2]") := by decide +kernel

/-! param_type/param_type.rs:90-103 `test_is_dynamic` -/
example : ParamType.isDynamic .address = false := by decide +kernel
example : ParamType.isDynamic .bytes = true := by decide +kernel
example : ParamType.isDynamic (.fixedBytes 32) = false := by decide +kernel
example : ParamType.isDynamic (.uint 256) = false := by decide +kernel
example : ParamType.isDynamic (.int 64) = false := by decide +kernel
example : ParamType.isDynamic .bool = false := by decide +kernel
example : ParamType.isDynamic .string = true := by decide +kernel
example : ParamType.isDynamic (.array .bool) = true := by decide +kernel
example : ParamType.isDynamic (.fixedArray (.uint 256) 2) = false := by decide +kernel
example : ParamType.isDynamic (.fixedArray .string 2) = true := by decide +kernel
example : ParamType.isDynamic (.fixedArray (.array .bool) 2) = true := by decide +kernel

/-! param_type/reader.rs:174-185 `test_read_param` -/
example : read (lit "address") = .ok .address := by decide +kernel
example : read (lit "bytes") = .ok .bytes := by decide +kernel
example : read (lit "bytes32") = .ok (.fixedBytes 32) := by decide +kernel
example : read (lit "bool") = .ok .bool := by decide +kernel
example : read (lit "string") = .ok .string := by decide +kernel
example : read (lit "int") = .ok (.int 256) := by decide +kernel
example : read (lit "uint") = .ok (.uint 256) := by decide +kernel
example : read (lit "int32") = .ok (.int 32) := by decide +kernel
example : read (lit "uint32") = .ok (.uint 32) := by decide +kernel

/-! param_type/reader.rs:187-196 `test_read_array_param` -/
example : read (lit "address[]") = .ok (.array .address) := by decide +kernel
example : read (lit "uint[]") = .ok (.array (.uint 256)) := by decide +kernel
example : read (lit "bytes[]") = .ok (.array .bytes) := by decide +kernel
example : read (lit "bool[][]") = .ok (.array (.array .bool)) := by decide +kernel

/-! param_type/reader.rs:198-206 `test_read_fixed_array_param` -/
example : read (lit "address[2]") = .ok (.fixedArray .address 2) := by decide +kernel
example : read (lit "bool[17]") = .ok (.fixedArray .bool 17) := by decide +kernel
example : read (lit "bytes[45][3]") = .ok (.fixedArray (.fixedArray .bytes 45) 3) := by decide +kernel

/-! param_type/reader.rs:208-218 `test_read_mixed_arrays` -/
example : read (lit "bool[][3]") = .ok (.fixedArray (.array .bool) 3) := by decide +kernel
example : read (lit "bool[3][]") = .ok (.array (.fixedArray .bool 3)) := by decide +kernel

/-! param_type/reader.rs:220-230 `test_read_struct_param` -/
example : read (lit "(address,bool)") = .ok (.tuple [.address, .bool]) := by decide +kernel
example : read (lit "(bool[3],uint256)") = .ok (.tuple [(.fixedArray .bool 3), (.uint 256)]) := by decide +kernel

/-! param_type/reader.rs:232-242 `test_read_nested_struct_param` -/
example : read (lit "(address,bool,(bool,uint256))") = .ok (.tuple [.address, .bool, (.tuple [.bool, (.uint 256)])]) := by decide +kernel

/-! param_type/reader.rs:244-259 `test_read_complex_nested_struct_param` -/
example : read (lit "(address,bool,(b" ++ lit "ool,uint256,(boo" ++ lit "l,uint256)),(boo" ++ lit "l,uint256))") = .ok (.tuple [.address, .bool, (.tuple [.bool, (.uint 256), (.tuple [.bool, (.uint 256)])]), (.tuple [.bool, (.uint 256)])]) := by decide +kernel

/-! param_type/reader.rs:261-267 `test_read_nested_tuple_array_param` -/
example : read (lit "(uint256,bytes32)[]") = .ok (.array (.tuple [(.uint 256), (.fixedBytes 32)])) := by decide +kernel

/-! param_type/reader.rs:269-283 `test_read_inner_tuple_array_param` -/
example : read (lit "((uint256,bytes32)[],address)") = .ok (.tuple [(.array (.tuple [(.uint 256), (.fixedBytes 32)])), .address]) := by decide +kernel
example : write (.tuple [(.array (.tuple [(.uint 256), (.fixedBytes 32)])), .address]) = (lit "((uint256,bytes32)[],address)") := by decide +kernel

/-! param_type/writer.rs:59-92 `test_write_param` -/
example : write .address = (lit "address") := by decide +kernel
example : write .bytes = (lit "bytes") := by decide +kernel
example : write (.fixedBytes 32) = (lit "bytes32") := by decide +kernel
example : write (.uint 256) = (lit "uint256") := by decide +kernel
example : write (.int 64) = (lit "int64") := by decide +kernel
example : write .bool = (lit "bool") := by decide +kernel
example : write .string = (lit "string") := by decide +kernel
example : write (.array .bool) = (lit "bool[]") := by decide +kernel
example : write (.fixedArray .string 2) = (lit "string[2]") := by decide +kernel
example : write (.fixedArray (.array .bool) 2) = (lit "bool[][2]") := by decide +kernel
example : write (.array (.tuple [(.array (.tuple [(.int 256), (.uint 256)])), (.fixedBytes 32)])) = (lit "((int256,uint256)[],bytes32)[]") := by decide +kernel
example : writeForAbi false (.array (.tuple [(.array (.int 256)), (.fixedBytes 32)])) = (lit "tuple[]") := by decide +kernel

end Ethabi.Tests

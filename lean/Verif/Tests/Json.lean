import Verif.Tests.Helpers
import Verif.Model.Json
import Verif.Model.Contract
/-!
# Tests: unit tests of the Rust code run on the model

Generated by tools/rust_tests.py from ethabi/src/param.rs, ethabi/src/tuple_param.rs, ethabi/src/event_param.rs, ethabi/src/operation.rs.
These are tests of the model (finitely many inputs), not proofs of any property.
-/
namespace Ethabi.Tests

/-! param.rs:186-198 `param_simple` -/
example : deParam .direct (.obj [(lit "name", .str (lit "foo")), (lit "type", .str (lit "address"))] : Json) = .ok ({ name := (lit "foo"), kind := .address, internalType := none } : Param) := by decide +kernel
example : (deParam .direct (.obj [(lit "name", .str (lit "foo")), (lit "type", .str (lit "address"))] : Json)).bind (fun x => Res.ok (sameJson (serParam x) (.obj [(lit "name", .str (lit "foo")), (lit "type", .str (lit "address"))] : Json))) = .ok true := by decide +kernel

/-! param.rs:200-220 `param_simple_internal_type` -/
example : deParam .direct (.obj [(lit "name", .str (lit "foo")), (lit "type", .str (lit "address")), (lit "internalType", .str (lit "struct Verifier.Proof"))] : Json) = .ok ({ name := (lit "foo"), kind := .address, internalType := (some (lit "struct Verifier.Proof")) } : Param) := by decide +kernel
example : (deParam .direct (.obj [(lit "name", .str (lit "foo")), (lit "type", .str (lit "address")), (lit "internalType", .str (lit "struct Verifier.Proof"))] : Json)).bind (fun x => Res.ok (sameJson (serParam x) (.obj [(lit "name", .str (lit "foo")), (lit "type", .str (lit "address")), (lit "internalType", .str (lit "struct Verifier.Proof"))] : Json))) = .ok true := by decide +kernel

/-! param.rs:222-254 `param_tuple` -/
example : deParam .direct (.obj [(lit "name", .str (lit "foo")), (lit "type", .str (lit "tuple")), (lit "components", .arr [.obj [(lit "type", .str (lit "uint48"))], .obj [(lit "type", .str (lit "tuple")), (lit "components", .arr [.obj [(lit "type", .str (lit "address"))]])]])] : Json) = .ok ({ name := (lit "foo"), kind := (.tuple [(.uint 48), (.tuple [.address])]), internalType := none } : Param) := by decide +kernel
example : (deParam .direct (.obj [(lit "name", .str (lit "foo")), (lit "type", .str (lit "tuple")), (lit "components", .arr [.obj [(lit "type", .str (lit "uint48"))], .obj [(lit "type", .str (lit "tuple")), (lit "components", .arr [.obj [(lit "type", .str (lit "address"))]])]])] : Json)).bind (fun x => Res.ok (sameJson (serParam x) (.obj [(lit "name", .str (lit "foo")), (lit "type", .str (lit "tuple")), (lit "components", .arr [.obj [(lit "type", .str (lit "uint48"))], .obj [(lit "type", .str (lit "tuple")), (lit "components", .arr [.obj [(lit "type", .str (lit "address"))]])]])] : Json))) = .ok true := by decide +kernel

/-! param.rs:256-289 `param_tuple_internal_type` -/
example : deParam .direct (.obj [(lit "name", .str (lit "foo")), (lit "type", .str (lit "tuple")), (lit "internalType", .str (lit "struct Pairing.G1Point[]")), (lit "components", .arr [.obj [(lit "type", .str (lit "uint48"))], .obj [(lit "type", .str (lit "tuple")), (lit "components", .arr [.obj [(lit "type", .str (lit "address"))]])]])] : Json) = .ok ({ name := (lit "foo"), kind := (.tuple [(.uint 48), (.tuple [.address])]), internalType := (some (lit "struct Pairing.G1Point[]")) } : Param) := by decide +kernel
example : (deParam .direct (.obj [(lit "name", .str (lit "foo")), (lit "type", .str (lit "tuple")), (lit "internalType", .str (lit "struct Pairing.G1Point[]")), (lit "components", .arr [.obj [(lit "type", .str (lit "uint48"))], .obj [(lit "type", .str (lit "tuple")), (lit "components", .arr [.obj [(lit "type", .str (lit "address"))]])]])] : Json)).bind (fun x => Res.ok (sameJson (serParam x) (.obj [(lit "name", .str (lit "foo")), (lit "type", .str (lit "tuple")), (lit "internalType", .str (lit "struct Pairing.G1Point[]")), (lit "components", .arr [.obj [(lit "type", .str (lit "uint48"))], .obj [(lit "type", .str (lit "tuple")), (lit "components", .arr [.obj [(lit "type", .str (lit "address"))]])]])] : Json))) = .ok true := by decide +kernel

/-! param.rs:291-326 `param_tuple_named` -/
example : deParam .direct (.obj [(lit "name", .str (lit "foo")), (lit "type", .str (lit "tuple")), (lit "components", .arr [.obj [(lit "name", .str (lit "amount")), (lit "type", .str (lit "uint48"))], .obj [(lit "name", .str (lit "things")), (lit "type", .str (lit "tuple")), (lit "components", .arr [.obj [(lit "name", .str (lit "baseTupleParam")), (lit "type", .str (lit "address"))]])]])] : Json) = .ok ({ name := (lit "foo"), kind := (.tuple [(.uint 48), (.tuple [.address])]), internalType := none } : Param) := by decide +kernel
example : (deParam .direct (.obj [(lit "name", .str (lit "foo")), (lit "type", .str (lit "tuple")), (lit "components", .arr [.obj [(lit "name", .str (lit "amount")), (lit "type", .str (lit "uint48"))], .obj [(lit "name", .str (lit "things")), (lit "type", .str (lit "tuple")), (lit "components", .arr [.obj [(lit "name", .str (lit "baseTupleParam")), (lit "type", .str (lit "address"))]])]])] : Json)).bind (fun x => deParam .direct (serParam x)) = deParam .direct (.obj [(lit "name", .str (lit "foo")), (lit "type", .str (lit "tuple")), (lit "components", .arr [.obj [(lit "name", .str (lit "amount")), (lit "type", .str (lit "uint48"))], .obj [(lit "name", .str (lit "things")), (lit "type", .str (lit "tuple")), (lit "components", .arr [.obj [(lit "name", .str (lit "baseTupleParam")), (lit "type", .str (lit "address"))]])]])] : Json) := by decide +kernel

/-! param.rs:328-362 `param_tuple_array` -/
example : deParam .direct (.obj [(lit "name", .str (lit "foo")), (lit "type", .str (lit "tuple[]")), (lit "components", .arr [.obj [(lit "type", .str (lit "uint48"))], .obj [(lit "type", .str (lit "address"))], .obj [(lit "type", .str (lit "address"))]])] : Json) = .ok ({ name := (lit "foo"), kind := (.array (.tuple [(.uint 48), .address, .address])), internalType := none } : Param) := by decide +kernel
example : (deParam .direct (.obj [(lit "name", .str (lit "foo")), (lit "type", .str (lit "tuple[]")), (lit "components", .arr [.obj [(lit "type", .str (lit "uint48"))], .obj [(lit "type", .str (lit "address"))], .obj [(lit "type", .str (lit "address"))]])] : Json)).bind (fun x => Res.ok (sameJson (serParam x) (.obj [(lit "name", .str (lit "foo")), (lit "type", .str (lit "tuple[]")), (lit "components", .arr [.obj [(lit "type", .str (lit "uint48"))], .obj [(lit "type", .str (lit "address"))], .obj [(lit "type", .str (lit "address"))]])] : Json))) = .ok true := by decide +kernel

/-! param.rs:364-393 `param_array_of_array_of_tuple` -/
example : deParam .direct (.obj [(lit "name", .str (lit "foo")), (lit "type", .str (lit "tuple[][]")), (lit "components", .arr [.obj [(lit "type", .str (lit "uint8"))], .obj [(lit "type", .str (lit "uint16"))]])] : Json) = .ok ({ name := (lit "foo"), kind := (.array (.array (.tuple [(.uint 8), (.uint 16)]))), internalType := none } : Param) := by decide +kernel
example : (deParam .direct (.obj [(lit "name", .str (lit "foo")), (lit "type", .str (lit "tuple[][]")), (lit "components", .arr [.obj [(lit "type", .str (lit "uint8"))], .obj [(lit "type", .str (lit "uint16"))]])] : Json)).bind (fun x => Res.ok (sameJson (serParam x) (.obj [(lit "name", .str (lit "foo")), (lit "type", .str (lit "tuple[][]")), (lit "components", .arr [.obj [(lit "type", .str (lit "uint8"))], .obj [(lit "type", .str (lit "uint16"))]])] : Json))) = .ok true := by decide +kernel

/-! param.rs:395-428 `param_tuple_fixed_array` -/
example : deParam .direct (.obj [(lit "name", .str (lit "foo")), (lit "type", .str (lit "tuple[2]")), (lit "components", .arr [.obj [(lit "type", .str (lit "uint48"))], .obj [(lit "type", .str (lit "address"))], .obj [(lit "type", .str (lit "address"))]])] : Json) = .ok ({ name := (lit "foo"), kind := (.fixedArray (.tuple [(.uint 48), .address, .address]) 2), internalType := none } : Param) := by decide +kernel
example : (deParam .direct (.obj [(lit "name", .str (lit "foo")), (lit "type", .str (lit "tuple[2]")), (lit "components", .arr [.obj [(lit "type", .str (lit "uint48"))], .obj [(lit "type", .str (lit "address"))], .obj [(lit "type", .str (lit "address"))]])] : Json)).bind (fun x => Res.ok (sameJson (serParam x) (.obj [(lit "name", .str (lit "foo")), (lit "type", .str (lit "tuple[2]")), (lit "components", .arr [.obj [(lit "type", .str (lit "uint48"))], .obj [(lit "type", .str (lit "address"))], .obj [(lit "type", .str (lit "address"))]])] : Json))) = .ok true := by decide +kernel

/-! param.rs:430-470 `param_tuple_with_nested_tuple_arrays` -/
example : deParam .direct (.obj [(lit "name", .str (lit "foo")), (lit "type", .str (lit "tuple")), (lit "components", .arr [.obj [(lit "type", .str (lit "tuple[]")), (lit "components", .arr [.obj [(lit "type", .str (lit "address"))]])], .obj [(lit "type", .str (lit "tuple[42]")), (lit "components", .arr [.obj [(lit "type", .str (lit "address"))]])]])] : Json) = .ok ({ name := (lit "foo"), kind := (.tuple [(.array (.tuple [.address])), (.fixedArray (.tuple [.address]) 42)]), internalType := none } : Param) := by decide +kernel
example : (deParam .direct (.obj [(lit "name", .str (lit "foo")), (lit "type", .str (lit "tuple")), (lit "components", .arr [.obj [(lit "type", .str (lit "tuple[]")), (lit "components", .arr [.obj [(lit "type", .str (lit "address"))]])], .obj [(lit "type", .str (lit "tuple[42]")), (lit "components", .arr [.obj [(lit "type", .str (lit "address"))]])]])] : Json)).bind (fun x => Res.ok (sameJson (serParam x) (.obj [(lit "name", .str (lit "foo")), (lit "type", .str (lit "tuple")), (lit "components", .arr [.obj [(lit "type", .str (lit "tuple[]")), (lit "components", .arr [.obj [(lit "type", .str (lit "address"))]])], .obj [(lit "type", .str (lit "tuple[42]")), (lit "components", .arr [.obj [(lit "type", .str (lit "address"))]])]])] : Json))) = .ok true := by decide +kernel

/-! tuple_param.rs:124-139 `param_simple` -/
example : deTupleParam .direct (.obj [(lit "name", .str (lit "foo")), (lit "type", .str (lit "address"))] : Json) = .ok ({ name := (some (lit "foo")), kind := .address, internalType := none } : TupleParam) := by decide +kernel
example : (deTupleParam .direct (.obj [(lit "name", .str (lit "foo")), (lit "type", .str (lit "address"))] : Json)).bind (fun x => Res.ok (sameJson (serTupleParam x) (.obj [(lit "name", .str (lit "foo")), (lit "type", .str (lit "address"))] : Json))) = .ok true := by decide +kernel

/-! tuple_param.rs:141-161 `param_internal_type` -/
example : deTupleParam .direct (.obj [(lit "internalType", .str (lit "struct Verifier.Proof")), (lit "name", .str (lit "foo")), (lit "type", .str (lit "address"))] : Json) = .ok ({ name := (some (lit "foo")), kind := .address, internalType := (some (lit "struct Verifier.Proof")) } : TupleParam) := by decide +kernel
example : (deTupleParam .direct (.obj [(lit "internalType", .str (lit "struct Verifier.Proof")), (lit "name", .str (lit "foo")), (lit "type", .str (lit "address"))] : Json)).bind (fun x => Res.ok (sameJson (serTupleParam x) (.obj [(lit "internalType", .str (lit "struct Verifier.Proof")), (lit "name", .str (lit "foo")), (lit "type", .str (lit "address"))] : Json))) = .ok true := by decide +kernel

/-! tuple_param.rs:163-174 `param_unnamed` -/
example : deTupleParam .direct (.obj [(lit "type", .str (lit "address"))] : Json) = .ok ({ name := none, kind := .address, internalType := none } : TupleParam) := by decide +kernel
example : (deTupleParam .direct (.obj [(lit "type", .str (lit "address"))] : Json)).bind (fun x => Res.ok (sameJson (serTupleParam x) (.obj [(lit "type", .str (lit "address"))] : Json))) = .ok true := by decide +kernel

/-! tuple_param.rs:176-207 `param_tuple` -/
example : deTupleParam .direct (.obj [(lit "type", .str (lit "tuple")), (lit "components", .arr [.obj [(lit "type", .str (lit "uint48"))], .obj [(lit "type", .str (lit "tuple")), (lit "components", .arr [.obj [(lit "type", .str (lit "address"))]])]])] : Json) = .ok ({ name := none, kind := (.tuple [(.uint 48), (.tuple [.address])]), internalType := none } : TupleParam) := by decide +kernel
example : (deTupleParam .direct (.obj [(lit "type", .str (lit "tuple")), (lit "components", .arr [.obj [(lit "type", .str (lit "uint48"))], .obj [(lit "type", .str (lit "tuple")), (lit "components", .arr [.obj [(lit "type", .str (lit "address"))]])]])] : Json)).bind (fun x => Res.ok (sameJson (serTupleParam x) (.obj [(lit "type", .str (lit "tuple")), (lit "components", .arr [.obj [(lit "type", .str (lit "uint48"))], .obj [(lit "type", .str (lit "tuple")), (lit "components", .arr [.obj [(lit "type", .str (lit "address"))]])]])] : Json))) = .ok true := by decide +kernel

/-! tuple_param.rs:209-243 `param_tuple_named` -/
example : deTupleParam .direct (.obj [(lit "type", .str (lit "tuple")), (lit "components", .arr [.obj [(lit "name", .str (lit "amount")), (lit "type", .str (lit "uint48"))], .obj [(lit "name", .str (lit "things")), (lit "type", .str (lit "tuple")), (lit "components", .arr [.obj [(lit "name", .str (lit "baseTupleParam")), (lit "type", .str (lit "address"))]])]])] : Json) = .ok ({ name := none, kind := (.tuple [(.uint 48), (.tuple [.address])]), internalType := none } : TupleParam) := by decide +kernel
example : (deTupleParam .direct (.obj [(lit "type", .str (lit "tuple")), (lit "components", .arr [.obj [(lit "name", .str (lit "amount")), (lit "type", .str (lit "uint48"))], .obj [(lit "name", .str (lit "things")), (lit "type", .str (lit "tuple")), (lit "components", .arr [.obj [(lit "name", .str (lit "baseTupleParam")), (lit "type", .str (lit "address"))]])]])] : Json)).bind (fun x => deTupleParam .direct (serTupleParam x)) = deTupleParam .direct (.obj [(lit "type", .str (lit "tuple")), (lit "components", .arr [.obj [(lit "name", .str (lit "amount")), (lit "type", .str (lit "uint48"))], .obj [(lit "name", .str (lit "things")), (lit "type", .str (lit "tuple")), (lit "components", .arr [.obj [(lit "name", .str (lit "baseTupleParam")), (lit "type", .str (lit "address"))]])]])] : Json) := by decide +kernel

/-! tuple_param.rs:245-278 `param_tuple_array` -/
example : deTupleParam .direct (.obj [(lit "type", .str (lit "tuple[]")), (lit "components", .arr [.obj [(lit "type", .str (lit "uint48"))], .obj [(lit "type", .str (lit "address"))], .obj [(lit "type", .str (lit "address"))]])] : Json) = .ok ({ name := none, kind := (.array (.tuple [(.uint 48), .address, .address])), internalType := none } : TupleParam) := by decide +kernel
example : (deTupleParam .direct (.obj [(lit "type", .str (lit "tuple[]")), (lit "components", .arr [.obj [(lit "type", .str (lit "uint48"))], .obj [(lit "type", .str (lit "address"))], .obj [(lit "type", .str (lit "address"))]])] : Json)).bind (fun x => Res.ok (sameJson (serTupleParam x) (.obj [(lit "type", .str (lit "tuple[]")), (lit "components", .arr [.obj [(lit "type", .str (lit "uint48"))], .obj [(lit "type", .str (lit "address"))], .obj [(lit "type", .str (lit "address"))]])] : Json))) = .ok true := by decide +kernel

/-! tuple_param.rs:280-308 `param_array_of_array_of_tuple` -/
example : deTupleParam .direct (.obj [(lit "type", .str (lit "tuple[][]")), (lit "components", .arr [.obj [(lit "type", .str (lit "uint8"))], .obj [(lit "type", .str (lit "uint16"))]])] : Json) = .ok ({ name := none, kind := (.array (.array (.tuple [(.uint 8), (.uint 16)]))), internalType := none } : TupleParam) := by decide +kernel
example : (deTupleParam .direct (.obj [(lit "type", .str (lit "tuple[][]")), (lit "components", .arr [.obj [(lit "type", .str (lit "uint8"))], .obj [(lit "type", .str (lit "uint16"))]])] : Json)).bind (fun x => Res.ok (sameJson (serTupleParam x) (.obj [(lit "type", .str (lit "tuple[][]")), (lit "components", .arr [.obj [(lit "type", .str (lit "uint8"))], .obj [(lit "type", .str (lit "uint16"))]])] : Json))) = .ok true := by decide +kernel

/-! tuple_param.rs:310-342 `param_tuple_fixed_array` -/
example : deTupleParam .direct (.obj [(lit "type", .str (lit "tuple[2]")), (lit "components", .arr [.obj [(lit "type", .str (lit "uint48"))], .obj [(lit "type", .str (lit "address"))], .obj [(lit "type", .str (lit "address"))]])] : Json) = .ok ({ name := none, kind := (.fixedArray (.tuple [(.uint 48), .address, .address]) 2), internalType := none } : TupleParam) := by decide +kernel
example : (deTupleParam .direct (.obj [(lit "type", .str (lit "tuple[2]")), (lit "components", .arr [.obj [(lit "type", .str (lit "uint48"))], .obj [(lit "type", .str (lit "address"))], .obj [(lit "type", .str (lit "address"))]])] : Json)).bind (fun x => Res.ok (sameJson (serTupleParam x) (.obj [(lit "type", .str (lit "tuple[2]")), (lit "components", .arr [.obj [(lit "type", .str (lit "uint48"))], .obj [(lit "type", .str (lit "address"))], .obj [(lit "type", .str (lit "address"))]])] : Json))) = .ok true := by decide +kernel

/-! tuple_param.rs:344-383 `param_tuple_with_nested_tuple_arrays` -/
example : deTupleParam .direct (.obj [(lit "type", .str (lit "tuple")), (lit "components", .arr [.obj [(lit "type", .str (lit "tuple[]")), (lit "components", .arr [.obj [(lit "type", .str (lit "address"))]])], .obj [(lit "type", .str (lit "tuple[42]")), (lit "components", .arr [.obj [(lit "type", .str (lit "address"))]])]])] : Json) = .ok ({ name := none, kind := (.tuple [(.array (.tuple [.address])), (.fixedArray (.tuple [.address]) 42)]), internalType := none } : TupleParam) := by decide +kernel
example : (deTupleParam .direct (.obj [(lit "type", .str (lit "tuple")), (lit "components", .arr [.obj [(lit "type", .str (lit "tuple[]")), (lit "components", .arr [.obj [(lit "type", .str (lit "address"))]])], .obj [(lit "type", .str (lit "tuple[42]")), (lit "components", .arr [.obj [(lit "type", .str (lit "address"))]])]])] : Json)).bind (fun x => Res.ok (sameJson (serTupleParam x) (.obj [(lit "type", .str (lit "tuple")), (lit "components", .arr [.obj [(lit "type", .str (lit "tuple[]")), (lit "components", .arr [.obj [(lit "type", .str (lit "address"))]])], .obj [(lit "type", .str (lit "tuple[42]")), (lit "components", .arr [.obj [(lit "type", .str (lit "address"))]])]])] : Json))) = .ok true := by decide +kernel

/-! event_param.rs:116-129 `event_param_deserialization` -/
example : deEventParam .direct (.obj [(lit "name", .str (lit "foo")), (lit "type", .str (lit "address")), (lit "indexed", .bool true)] : Json) = .ok ({ name := (lit "foo"), kind := .address, indexed := true } : EventParam) := by decide +kernel
example : (deEventParam .direct (.obj [(lit "name", .str (lit "foo")), (lit "type", .str (lit "address")), (lit "indexed", .bool true)] : Json)).bind (fun x => Res.ok (sameJson (serEventParam x) (.obj [(lit "name", .str (lit "foo")), (lit "type", .str (lit "address")), (lit "indexed", .bool true)] : Json))) = .ok true := by decide +kernel

/-! event_param.rs:131-164 `event_param_tuple_deserialization` -/
example : deEventParam .direct (.obj [(lit "name", .str (lit "foo")), (lit "type", .str (lit "tuple")), (lit "indexed", .bool true), (lit "components", .arr [.obj [(lit "type", .str (lit "uint48"))], .obj [(lit "type", .str (lit "tuple")), (lit "components", .arr [.obj [(lit "type", .str (lit "address"))]])]])] : Json) = .ok ({ name := (lit "foo"), kind := (.tuple [(.uint 48), (.tuple [.address])]), indexed := true } : EventParam) := by decide +kernel
example : (deEventParam .direct (.obj [(lit "name", .str (lit "foo")), (lit "type", .str (lit "tuple")), (lit "indexed", .bool true), (lit "components", .arr [.obj [(lit "type", .str (lit "uint48"))], .obj [(lit "type", .str (lit "tuple")), (lit "components", .arr [.obj [(lit "type", .str (lit "address"))]])]])] : Json)).bind (fun x => Res.ok (sameJson (serEventParam x) (.obj [(lit "name", .str (lit "foo")), (lit "type", .str (lit "tuple")), (lit "indexed", .bool true), (lit "components", .arr [.obj [(lit "type", .str (lit "uint48"))], .obj [(lit "type", .str (lit "tuple")), (lit "components", .arr [.obj [(lit "type", .str (lit "address"))]])]])] : Json))) = .ok true := by decide +kernel

/-! event_param.rs:166-230 `event_param_tuple_array_deserialization` -/
example : deEventParam .direct (.obj [(lit "components", .arr [.obj [(lit "type", .str (lit "uint256"))], .obj [(lit "type", .str (lit "address"))], .obj [(lit "components", .arr [.obj [(lit "type", .str (lit "address"))], .obj [(lit "type", .str (lit "address"))]]), (lit "type", .str (lit "tuple"))], .obj [(lit "type", .str (lit "uint256"))], .obj [(lit "components", .arr [.obj [(lit "components", .arr [.obj [(lit "type", .str (lit "address"))], .obj [(lit "type", .str (lit "bytes"))]]), (lit "type", .str (lit "tuple[]"))], .obj [(lit "components", .arr [.obj [(lit "type", .str (lit "address"))], .obj [(lit "type", .str (lit "uint256"))]]), (lit "type", .str (lit "tuple[]"))], .obj [(lit "type", .str (lit "uint256"))]]), (lit "type", .str (lit "tuple[]"))], .obj [(lit "type", .str (lit "uint256"))]]), (lit "indexed", .bool false), (lit "name", .str (lit "LogTaskSubmitted")), (lit "type", .str (lit "tuple"))] : Json) = .ok ({ name := (lit "LogTaskSubmitted"), kind := (.tuple [(.uint 256), .address, (.tuple [.address, .address]), (.uint 256), (.array (.tuple [(.array (.tuple [.address, .bytes])), (.array (.tuple [.address, (.uint 256)])), (.uint 256)])), (.uint 256)]), indexed := false } : EventParam) := by decide +kernel
example : (deEventParam .direct (.obj [(lit "components", .arr [.obj [(lit "type", .str (lit "uint256"))], .obj [(lit "type", .str (lit "address"))], .obj [(lit "components", .arr [.obj [(lit "type", .str (lit "address"))], .obj [(lit "type", .str (lit "address"))]]), (lit "type", .str (lit "tuple"))], .obj [(lit "type", .str (lit "uint256"))], .obj [(lit "components", .arr [.obj [(lit "components", .arr [.obj [(lit "type", .str (lit "address"))], .obj [(lit "type", .str (lit "bytes"))]]), (lit "type", .str (lit "tuple[]"))], .obj [(lit "components", .arr [.obj [(lit "type", .str (lit "address"))], .obj [(lit "type", .str (lit "uint256"))]]), (lit "type", .str (lit "tuple[]"))], .obj [(lit "type", .str (lit "uint256"))]]), (lit "type", .str (lit "tuple[]"))], .obj [(lit "type", .str (lit "uint256"))]]), (lit "indexed", .bool false), (lit "name", .str (lit "LogTaskSubmitted")), (lit "type", .str (lit "tuple"))] : Json)).bind (fun x => Res.ok (sameJson (serEventParam x) (.obj [(lit "components", .arr [.obj [(lit "type", .str (lit "uint256"))], .obj [(lit "type", .str (lit "address"))], .obj [(lit "components", .arr [.obj [(lit "type", .str (lit "address"))], .obj [(lit "type", .str (lit "address"))]]), (lit "type", .str (lit "tuple"))], .obj [(lit "type", .str (lit "uint256"))], .obj [(lit "components", .arr [.obj [(lit "components", .arr [.obj [(lit "type", .str (lit "address"))], .obj [(lit "type", .str (lit "bytes"))]]), (lit "type", .str (lit "tuple[]"))], .obj [(lit "components", .arr [.obj [(lit "type", .str (lit "address"))], .obj [(lit "type", .str (lit "uint256"))]]), (lit "type", .str (lit "tuple[]"))], .obj [(lit "type", .str (lit "uint256"))]]), (lit "type", .str (lit "tuple[]"))], .obj [(lit "type", .str (lit "uint256"))]]), (lit "indexed", .bool false), (lit "name", .str (lit "LogTaskSubmitted")), (lit "type", .str (lit "tuple"))] : Json))) = .ok true := by decide +kernel

/-! operation.rs:40-65 `operation` -/
example : deOperation (.obj [(lit "type", .str (lit "function")), (lit "inputs", .arr [.obj [(lit "name", .str (lit "a")), (lit "type", .str (lit "address"))]]), (lit "name", .str (lit "foo")), (lit "outputs", .arr [])] : Json) = .ok (Operation.function ({ name := (lit "foo"), inputs := [({ name := (lit "a"), kind := .address, internalType := none } : Param)], outputs := [], constant := false, stateMutability := .nonPayable } : Function)) := by decide +kernel
example : (deOperation (.obj [(lit "type", .str (lit "function")), (lit "inputs", .arr [.obj [(lit "name", .str (lit "a")), (lit "type", .str (lit "address"))]]), (lit "name", .str (lit "foo")), (lit "outputs", .arr [])] : Json)).bind (fun x => deOperation (serOperation x)) = deOperation (.obj [(lit "type", .str (lit "function")), (lit "inputs", .arr [.obj [(lit "name", .str (lit "a")), (lit "type", .str (lit "address"))]]), (lit "name", .str (lit "foo")), (lit "outputs", .arr [])] : Json) := by decide +kernel

/-! operation.rs:67-129 `event_operation_with_tuple_array_input` -/
example : deOperation (.obj [(lit "type", .str (lit "event")), (lit "inputs", .arr [.obj [(lit "name", .str (lit "a")), (lit "type", .str (lit "address")), (lit "indexed", .bool true)], .obj [(lit "components", .arr [.obj [(lit "internalType", .str (lit "address")), (lit "name", .str (lit "to")), (lit "type", .str (lit "address"))], .obj [(lit "internalType", .str (lit "uint256")), (lit "name", .str (lit "value")), (lit "type", .str (lit "uint256"))], .obj [(lit "internalType", .str (lit "bytes")), (lit "name", .str (lit "data")), (lit "type", .str (lit "bytes"))]]), (lit "indexed", .bool false), (lit "internalType", .str (lit "struct Action[]")), (lit "name", .str (lit "b")), (lit "type", .str (lit "tuple[]"))]]), (lit "name", .str (lit "E")), (lit "outputs", .arr []), (lit "anonymous", .bool false)] : Json) = .ok (Operation.event ({ name := (lit "E"), inputs := [({ name := (lit "a"), kind := .address, indexed := true } : EventParam), ({ name := (lit "b"), kind := (.array (.tuple [.address, (.uint 256), .bytes])), indexed := false } : EventParam)], anonymous := false } : Event)) := by decide +kernel
example : (deOperation (.obj [(lit "type", .str (lit "event")), (lit "inputs", .arr [.obj [(lit "name", .str (lit "a")), (lit "type", .str (lit "address")), (lit "indexed", .bool true)], .obj [(lit "components", .arr [.obj [(lit "internalType", .str (lit "address")), (lit "name", .str (lit "to")), (lit "type", .str (lit "address"))], .obj [(lit "internalType", .str (lit "uint256")), (lit "name", .str (lit "value")), (lit "type", .str (lit "uint256"))], .obj [(lit "internalType", .str (lit "bytes")), (lit "name", .str (lit "data")), (lit "type", .str (lit "bytes"))]]), (lit "indexed", .bool false), (lit "internalType", .str (lit "struct Action[]")), (lit "name", .str (lit "b")), (lit "type", .str (lit "tuple[]"))]]), (lit "name", .str (lit "E")), (lit "outputs", .arr []), (lit "anonymous", .bool false)] : Json)).bind (fun x => deOperation (serOperation x)) = deOperation (.obj [(lit "type", .str (lit "event")), (lit "inputs", .arr [.obj [(lit "name", .str (lit "a")), (lit "type", .str (lit "address")), (lit "indexed", .bool true)], .obj [(lit "components", .arr [.obj [(lit "internalType", .str (lit "address")), (lit "name", .str (lit "to")), (lit "type", .str (lit "address"))], .obj [(lit "internalType", .str (lit "uint256")), (lit "name", .str (lit "value")), (lit "type", .str (lit "uint256"))], .obj [(lit "internalType", .str (lit "bytes")), (lit "name", .str (lit "data")), (lit "type", .str (lit "bytes"))]]), (lit "indexed", .bool false), (lit "internalType", .str (lit "struct Action[]")), (lit "name", .str (lit "b")), (lit "type", .str (lit "tuple[]"))]]), (lit "name", .str (lit "E")), (lit "outputs", .arr []), (lit "anonymous", .bool false)] : Json) := by decide +kernel

/-! operation.rs:131-162 `sanitize_function_name` -/
example : sanitizeName (lit "foo") = (lit "foo") := by decide +kernel
example : sanitizeName (lit "foo()") = (lit "foo") := by decide +kernel
example : sanitizeName (lit "()") = (lit "") := by decide +kernel
example : sanitizeName (lit "") = (lit "") := by decide +kernel

/-! operation.rs:164-197 `sanitize_event_name` -/
example : sanitizeName (lit "foo") = (lit "foo") := by decide +kernel
example : sanitizeName (lit "foo()") = (lit "foo") := by decide +kernel
example : sanitizeName (lit "()") = (lit "") := by decide +kernel
example : sanitizeName (lit "") = (lit "") := by decide +kernel

end Ethabi.Tests

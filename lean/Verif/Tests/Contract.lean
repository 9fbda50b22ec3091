import Verif.Tests.Helpers
import Verif.Model.Contract
/-!
# Tests: unit tests of the Rust code run on the model

Generated by tools/rust_tests.py from ethabi/src/contract.rs.
These are tests of the model (finitely many inputs), not proofs of any property.
-/
namespace Ethabi.Tests

/-! contract.rs:209-227 `empty` -/
example : deContract (.arr [] : Json) = .ok ({ constructor := none, functions := [], events := [], receive := false, fallback := false } : Contract) := by decide +kernel
example : (deContract (.arr [] : Json)).bind (fun x => deContract (serContract x)) = deContract (.arr [] : Json) := by decide +kernel

/-! contract.rs:229-261 `constructor` -/
example : deContract (.arr [.obj [(lit "type", .str (lit "constructor")), (lit "inputs", .arr [.obj [(lit "name", .str (lit "a")), (lit "type", .str (lit "address"))]])]] : Json) = .ok ({ constructor := (some ({ inputs := [({ name := (lit "a"), kind := .address, internalType := none } : Param)] } : Constructor)), functions := [], events := [], receive := false, fallback := false } : Contract) := by decide +kernel
example : (deContract (.arr [.obj [(lit "type", .str (lit "constructor")), (lit "inputs", .arr [.obj [(lit "name", .str (lit "a")), (lit "type", .str (lit "address"))]])]] : Json)).bind (fun x => deContract (serContract x)) = deContract (.arr [.obj [(lit "type", .str (lit "constructor")), (lit "inputs", .arr [.obj [(lit "name", .str (lit "a")), (lit "type", .str (lit "address"))]])]] : Json) := by decide +kernel

/-! contract.rs:263-335 `functions` -/
example : deContract (.arr [.obj [(lit "type", .str (lit "function")), (lit "name", .str (lit "foo")), (lit "inputs", .arr [.obj [(lit "name", .str (lit "a")), (lit "type", .str (lit "address"))]]), (lit "outputs", .arr [.obj [(lit "name", .str (lit "res")), (lit "type", .str (lit "address"))]])], .obj [(lit "type", .str (lit "function")), (lit "name", .str (lit "bar")), (lit "inputs", .arr []), (lit "outputs", .arr [])]] : Json) = .ok ({ constructor := none, functions := [(lit "foo", [({ name := (lit "foo"), inputs := [({ name := (lit "a"), kind := .address, internalType := none } : Param)], outputs := [({ name := (lit "res"), kind := .address, internalType := none } : Param)], constant := false, stateMutability := .nonPayable } : Function)]), (lit "bar", [({ name := (lit "bar"), inputs := [], outputs := [], constant := false, stateMutability := .nonPayable } : Function)])], events := [], receive := false, fallback := false } : Contract) := by decide +kernel
example : (deContract (.arr [.obj [(lit "type", .str (lit "function")), (lit "name", .str (lit "foo")), (lit "inputs", .arr [.obj [(lit "name", .str (lit "a")), (lit "type", .str (lit "address"))]]), (lit "outputs", .arr [.obj [(lit "name", .str (lit "res")), (lit "type", .str (lit "address"))]])], .obj [(lit "type", .str (lit "function")), (lit "name", .str (lit "bar")), (lit "inputs", .arr []), (lit "outputs", .arr [])]] : Json)).bind (fun x => deContract (serContract x)) = deContract (.arr [.obj [(lit "type", .str (lit "function")), (lit "name", .str (lit "foo")), (lit "inputs", .arr [.obj [(lit "name", .str (lit "a")), (lit "type", .str (lit "address"))]]), (lit "outputs", .arr [.obj [(lit "name", .str (lit "res")), (lit "type", .str (lit "address"))]])], .obj [(lit "type", .str (lit "function")), (lit "name", .str (lit "bar")), (lit "inputs", .arr []), (lit "outputs", .arr [])]] : Json) := by decide +kernel

/-! contract.rs:337-406 `functions_overloads` -/
example : deContract (.arr [.obj [(lit "type", .str (lit "function")), (lit "name", .str (lit "foo")), (lit "inputs", .arr [.obj [(lit "name", .str (lit "a")), (lit "type", .str (lit "address"))]]), (lit "outputs", .arr [.obj [(lit "name", .str (lit "res")), (lit "type", .str (lit "address"))]])], .obj [(lit "type", .str (lit "function")), (lit "name", .str (lit "foo")), (lit "inputs", .arr []), (lit "outputs", .arr [])]] : Json) = .ok ({ constructor := none, functions := [(lit "foo", [({ name := (lit "foo"), inputs := [({ name := (lit "a"), kind := .address, internalType := none } : Param)], outputs := [({ name := (lit "res"), kind := .address, internalType := none } : Param)], constant := false, stateMutability := .nonPayable } : Function), ({ name := (lit "foo"), inputs := [], outputs := [], constant := false, stateMutability := .nonPayable } : Function)])], events := [], receive := false, fallback := false } : Contract) := by decide +kernel
example : (deContract (.arr [.obj [(lit "type", .str (lit "function")), (lit "name", .str (lit "foo")), (lit "inputs", .arr [.obj [(lit "name", .str (lit "a")), (lit "type", .str (lit "address"))]]), (lit "outputs", .arr [.obj [(lit "name", .str (lit "res")), (lit "type", .str (lit "address"))]])], .obj [(lit "type", .str (lit "function")), (lit "name", .str (lit "foo")), (lit "inputs", .arr []), (lit "outputs", .arr [])]] : Json)).bind (fun x => deContract (serContract x)) = deContract (.arr [.obj [(lit "type", .str (lit "function")), (lit "name", .str (lit "foo")), (lit "inputs", .arr [.obj [(lit "name", .str (lit "a")), (lit "type", .str (lit "address"))]]), (lit "outputs", .arr [.obj [(lit "name", .str (lit "res")), (lit "type", .str (lit "address"))]])], .obj [(lit "type", .str (lit "function")), (lit "name", .str (lit "foo")), (lit "inputs", .arr []), (lit "outputs", .arr [])]] : Json) := by decide +kernel

/-! contract.rs:408-473 `events` -/
example : deContract (.arr [.obj [(lit "type", .str (lit "event")), (lit "name", .str (lit "foo")), (lit "inputs", .arr [.obj [(lit "name", .str (lit "a")), (lit "type", .str (lit "address"))]]), (lit "anonymous", .bool false)], .obj [(lit "type", .str (lit "event")), (lit "name", .str (lit "bar")), (lit "inputs", .arr [.obj [(lit "name", .str (lit "a")), (lit "type", .str (lit "address")), (lit "indexed", .bool true)]]), (lit "anonymous", .bool false)]] : Json) = .ok ({ constructor := none, functions := [], events := [(lit "foo", [({ name := (lit "foo"), inputs := [({ name := (lit "a"), kind := .address, indexed := false } : EventParam)], anonymous := false } : Event)]), (lit "bar", [({ name := (lit "bar"), inputs := [({ name := (lit "a"), kind := .address, indexed := true } : EventParam)], anonymous := false } : Event)])], receive := false, fallback := false } : Contract) := by decide +kernel
example : (deContract (.arr [.obj [(lit "type", .str (lit "event")), (lit "name", .str (lit "foo")), (lit "inputs", .arr [.obj [(lit "name", .str (lit "a")), (lit "type", .str (lit "address"))]]), (lit "anonymous", .bool false)], .obj [(lit "type", .str (lit "event")), (lit "name", .str (lit "bar")), (lit "inputs", .arr [.obj [(lit "name", .str (lit "a")), (lit "type", .str (lit "address")), (lit "indexed", .bool true)]]), (lit "anonymous", .bool false)]] : Json)).bind (fun x => deContract (serContract x)) = deContract (.arr [.obj [(lit "type", .str (lit "event")), (lit "name", .str (lit "foo")), (lit "inputs", .arr [.obj [(lit "name", .str (lit "a")), (lit "type", .str (lit "address"))]]), (lit "anonymous", .bool false)], .obj [(lit "type", .str (lit "event")), (lit "name", .str (lit "bar")), (lit "inputs", .arr [.obj [(lit "name", .str (lit "a")), (lit "type", .str (lit "address")), (lit "indexed", .bool true)]]), (lit "anonymous", .bool false)]] : Json) := by decide +kernel

/-! contract.rs:475-537 `events_overload` -/
example : deContract (.arr [.obj [(lit "type", .str (lit "event")), (lit "name", .str (lit "foo")), (lit "inputs", .arr [.obj [(lit "name", .str (lit "a")), (lit "type", .str (lit "address"))]]), (lit "anonymous", .bool false)], .obj [(lit "type", .str (lit "event")), (lit "name", .str (lit "foo")), (lit "inputs", .arr [.obj [(lit "name", .str (lit "a")), (lit "type", .str (lit "address")), (lit "indexed", .bool true)]]), (lit "anonymous", .bool false)]] : Json) = .ok ({ constructor := none, functions := [], events := [(lit "foo", [({ name := (lit "foo"), inputs := [({ name := (lit "a"), kind := .address, indexed := false } : EventParam)], anonymous := false } : Event), ({ name := (lit "foo"), inputs := [({ name := (lit "a"), kind := .address, indexed := true } : EventParam)], anonymous := false } : Event)])], receive := false, fallback := false } : Contract) := by decide +kernel
example : (deContract (.arr [.obj [(lit "type", .str (lit "event")), (lit "name", .str (lit "foo")), (lit "inputs", .arr [.obj [(lit "name", .str (lit "a")), (lit "type", .str (lit "address"))]]), (lit "anonymous", .bool false)], .obj [(lit "type", .str (lit "event")), (lit "name", .str (lit "foo")), (lit "inputs", .arr [.obj [(lit "name", .str (lit "a")), (lit "type", .str (lit "address")), (lit "indexed", .bool true)]]), (lit "anonymous", .bool false)]] : Json)).bind (fun x => deContract (serContract x)) = deContract (.arr [.obj [(lit "type", .str (lit "event")), (lit "name", .str (lit "foo")), (lit "inputs", .arr [.obj [(lit "name", .str (lit "a")), (lit "type", .str (lit "address"))]]), (lit "anonymous", .bool false)], .obj [(lit "type", .str (lit "event")), (lit "name", .str (lit "foo")), (lit "inputs", .arr [.obj [(lit "name", .str (lit "a")), (lit "type", .str (lit "address")), (lit "indexed", .bool true)]]), (lit "anonymous", .bool false)]] : Json) := by decide +kernel

/-! contract.rs:539-561 `receive` -/
example : deContract (.arr [.obj [(lit "type", .str (lit "receive"))]] : Json) = .ok ({ constructor := none, functions := [], events := [], receive := true, fallback := false } : Contract) := by decide +kernel
example : (deContract (.arr [.obj [(lit "type", .str (lit "receive"))]] : Json)).bind (fun x => deContract (serContract x)) = deContract (.arr [.obj [(lit "type", .str (lit "receive"))]] : Json) := by decide +kernel

/-! contract.rs:563-585 `fallback` -/
example : deContract (.arr [.obj [(lit "type", .str (lit "fallback"))]] : Json) = .ok ({ constructor := none, functions := [], events := [], receive := false, fallback := true } : Contract) := by decide +kernel
example : (deContract (.arr [.obj [(lit "type", .str (lit "fallback"))]] : Json)).bind (fun x => deContract (serContract x)) = deContract (.arr [.obj [(lit "type", .str (lit "fallback"))]] : Json) := by decide +kernel

end Ethabi.Tests

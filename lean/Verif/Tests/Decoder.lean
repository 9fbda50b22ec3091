import Verif.Tests.Helpers
import Verif.Model.Decoder
import Verif.Model.Function
/-!
# Tests: unit tests of the Rust code run on the model

Generated by tools/rust_tests.py from ethabi/src/decoder.rs.
These are tests of the model (finitely many inputs), not proofs of any property.
-/
namespace Ethabi.Tests

/-! decoder.rs:223-241 `decode_from_empty_byte_slice` -/
example : isErr (decode .debug [.address] ([] : Bytes)) = true := by decide +kernel
example : isErr (decode .debug [.bytes] ([] : Bytes)) = true := by decide +kernel
example : isErr (decode .debug [(.int 0)] ([] : Bytes)) = true := by decide +kernel
example : isErr (decode .debug [(.int 1)] ([] : Bytes)) = true := by decide +kernel
example : isErr (decode .debug [(.int 0)] ([] : Bytes)) = true := by decide +kernel
example : isErr (decode .debug [(.int 1)] ([] : Bytes)) = true := by decide +kernel
example : isErr (decode .debug [.bool] ([] : Bytes)) = true := by decide +kernel
example : isErr (decode .debug [.string] ([] : Bytes)) = true := by decide +kernel
example : isErr (decode .debug [(.array .bool)] ([] : Bytes)) = true := by decide +kernel
example : isErr (decode .debug [(.fixedBytes 1)] ([] : Bytes)) = true := by decide +kernel
example : isErr (decode .debug [(.fixedArray .bool 1)] ([] : Bytes)) = true := by decide +kernel
example : isOk (decode .debug [(.fixedBytes 0)] ([] : Bytes)) = true := by decide +kernel
example : isOk (decode .debug [(.fixedArray .bool 0)] ([] : Bytes)) = true := by decide +kernel

/-! decoder.rs:243-261 `decode_static_tuple_of_addresses_and_uints` -/
example : decode .debug [(.tuple [.address, .address, (.uint 32)])] (hx 96 [0x0000000000000000000000001111111111111111111111111111111111111111,
      0x0000000000000000000000002222222222222222222222222222222222222222,
      0x1111111111111111111111111111111111111111111111111111111111111111]) = .ok ([(.tuple [(.address (addr (hx 20 [0x1111111111111111111111111111111111111111]))), (.address (addr (hx 20 [0x2222222222222222222222222222222222222222]))), (.uint 0x1111111111111111111111111111111111111111111111111111111111111111#256)])]) := by decide +kernel

/-! decoder.rs:263-282 `decode_dynamic_tuple` -/
example : decode .debug [(.tuple [.string, .string])] (hx 224 [0x0000000000000000000000000000000000000000000000000000000000000020,
      0x0000000000000000000000000000000000000000000000000000000000000040,
      0x0000000000000000000000000000000000000000000000000000000000000080,
      0x0000000000000000000000000000000000000000000000000000000000000009,
      0x6761766f66796f726b0000000000000000000000000000000000000000000000,
      0x0000000000000000000000000000000000000000000000000000000000000009,
      0x6761766f66796f726b0000000000000000000000000000000000000000000000]) = .ok ([(.tuple [(.string (lit "gavofyork")), (.string (lit "gavofyork"))])]) := by decide +kernel

/-! decoder.rs:284-338 `decode_nested_tuple` -/
example : decode .debug [(.tuple [.string, .bool, .string, (.tuple [.string, .string, (.tuple [.string, .string])])])] (hx 704 [0x0000000000000000000000000000000000000000000000000000000000000020,
      0x0000000000000000000000000000000000000000000000000000000000000080,
      0x0000000000000000000000000000000000000000000000000000000000000001,
      0x00000000000000000000000000000000000000000000000000000000000000c0,
      0x0000000000000000000000000000000000000000000000000000000000000100,
      0x0000000000000000000000000000000000000000000000000000000000000004,
      0x7465737400000000000000000000000000000000000000000000000000000000,
      0x0000000000000000000000000000000000000000000000000000000000000006,
      0x6379626f72670000000000000000000000000000000000000000000000000000,
      0x0000000000000000000000000000000000000000000000000000000000000060,
      0x00000000000000000000000000000000000000000000000000000000000000a0,
      0x00000000000000000000000000000000000000000000000000000000000000e0,
      0x0000000000000000000000000000000000000000000000000000000000000005,
      0x6e69676874000000000000000000000000000000000000000000000000000000,
      0x0000000000000000000000000000000000000000000000000000000000000003,
      0x6461790000000000000000000000000000000000000000000000000000000000,
      0x0000000000000000000000000000000000000000000000000000000000000040,
      0x0000000000000000000000000000000000000000000000000000000000000080,
      0x0000000000000000000000000000000000000000000000000000000000000004,
      0x7765656500000000000000000000000000000000000000000000000000000000,
      0x0000000000000000000000000000000000000000000000000000000000000008,
      0x66756e7465737473000000000000000000000000000000000000000000000000]) = .ok ([(.tuple [(.string (lit "test")), (.bool true), (.string (lit "cyborg")), (.tuple [(.string (lit "night")), (.string (lit "day")), (.tuple [(.string (lit "weee")), (.string (lit "funtests"))])])])]) := by decide +kernel

/-! decoder.rs:340-365 `decode_complex_tuple_of_dynamic_and_static_types` -/
example : decode .debug [(.tuple [(.uint 32), .string, .address, .address])] (hx 224 [0x0000000000000000000000000000000000000000000000000000000000000020,
      0x1111111111111111111111111111111111111111111111111111111111111111,
      0x0000000000000000000000000000000000000000000000000000000000000080,
      0x0000000000000000000000001111111111111111111111111111111111111111,
      0x0000000000000000000000002222222222222222222222222222222222222222,
      0x0000000000000000000000000000000000000000000000000000000000000009,
      0x6761766f66796f726b0000000000000000000000000000000000000000000000]) = .ok ([(.tuple [(.uint 0x1111111111111111111111111111111111111111111111111111111111111111#256), (.string (lit "gavofyork")), (.address (addr (hx 20 [0x1111111111111111111111111111111111111111]))), (.address (addr (hx 20 [0x2222222222222222222222222222222222222222])))])]) := by decide +kernel

/-! decoder.rs:367-406 `decode_params_containing_dynamic_tuple` -/
example : decode .debug [.address, (.tuple [.bool, .string, .string]), .address, .address, .bool] (hx 384 [0x0000000000000000000000002222222222222222222222222222222222222222,
      0x00000000000000000000000000000000000000000000000000000000000000a0,
      0x0000000000000000000000003333333333333333333333333333333333333333,
      0x0000000000000000000000004444444444444444444444444444444444444444,
      0x0000000000000000000000000000000000000000000000000000000000000000,
      0x0000000000000000000000000000000000000000000000000000000000000001,
      0x0000000000000000000000000000000000000000000000000000000000000060,
      0x00000000000000000000000000000000000000000000000000000000000000a0,
      0x0000000000000000000000000000000000000000000000000000000000000009,
      0x7370616365736869700000000000000000000000000000000000000000000000,
      0x0000000000000000000000000000000000000000000000000000000000000006,
      0x6379626f72670000000000000000000000000000000000000000000000000000]) = .ok ([(.address (addr (hx 20 [0x2222222222222222222222222222222222222222]))), (.tuple [(.bool true), (.string (lit "spaceship")), (.string (lit "cyborg"))]), (.address (addr (hx 20 [0x3333333333333333333333333333333333333333]))), (.address (addr (hx 20 [0x4444444444444444444444444444444444444444]))), (.bool false)]) := by decide +kernel

/-! decoder.rs:408-440 `decode_params_containing_static_tuple` -/
example : decode .debug [.address, (.tuple [.address, .bool, .bool]), .address, .address] (hx 192 [0x0000000000000000000000001111111111111111111111111111111111111111,
      0x0000000000000000000000002222222222222222222222222222222222222222,
      0x0000000000000000000000000000000000000000000000000000000000000001,
      0x0000000000000000000000000000000000000000000000000000000000000000,
      0x0000000000000000000000003333333333333333333333333333333333333333,
      0x0000000000000000000000004444444444444444444444444444444444444444]) = .ok ([(.address (addr (hx 20 [0x1111111111111111111111111111111111111111]))), (.tuple [(.address (addr (hx 20 [0x2222222222222222222222222222222222222222]))), (.bool true), (.bool false)]), (.address (addr (hx 20 [0x3333333333333333333333333333333333333333]))), (.address (addr (hx 20 [0x4444444444444444444444444444444444444444])))]) := by decide +kernel

/-! decoder.rs:442-481 `decode_data_with_size_that_is_not_a_multiple_of_32` -/
example : decode .debug [(.uint 256), .string, .string, (.uint 256), (.uint 256)] (hx 386 [0x0000000000000000000000000000000000000000000000000000000000000000,
      0x00000000000000000000000000000000000000000000000000000000000000a0,
      0x0000000000000000000000000000000000000000000000000000000000000152,
      0x0000000000000000000000000000000000000000000000000000000000000001,
      0x000000000000000000000000000000000000000000000000000000000054840d,
      0x0000000000000000000000000000000000000000000000000000000000000092,
      0x3132323033393637623533326130633134633938306235616566666231373034,
      0x3862646661656632633239336139353039663038656233633662306635663866,
      0x3039343265376239636337366361353163636132366365353436393230343438,
      0x6533303866646136383730623565326165313261323430396439343264653432,
      0x3831313350373230703330667073313678390000000000000000000000000000,
      0x0000000000000000000000000000000000103933633731376537633061363531,
      0x3761]) = .ok ([(.uint 0), (.string (lit "12203967b532a0c1" ++ lit "4c980b5aeffb1704" ++ lit "8bdfaef2c293a950" ++ lit "9f08eb3c6b0f5f8f" ++ lit "0942e7b9cc76ca51" ++ lit "cca26ce546920448" ++ lit "e308fda6870b5e2a" ++ lit "e12a2409d942de42" ++ lit "8113P720p30fps16" ++ lit "x9")), (.string (lit "93c717e7c0a6517a")), (.uint 1), (.uint 5538829)]) := by decide +kernel

/-! decoder.rs:483-509 `decode_after_fixed_bytes_with_less_than_32_bytes` -/
example : decode .debug [.address, (.fixedBytes 32), (.fixedBytes 4), .string] (hx 192 [0x0000000000000000000000008497afefdc5ac170a664a231f6efb25526ef813f,
      0x0000000000000000000000000000000000000000000000000000000000000000,
      0x0000000000000000000000000000000000000000000000000000000000000000,
      0x0000000000000000000000000000000000000000000000000000000000000080,
      0x000000000000000000000000000000000000000000000000000000000000000a,
      0x3078303030303030314600000000000000000000000000000000000000000000]) = .ok ([(.address (addr (hx 20 [0x8497afefdc5ac170a664a231f6efb25526ef813f]))), (.fixedBytes (hx 32 [0x0000000000000000000000000000000000000000000000000000000000000000])), (.fixedBytes (hx 4 [0x00000000])), (.string (lit "0x0000001F"))]) := by decide +kernel

/-! decoder.rs:511-522 `decode_broken_utf8` -/
example : decode .debug [.string] (hx 96 [0x0000000000000000000000000000000000000000000000000000000000000020,
      0x0000000000000000000000000000000000000000000000000000000000000004,
      0xe4b88de500000000000000000000000000000000000000000000000000000000]) = .ok ([(.string (lit "不�"))]) := by decide +kernel

/-! decoder.rs:524-540 `decode_corrupted_dynamic_array` -/
example : isErr (decode .debug [(.array (.uint 32))] (hx 128 [0x0000000000000000000000000000000000000000000000000000000000000020,
      0x00000000000000000000000000000000000000000000000000000000ffffffff,
      0x0000000000000000000000000000000000000000000000000000000000000001,
      0x0000000000000000000000000000000000000000000000000000000000000002])) = true := by decide +kernel

/-! decoder.rs:542-629 `decode_corrupted_nested_array_tuple` -/
example : isErr (Function.decodeInput .debug ({ name := (lit "f_tuple"), inputs := [({ name := (lit "c"), kind := (.array (.tuple [(.uint 256), (.uint 256)])), internalType := none } : Param), ({ name := (lit "d"), kind := (.array (.tuple [(.uint 256), (.array (.tuple [(.uint 256), (.array .string)]))])), internalType := none } : Param)], outputs := [], constant := false, stateMutability := .nonPayable } : Function) (hx 1120 [0x0000000000000000000000000000000000000000000000000000000000000040,
      0x00000000000000000000000000000000000000000000000000000000000002a0,
      0x0000000000000000000000000000000000000000000000000000000000000009,
      0x00000000000000000000000000000000fffffffffffffffffffffffffffffffe,
      0x0000000000000000000000000000000000000000000000000000000000000000,
      0x0000000000000000000000000000000000000000000000000000000000000000,
      0x0000000000000000000000000000000000000000000000000000000000000000,
      0x0000000000000000000000000000000000000000000000000000000000000000,
      0x000000000000000000000000000000000000000000000000ffffffffffffffff,
      0x0008000000000000000000000000000000000000000000000000000000000000,
      0x0000000000000000000000000000000000000000000000020000000000000000,
      0x0000000000000000000000000000000000000000000000000000000000000000,
      0x0000000000000000000000000001000000000000000000000000000000000000,
      0x000000000000000000000000000000000000000000000000000000000000053a,
      0x0100000000000000000000000000000000000000000000000000000000000000,
      0x0000000000000010000000000000000000000000000000000000000000000000,
      0x0000000000000000000000000000000000000000000000000000000000000000,
      0x0000000000000000000000000000000000000000000000000000000002000000,
      0x0000000000000000000000000000000000000000000000000000000000100000,
      0x0000000000000000000000000000000000000000000000000000000000000000,
      0xffffffffffffffffffffffffffffffffffffffffffffffffffffffffffffffff,
      0x0000000000000000000000000000000000000000000000000000000000000006,
      0x00000000000000000000000000000000000000000000000000000000000000c0,
      0x0000000000000000000000000000000000000000000000000000000000002ce0,
      0x0000000000000000000000000000000000000000000000000000000000005880,
      0x0000000000000000000000000000000000000000000000000000000000008280,
      0x000000000000000000000000000000000000000000000000000000000000acc0,
      0x000000000000000000000000000000000000000000000000000000000000d6e0,
      0x0000000000000000000000000000000000000000020000000000000000000000,
      0x0000000000000000000000000000000000000000000000000000000000000040,
      0x0000000000000000000000000000000000000000000000000000000000000009,
      0x0000000000000000000000000000000000000000000000000000000000000120,
      0x0000000000000000000000000000000000000000000000000000000000000720,
      0x0000000000000000000000000000000000000000000000000000000000000b80,
      0x0000000000000000000000000000000000000000000000000000000000000fe0])) = true := by decide +kernel

end Ethabi.Tests

import Verif.Tests.Helpers
import Verif.Model.Encoder
/-!
# Tests: unit tests of the Rust code run on the model

Generated by tools/rust_tests.py from ethabi/src/encoder.rs.
These are tests of the model (finitely many inputs), not proofs of any property.
-/
namespace Ethabi.Tests

/-! encoder.rs:181-187 `encode_address` -/
example : encode .debug [(.address (addr (hx 20 [0x1111111111111111111111111111111111111111])))] = .ok (hx 32 [0x0000000000000000000000001111111111111111111111111111111111111111]) := by decide +kernel

/-! encoder.rs:189-205 `encode_dynamic_array_of_addresses` -/
example : encode .debug [(.array [(.address (addr (hx 20 [0x1111111111111111111111111111111111111111]))), (.address (addr (hx 20 [0x2222222222222222222222222222222222222222])))])] = .ok (hx 128 [0x0000000000000000000000000000000000000000000000000000000000000020,
      0x0000000000000000000000000000000000000000000000000000000000000002,
      0x0000000000000000000000001111111111111111111111111111111111111111,
      0x0000000000000000000000002222222222222222222222222222222222222222]) := by decide +kernel

/-! encoder.rs:207-221 `encode_fixed_array_of_addresses` -/
example : encode .debug [(.fixedArray [(.address (addr (hx 20 [0x1111111111111111111111111111111111111111]))), (.address (addr (hx 20 [0x2222222222222222222222222222222222222222])))])] = .ok (hx 64 [0x0000000000000000000000001111111111111111111111111111111111111111,
      0x0000000000000000000000002222222222222222222222222222222222222222]) := by decide +kernel

/-! encoder.rs:223-236 `encode_two_addresses` -/
example : encode .debug [(.address (addr (hx 20 [0x1111111111111111111111111111111111111111]))), (.address (addr (hx 20 [0x2222222222222222222222222222222222222222])))] = .ok (hx 64 [0x0000000000000000000000001111111111111111111111111111111111111111,
      0x0000000000000000000000002222222222222222222222222222222222222222]) := by decide +kernel

/-! encoder.rs:238-263 `encode_fixed_array_of_dynamic_array_of_addresses` -/
example : encode .debug [(.fixedArray [(.array [(.address (addr (hx 20 [0x1111111111111111111111111111111111111111]))), (.address (addr (hx 20 [0x2222222222222222222222222222222222222222])))]), (.array [(.address (addr (hx 20 [0x3333333333333333333333333333333333333333]))), (.address (addr (hx 20 [0x4444444444444444444444444444444444444444])))])])] = .ok (hx 288 [0x0000000000000000000000000000000000000000000000000000000000000020,
      0x0000000000000000000000000000000000000000000000000000000000000040,
      0x00000000000000000000000000000000000000000000000000000000000000a0,
      0x0000000000000000000000000000000000000000000000000000000000000002,
      0x0000000000000000000000001111111111111111111111111111111111111111,
      0x0000000000000000000000002222222222222222222222222222222222222222,
      0x0000000000000000000000000000000000000000000000000000000000000002,
      0x0000000000000000000000003333333333333333333333333333333333333333,
      0x0000000000000000000000004444444444444444444444444444444444444444]) := by decide +kernel

/-! encoder.rs:265-287 `encode_dynamic_array_of_fixed_array_of_addresses` -/
example : encode .debug [(.array [(.fixedArray [(.address (addr (hx 20 [0x1111111111111111111111111111111111111111]))), (.address (addr (hx 20 [0x2222222222222222222222222222222222222222])))]), (.fixedArray [(.address (addr (hx 20 [0x3333333333333333333333333333333333333333]))), (.address (addr (hx 20 [0x4444444444444444444444444444444444444444])))])])] = .ok (hx 192 [0x0000000000000000000000000000000000000000000000000000000000000020,
      0x0000000000000000000000000000000000000000000000000000000000000002,
      0x0000000000000000000000001111111111111111111111111111111111111111,
      0x0000000000000000000000002222222222222222222222222222222222222222,
      0x0000000000000000000000003333333333333333333333333333333333333333,
      0x0000000000000000000000004444444444444444444444444444444444444444]) := by decide +kernel

/-! encoder.rs:289-311 `encode_dynamic_array_of_dynamic_arrays` -/
example : encode .debug [(.array [(.array [(.address (addr (hx 20 [0x1111111111111111111111111111111111111111])))]), (.array [(.address (addr (hx 20 [0x2222222222222222222222222222222222222222])))])])] = .ok (hx 256 [0x0000000000000000000000000000000000000000000000000000000000000020,
      0x0000000000000000000000000000000000000000000000000000000000000002,
      0x0000000000000000000000000000000000000000000000000000000000000040,
      0x0000000000000000000000000000000000000000000000000000000000000080,
      0x0000000000000000000000000000000000000000000000000000000000000001,
      0x0000000000000000000000001111111111111111111111111111111111111111,
      0x0000000000000000000000000000000000000000000000000000000000000001,
      0x0000000000000000000000002222222222222222222222222222222222222222]) := by decide +kernel

/-! encoder.rs:313-339 `encode_dynamic_array_of_dynamic_arrays2` -/
example : encode .debug [(.array [(.array [(.address (addr (hx 20 [0x1111111111111111111111111111111111111111]))), (.address (addr (hx 20 [0x2222222222222222222222222222222222222222])))]), (.array [(.address (addr (hx 20 [0x3333333333333333333333333333333333333333]))), (.address (addr (hx 20 [0x4444444444444444444444444444444444444444])))])])] = .ok (hx 320 [0x0000000000000000000000000000000000000000000000000000000000000020,
      0x0000000000000000000000000000000000000000000000000000000000000002,
      0x0000000000000000000000000000000000000000000000000000000000000040,
      0x00000000000000000000000000000000000000000000000000000000000000a0,
      0x0000000000000000000000000000000000000000000000000000000000000002,
      0x0000000000000000000000001111111111111111111111111111111111111111,
      0x0000000000000000000000002222222222222222222222222222222222222222,
      0x0000000000000000000000000000000000000000000000000000000000000002,
      0x0000000000000000000000003333333333333333333333333333333333333333,
      0x0000000000000000000000004444444444444444444444444444444444444444]) := by decide +kernel

/-! encoder.rs:341-361 `encode_fixed_array_of_fixed_arrays` -/
example : encode .debug [(.fixedArray [(.fixedArray [(.address (addr (hx 20 [0x1111111111111111111111111111111111111111]))), (.address (addr (hx 20 [0x2222222222222222222222222222222222222222])))]), (.fixedArray [(.address (addr (hx 20 [0x3333333333333333333333333333333333333333]))), (.address (addr (hx 20 [0x4444444444444444444444444444444444444444])))])])] = .ok (hx 128 [0x0000000000000000000000001111111111111111111111111111111111111111,
      0x0000000000000000000000002222222222222222222222222222222222222222,
      0x0000000000000000000000003333333333333333333333333333333333333333,
      0x0000000000000000000000004444444444444444444444444444444444444444]) := by decide +kernel

/-! encoder.rs:363-394 `encode_empty_array` -/
example : encode .debug [(.array []), (.array [])] = .ok (hx 128 [0x0000000000000000000000000000000000000000000000000000000000000040,
      0x0000000000000000000000000000000000000000000000000000000000000060,
      0x0000000000000000000000000000000000000000000000000000000000000000,
      0x0000000000000000000000000000000000000000000000000000000000000000]) := by decide +kernel
example : encode .debug [(.array [(.array [])]), (.array [(.array [])])] = .ok (hx 256 [0x0000000000000000000000000000000000000000000000000000000000000040,
      0x00000000000000000000000000000000000000000000000000000000000000a0,
      0x0000000000000000000000000000000000000000000000000000000000000001,
      0x0000000000000000000000000000000000000000000000000000000000000020,
      0x0000000000000000000000000000000000000000000000000000000000000000,
      0x0000000000000000000000000000000000000000000000000000000000000001,
      0x0000000000000000000000000000000000000000000000000000000000000020,
      0x0000000000000000000000000000000000000000000000000000000000000000]) := by decide +kernel

/-! encoder.rs:396-409 `encode_bytes` -/
example : encode .debug [(.bytes (hx 2 [0x1234]))] = .ok (hx 96 [0x0000000000000000000000000000000000000000000000000000000000000020,
      0x0000000000000000000000000000000000000000000000000000000000000002,
      0x1234000000000000000000000000000000000000000000000000000000000000]) := by decide +kernel

/-! encoder.rs:411-417 `encode_fixed_bytes` -/
example : encode .debug [(.fixedBytes (hx 2 [0x1234]))] = .ok (hx 32 [0x1234000000000000000000000000000000000000000000000000000000000000]) := by decide +kernel

/-! encoder.rs:419-432 `encode_string` -/
example : encode .debug [(.string (lit "gavofyork"))] = .ok (hx 96 [0x0000000000000000000000000000000000000000000000000000000000000020,
      0x0000000000000000000000000000000000000000000000000000000000000009,
      0x6761766f66796f726b0000000000000000000000000000000000000000000000]) := by decide +kernel

/-! encoder.rs:434-447 `encode_bytes2` -/
example : encode .debug [(.bytes (hx 31 [0x10000000000000000000000000000000000000000000000000000000000002]))] = .ok (hx 96 [0x0000000000000000000000000000000000000000000000000000000000000020,
      0x000000000000000000000000000000000000000000000000000000000000001f,
      0x1000000000000000000000000000000000000000000000000000000000000200]) := by decide +kernel

/-! encoder.rs:449-471 `encode_bytes3` -/
example : encode .debug [(.bytes (hx 64 [0x1000000000000000000000000000000000000000000000000000000000000000,
      0x1000000000000000000000000000000000000000000000000000000000000000]))] = .ok (hx 128 [0x0000000000000000000000000000000000000000000000000000000000000020,
      0x0000000000000000000000000000000000000000000000000000000000000040,
      0x1000000000000000000000000000000000000000000000000000000000000000,
      0x1000000000000000000000000000000000000000000000000000000000000000]) := by decide +kernel

/-! encoder.rs:473-490 `encode_two_bytes` -/
example : encode .debug [(.bytes (hx 31 [0x10000000000000000000000000000000000000000000000000000000000002])), (.bytes (hx 32 [0x0010000000000000000000000000000000000000000000000000000000000002]))] = .ok (hx 192 [0x0000000000000000000000000000000000000000000000000000000000000040,
      0x0000000000000000000000000000000000000000000000000000000000000080,
      0x000000000000000000000000000000000000000000000000000000000000001f,
      0x1000000000000000000000000000000000000000000000000000000000000200,
      0x0000000000000000000000000000000000000000000000000000000000000020,
      0x0010000000000000000000000000000000000000000000000000000000000002]) := by decide +kernel

/-! encoder.rs:492-499 `encode_uint` -/
example : encode .debug [(.uint 0x4#256)] = .ok (hx 32 [0x0000000000000000000000000000000000000000000000000000000000000004]) := by decide +kernel

/-! encoder.rs:501-508 `encode_int` -/
example : encode .debug [(.int 0x4#256)] = .ok (hx 32 [0x0000000000000000000000000000000000000000000000000000000000000004]) := by decide +kernel

/-! encoder.rs:510-515 `encode_bool` -/
example : encode .debug [(.bool true)] = .ok (hx 32 [0x0000000000000000000000000000000000000000000000000000000000000001]) := by decide +kernel

/-! encoder.rs:517-522 `encode_bool2` -/
example : encode .debug [(.bool false)] = .ok (hx 32 [0x0000000000000000000000000000000000000000000000000000000000000000]) := by decide +kernel

/-! encoder.rs:524-552 `comprehensive_test` -/
example : encode .debug [(.int 0x5#256), (.bytes (hx 64 [0x131a3afc00d1b1e3461b955e53fc866dcf303b3eb9f4c16f89e388930f48134b,
      0x131a3afc00d1b1e3461b955e53fc866dcf303b3eb9f4c16f89e388930f48134b])), (.int 0x3#256), (.bytes (hx 64 [0x131a3afc00d1b1e3461b955e53fc866dcf303b3eb9f4c16f89e388930f48134b,
      0x131a3afc00d1b1e3461b955e53fc866dcf303b3eb9f4c16f89e388930f48134b]))] = .ok (hx 320 [0x0000000000000000000000000000000000000000000000000000000000000005,
      0x0000000000000000000000000000000000000000000000000000000000000080,
      0x0000000000000000000000000000000000000000000000000000000000000003,
      0x00000000000000000000000000000000000000000000000000000000000000e0,
      0x0000000000000000000000000000000000000000000000000000000000000040,
      0x131a3afc00d1b1e3461b955e53fc866dcf303b3eb9f4c16f89e388930f48134b,
      0x131a3afc00d1b1e3461b955e53fc866dcf303b3eb9f4c16f89e388930f48134b,
      0x0000000000000000000000000000000000000000000000000000000000000040,
      0x131a3afc00d1b1e3461b955e53fc866dcf303b3eb9f4c16f89e388930f48134b,
      0x131a3afc00d1b1e3461b955e53fc866dcf303b3eb9f4c16f89e388930f48134b]) := by decide +kernel

/-! encoder.rs:554-559 `test_pad_u32` -/
example : (padU32 1).1[31]? = some 1 := by decide +kernel
example : (padU32 256).1[30]? = some 1 := by decide +kernel

/-! encoder.rs:561-590 `comprehensive_test2` -/
example : encode .debug [(.int 0x1#256), (.string (lit "gavofyork")), (.int 0x2#256), (.int 0x3#256), (.int 0x4#256), (.array [(.int 0x5#256), (.int 0x6#256), (.int 0x7#256)])] = .ok (hx 384 [0x0000000000000000000000000000000000000000000000000000000000000001,
      0x00000000000000000000000000000000000000000000000000000000000000c0,
      0x0000000000000000000000000000000000000000000000000000000000000002,
      0x0000000000000000000000000000000000000000000000000000000000000003,
      0x0000000000000000000000000000000000000000000000000000000000000004,
      0x0000000000000000000000000000000000000000000000000000000000000100,
      0x0000000000000000000000000000000000000000000000000000000000000009,
      0x6761766f66796f726b0000000000000000000000000000000000000000000000,
      0x0000000000000000000000000000000000000000000000000000000000000003,
      0x0000000000000000000000000000000000000000000000000000000000000005,
      0x0000000000000000000000000000000000000000000000000000000000000006,
      0x0000000000000000000000000000000000000000000000000000000000000007]) := by decide +kernel

/-! encoder.rs:592-609 `encode_dynamic_array_of_bytes` -/
example : encode .debug [(.array [(.bytes (hx 38 [0x019c80031b20d5e69c8093a571162299032018d913930d93ab320ae5ea44a421,
      0x8a274f00d607]))])] = .ok (hx 192 [0x0000000000000000000000000000000000000000000000000000000000000020,
      0x0000000000000000000000000000000000000000000000000000000000000001,
      0x0000000000000000000000000000000000000000000000000000000000000020,
      0x0000000000000000000000000000000000000000000000000000000000000026,
      0x019c80031b20d5e69c8093a571162299032018d913930d93ab320ae5ea44a421,
      0x8a274f00d6070000000000000000000000000000000000000000000000000000]) := by decide +kernel

/-! encoder.rs:611-633 `encode_dynamic_array_of_bytes2` -/
example : encode .debug [(.array [(.bytes (hx 38 [0x4444444444444444444444444444444444444444444444444444444444444444,
      0x444444444444])), (.bytes (hx 38 [0x6666666666666666666666666666666666666666666666666666666666666666,
      0x666666666666]))])] = .ok (hx 320 [0x0000000000000000000000000000000000000000000000000000000000000020,
      0x0000000000000000000000000000000000000000000000000000000000000002,
      0x0000000000000000000000000000000000000000000000000000000000000040,
      0x00000000000000000000000000000000000000000000000000000000000000a0,
      0x0000000000000000000000000000000000000000000000000000000000000026,
      0x4444444444444444444444444444444444444444444444444444444444444444,
      0x4444444444440000000000000000000000000000000000000000000000000000,
      0x0000000000000000000000000000000000000000000000000000000000000026,
      0x6666666666666666666666666666666666666666666666666666666666666666,
      0x6666666666660000000000000000000000000000000000000000000000000000]) := by decide +kernel

/-! encoder.rs:635-649 `encode_static_tuple_of_addresses` -/
example : encode .debug [(.tuple [(.address (addr (hx 20 [0x1111111111111111111111111111111111111111]))), (.address (addr (hx 20 [0x2222222222222222222222222222222222222222])))])] = .ok (hx 64 [0x0000000000000000000000001111111111111111111111111111111111111111,
      0x0000000000000000000000002222222222222222222222222222222222222222]) := by decide +kernel

/-! encoder.rs:651-670 `encode_dynamic_tuple` -/
example : encode .debug [(.tuple [(.string (lit "gavofyork")), (.string (lit "gavofyork"))])] = .ok (hx 224 [0x0000000000000000000000000000000000000000000000000000000000000020,
      0x0000000000000000000000000000000000000000000000000000000000000040,
      0x0000000000000000000000000000000000000000000000000000000000000080,
      0x0000000000000000000000000000000000000000000000000000000000000009,
      0x6761766f66796f726b0000000000000000000000000000000000000000000000,
      0x0000000000000000000000000000000000000000000000000000000000000009,
      0x6761766f66796f726b0000000000000000000000000000000000000000000000]) := by decide +kernel

/-! encoder.rs:672-693 `encode_dynamic_tuple_of_bytes2` -/
example : encode .debug [(.tuple [(.bytes (hx 38 [0x4444444444444444444444444444444444444444444444444444444444444444,
      0x444444444444])), (.bytes (hx 38 [0x6666666666666666666666666666666666666666666666666666666666666666,
      0x666666666666]))])] = .ok (hx 288 [0x0000000000000000000000000000000000000000000000000000000000000020,
      0x0000000000000000000000000000000000000000000000000000000000000040,
      0x00000000000000000000000000000000000000000000000000000000000000a0,
      0x0000000000000000000000000000000000000000000000000000000000000026,
      0x4444444444444444444444444444444444444444444444444444444444444444,
      0x4444444444440000000000000000000000000000000000000000000000000000,
      0x0000000000000000000000000000000000000000000000000000000000000026,
      0x6666666666666666666666666666666666666666666666666666666666666666,
      0x6666666666660000000000000000000000000000000000000000000000000000]) := by decide +kernel

/-! encoder.rs:695-716 `encode_complex_tuple` -/
example : encode .debug [(.tuple [(.uint 0x1111111111111111111111111111111111111111111111111111111111111111#256), (.string (lit "gavofyork")), (.address (addr (hx 20 [0x1111111111111111111111111111111111111111]))), (.address (addr (hx 20 [0x2222222222222222222222222222222222222222])))])] = .ok (hx 224 [0x0000000000000000000000000000000000000000000000000000000000000020,
      0x1111111111111111111111111111111111111111111111111111111111111111,
      0x0000000000000000000000000000000000000000000000000000000000000080,
      0x0000000000000000000000001111111111111111111111111111111111111111,
      0x0000000000000000000000002222222222222222222222222222222222222222,
      0x0000000000000000000000000000000000000000000000000000000000000009,
      0x6761766f66796f726b0000000000000000000000000000000000000000000000]) := by decide +kernel

/-! encoder.rs:718-759 `encode_nested_tuple` -/
example : encode .debug [(.tuple [(.string (lit "test")), (.bool true), (.string (lit "cyborg")), (.tuple [(.string (lit "night")), (.string (lit "day")), (.tuple [(.string (lit "weee")), (.string (lit "funtests"))])])])] = .ok (hx 704 [0x0000000000000000000000000000000000000000000000000000000000000020,
      0x0000000000000000000000000000000000000000000000000000000000000080,
      0x0000000000000000000000000000000000000000000000000000000000000001,
      0x00000000000000000000000000000000000000000000000000000000000000c0,
      0x0000000000000000000000000000000000000000000000000000000000000100,
      0x0000000000000000000000000000000000000000000000000000000000000004,
      0x7465737400000000000000000000000000000000000000000000000000000000,
      0x0000000000000000000000000000000000000000000000000000000000000006,
      0x6379626f72670000000000000000000000000000000000000000000000000000,
      0x0000000000000000000000000000000000000000000000000000000000000060,
      0x00000000000000000000000000000000000000000000000000000000000000a0,
      0x00000000000000000000000000000000000000000000000000000000000000e0,
      0x0000000000000000000000000000000000000000000000000000000000000005,
      0x6e69676874000000000000000000000000000000000000000000000000000000,
      0x0000000000000000000000000000000000000000000000000000000000000003,
      0x6461790000000000000000000000000000000000000000000000000000000000,
      0x0000000000000000000000000000000000000000000000000000000000000040,
      0x0000000000000000000000000000000000000000000000000000000000000080,
      0x0000000000000000000000000000000000000000000000000000000000000004,
      0x7765656500000000000000000000000000000000000000000000000000000000,
      0x0000000000000000000000000000000000000000000000000000000000000008,
      0x66756e7465737473000000000000000000000000000000000000000000000000]) := by decide +kernel

/-! encoder.rs:761-790 `encode_params_containing_dynamic_tuple` -/
example : encode .debug [(.address (addr (hx 20 [0x2222222222222222222222222222222222222222]))), (.tuple [(.bool true), (.string (lit "spaceship")), (.string (lit "cyborg"))]), (.address (addr (hx 20 [0x3333333333333333333333333333333333333333]))), (.address (addr (hx 20 [0x4444444444444444444444444444444444444444]))), (.bool false)] = .ok (hx 384 [0x0000000000000000000000002222222222222222222222222222222222222222,
      0x00000000000000000000000000000000000000000000000000000000000000a0,
      0x0000000000000000000000003333333333333333333333333333333333333333,
      0x0000000000000000000000004444444444444444444444444444444444444444,
      0x0000000000000000000000000000000000000000000000000000000000000000,
      0x0000000000000000000000000000000000000000000000000000000000000001,
      0x0000000000000000000000000000000000000000000000000000000000000060,
      0x00000000000000000000000000000000000000000000000000000000000000a0,
      0x0000000000000000000000000000000000000000000000000000000000000009,
      0x7370616365736869700000000000000000000000000000000000000000000000,
      0x0000000000000000000000000000000000000000000000000000000000000006,
      0x6379626f72670000000000000000000000000000000000000000000000000000]) := by decide +kernel

/-! encoder.rs:792-814 `encode_params_containing_static_tuple` -/
example : encode .debug [(.address (addr (hx 20 [0x1111111111111111111111111111111111111111]))), (.tuple [(.address (addr (hx 20 [0x2222222222222222222222222222222222222222]))), (.bool true), (.bool false)]), (.address (addr (hx 20 [0x3333333333333333333333333333333333333333]))), (.address (addr (hx 20 [0x4444444444444444444444444444444444444444])))] = .ok (hx 192 [0x0000000000000000000000001111111111111111111111111111111111111111,
      0x0000000000000000000000002222222222222222222222222222222222222222,
      0x0000000000000000000000000000000000000000000000000000000000000001,
      0x0000000000000000000000000000000000000000000000000000000000000000,
      0x0000000000000000000000003333333333333333333333333333333333333333,
      0x0000000000000000000000004444444444444444444444444444444444444444]) := by decide +kernel

/-! encoder.rs:816-839 `encode_dynamic_tuple_with_nested_static_tuples` -/
example : encode .debug [(.tuple [(.tuple [(.tuple [(.bool false), (.uint 0x777#256)])]), (.array [(.uint 0x42#256), (.uint 0x1337#256)])])] = .ok (hx 224 [0x0000000000000000000000000000000000000000000000000000000000000020,
      0x0000000000000000000000000000000000000000000000000000000000000000,
      0x0000000000000000000000000000000000000000000000000000000000000777,
      0x0000000000000000000000000000000000000000000000000000000000000060,
      0x0000000000000000000000000000000000000000000000000000000000000002,
      0x0000000000000000000000000000000000000000000000000000000000000042,
      0x0000000000000000000000000000000000000000000000000000000000001337]) := by decide +kernel

end Ethabi.Tests

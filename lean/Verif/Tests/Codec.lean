import Verif.Tests.Helpers
import Verif.Model.Encoder
import Verif.Model.Decoder
/-!
# Tests: encode/decode vectors of the Rust code run on the model

Generated by tools/rust_tests.py from ethabi/src/tests.rs.
These are tests of the model (finitely many inputs), not proofs of any property.
-/
namespace Ethabi.Tests

/-! tests.rs:53-58 `encode_address`, `decode_address` -/
example : encode .debug [(.address (addr (hx 20 [0x1111111111111111111111111111111111111111])))] = .ok (hx 32 [0x0000000000000000000000001111111111111111111111111111111111111111]) := by decide +kernel
example : decode .debug [.address] (hx 32 [0x0000000000000000000000001111111111111111111111111111111111111111]) = .ok [(.address (addr (hx 20 [0x1111111111111111111111111111111111111111])))] := by decide +kernel

/-! tests.rs:59-72 `encode_addresses`, `decode_addresses` -/
example : encode .debug [(.address (addr (hx 20 [0x1111111111111111111111111111111111111111]))), (.address (addr (hx 20 [0x2222222222222222222222222222222222222222])))] = .ok (hx 64 [0x0000000000000000000000001111111111111111111111111111111111111111,
      0x0000000000000000000000002222222222222222222222222222222222222222]) := by decide +kernel
example : decode .debug [.address, .address] (hx 64 [0x0000000000000000000000001111111111111111111111111111111111111111,
      0x0000000000000000000000002222222222222222222222222222222222222222]) = .ok [(.address (addr (hx 20 [0x1111111111111111111111111111111111111111]))), (.address (addr (hx 20 [0x2222222222222222222222222222222222222222])))] := by decide +kernel

/-! tests.rs:75-83 `encode_bytes`, `decode_bytes` -/
example : encode .debug [(.bytes (hx 2 [0x1234]))] = .ok (hx 96 [0x0000000000000000000000000000000000000000000000000000000000000020,
      0x0000000000000000000000000000000000000000000000000000000000000002,
      0x1234000000000000000000000000000000000000000000000000000000000000]) := by decide +kernel
example : decode .debug [.bytes] (hx 96 [0x0000000000000000000000000000000000000000000000000000000000000020,
      0x0000000000000000000000000000000000000000000000000000000000000002,
      0x1234000000000000000000000000000000000000000000000000000000000000]) = .ok [(.bytes (hx 2 [0x1234]))] := by decide +kernel

/-! tests.rs:84-92 `encode_bytes2`, `decode_bytes2` -/
example : encode .debug [(.bytes (hx 31 [0x10000000000000000000000000000000000000000000000000000000000002]))] = .ok (hx 96 [0x0000000000000000000000000000000000000000000000000000000000000020,
      0x000000000000000000000000000000000000000000000000000000000000001f,
      0x1000000000000000000000000000000000000000000000000000000000000200]) := by decide +kernel
example : decode .debug [.bytes] (hx 96 [0x0000000000000000000000000000000000000000000000000000000000000020,
      0x000000000000000000000000000000000000000000000000000000000000001f,
      0x1000000000000000000000000000000000000000000000000000000000000200]) = .ok [(.bytes (hx 31 [0x10000000000000000000000000000000000000000000000000000000000002]))] := by decide +kernel

/-! tests.rs:93-107 `encode_bytes3`, `decode_bytes3` -/
example : encode .debug [(.bytes (hx 64 [0x1000000000000000000000000000000000000000000000000000000000000000,
      0x1000000000000000000000000000000000000000000000000000000000000000]))] = .ok (hx 128 [0x0000000000000000000000000000000000000000000000000000000000000020,
      0x0000000000000000000000000000000000000000000000000000000000000040,
      0x1000000000000000000000000000000000000000000000000000000000000000,
      0x1000000000000000000000000000000000000000000000000000000000000000]) := by decide +kernel
example : decode .debug [.bytes] (hx 128 [0x0000000000000000000000000000000000000000000000000000000000000020,
      0x0000000000000000000000000000000000000000000000000000000000000040,
      0x1000000000000000000000000000000000000000000000000000000000000000,
      0x1000000000000000000000000000000000000000000000000000000000000000]) = .ok [(.bytes (hx 64 [0x1000000000000000000000000000000000000000000000000000000000000000,
      0x1000000000000000000000000000000000000000000000000000000000000000]))] := by decide +kernel

/-! tests.rs:108-122 `encode_two_bytes`, `decode_two_bytes` -/
example : encode .debug [(.bytes (hx 31 [0x10000000000000000000000000000000000000000000000000000000000002])), (.bytes (hx 32 [0x0010000000000000000000000000000000000000000000000000000000000002]))] = .ok (hx 192 [0x0000000000000000000000000000000000000000000000000000000000000040,
      0x0000000000000000000000000000000000000000000000000000000000000080,
      0x000000000000000000000000000000000000000000000000000000000000001f,
      0x1000000000000000000000000000000000000000000000000000000000000200,
      0x0000000000000000000000000000000000000000000000000000000000000020,
      0x0010000000000000000000000000000000000000000000000000000000000002]) := by decide +kernel
example : decode .debug [.bytes, .bytes] (hx 192 [0x0000000000000000000000000000000000000000000000000000000000000040,
      0x0000000000000000000000000000000000000000000000000000000000000080,
      0x000000000000000000000000000000000000000000000000000000000000001f,
      0x1000000000000000000000000000000000000000000000000000000000000200,
      0x0000000000000000000000000000000000000000000000000000000000000020,
      0x0010000000000000000000000000000000000000000000000000000000000002]) = .ok [(.bytes (hx 31 [0x10000000000000000000000000000000000000000000000000000000000002])), (.bytes (hx 32 [0x0010000000000000000000000000000000000000000000000000000000000002]))] := by decide +kernel

/-! tests.rs:125-130 `encode_int`, `decode_int` -/
example : encode .debug [(.int 0x1111111111111111111111111111111111111111111111111111111111111111#256)] = .ok (hx 32 [0x1111111111111111111111111111111111111111111111111111111111111111]) := by decide +kernel
example : decode .debug [(.int 32)] (hx 32 [0x1111111111111111111111111111111111111111111111111111111111111111]) = .ok [(.int 0x1111111111111111111111111111111111111111111111111111111111111111#256)] := by decide +kernel

/-! tests.rs:131-140 `encode_int2`, `decode_int2` -/
example : encode .debug [(.int 0x4#256)] = .ok (hx 32 [0x0000000000000000000000000000000000000000000000000000000000000004]) := by decide +kernel
example : decode .debug [(.int 32)] (hx 32 [0x0000000000000000000000000000000000000000000000000000000000000004]) = .ok [(.int 0x4#256)] := by decide +kernel

/-! tests.rs:143-148 `encode_uint`, `decode_uint` -/
example : encode .debug [(.uint 0x1111111111111111111111111111111111111111111111111111111111111111#256)] = .ok (hx 32 [0x1111111111111111111111111111111111111111111111111111111111111111]) := by decide +kernel
example : decode .debug [(.uint 32)] (hx 32 [0x1111111111111111111111111111111111111111111111111111111111111111]) = .ok [(.uint 0x1111111111111111111111111111111111111111111111111111111111111111#256)] := by decide +kernel

/-! tests.rs:149-158 `encode_uint2`, `decode_uint2` -/
example : encode .debug [(.uint 0x4#256)] = .ok (hx 32 [0x0000000000000000000000000000000000000000000000000000000000000004]) := by decide +kernel
example : decode .debug [(.uint 32)] (hx 32 [0x0000000000000000000000000000000000000000000000000000000000000004]) = .ok [(.uint 0x4#256)] := by decide +kernel

/-! tests.rs:161-166 `encode_bool`, `decode_bool` -/
example : encode .debug [(.bool true)] = .ok (hx 32 [0x0000000000000000000000000000000000000000000000000000000000000001]) := by decide +kernel
example : decode .debug [.bool] (hx 32 [0x0000000000000000000000000000000000000000000000000000000000000001]) = .ok [(.bool true)] := by decide +kernel

/-! tests.rs:167-172 `encode_bool2`, `decode_bool2` -/
example : encode .debug [(.bool false)] = .ok (hx 32 [0x0000000000000000000000000000000000000000000000000000000000000000]) := by decide +kernel
example : decode .debug [.bool] (hx 32 [0x0000000000000000000000000000000000000000000000000000000000000000]) = .ok [(.bool false)] := by decide +kernel

/-! tests.rs:175-183 `encode_string`, `decode_string` -/
example : encode .debug [(.string (lit "gavofyork"))] = .ok (hx 96 [0x0000000000000000000000000000000000000000000000000000000000000020,
      0x0000000000000000000000000000000000000000000000000000000000000009,
      0x6761766f66796f726b0000000000000000000000000000000000000000000000]) := by decide +kernel
example : decode .debug [.string] (hx 96 [0x0000000000000000000000000000000000000000000000000000000000000020,
      0x0000000000000000000000000000000000000000000000000000000000000009,
      0x6761766f66796f726b0000000000000000000000000000000000000000000000]) = .ok [(.string (lit "gavofyork"))] := by decide +kernel

/-! tests.rs:186-199 `encode_dynamic_array_of_addresses`, `decode_dynamic_array_of_addresses` -/
example : encode .debug [(.array [(.address (addr (hx 20 [0x1111111111111111111111111111111111111111]))), (.address (addr (hx 20 [0x2222222222222222222222222222222222222222])))])] = .ok (hx 128 [0x0000000000000000000000000000000000000000000000000000000000000020,
      0x0000000000000000000000000000000000000000000000000000000000000002,
      0x0000000000000000000000001111111111111111111111111111111111111111,
      0x0000000000000000000000002222222222222222222222222222222222222222]) := by decide +kernel
example : decode .debug [(.array .address)] (hx 128 [0x0000000000000000000000000000000000000000000000000000000000000020,
      0x0000000000000000000000000000000000000000000000000000000000000002,
      0x0000000000000000000000001111111111111111111111111111111111111111,
      0x0000000000000000000000002222222222222222222222222222222222222222]) = .ok [(.array [(.address (addr (hx 20 [0x1111111111111111111111111111111111111111]))), (.address (addr (hx 20 [0x2222222222222222222222222222222222222222])))])] := by decide +kernel

/-! tests.rs:200-223 `encode_dynamic_array_of_fixed_arrays_of_addresses`, `decode_dynamic_array_of_fixed_arrays_of_addresses` -/
example : encode .debug [(.array [(.fixedArray [(.address (addr (hx 20 [0x1111111111111111111111111111111111111111]))), (.address (addr (hx 20 [0x2222222222222222222222222222222222222222])))]), (.fixedArray [(.address (addr (hx 20 [0x3333333333333333333333333333333333333333]))), (.address (addr (hx 20 [0x4444444444444444444444444444444444444444])))])])] = .ok (hx 192 [0x0000000000000000000000000000000000000000000000000000000000000020,
      0x0000000000000000000000000000000000000000000000000000000000000002,
      0x0000000000000000000000001111111111111111111111111111111111111111,
      0x0000000000000000000000002222222222222222222222222222222222222222,
      0x0000000000000000000000003333333333333333333333333333333333333333,
      0x0000000000000000000000004444444444444444444444444444444444444444]) := by decide +kernel
example : decode .debug [(.array (.fixedArray .address 2))] (hx 192 [0x0000000000000000000000000000000000000000000000000000000000000020,
      0x0000000000000000000000000000000000000000000000000000000000000002,
      0x0000000000000000000000001111111111111111111111111111111111111111,
      0x0000000000000000000000002222222222222222222222222222222222222222,
      0x0000000000000000000000003333333333333333333333333333333333333333,
      0x0000000000000000000000004444444444444444444444444444444444444444]) = .ok [(.array [(.fixedArray [(.address (addr (hx 20 [0x1111111111111111111111111111111111111111]))), (.address (addr (hx 20 [0x2222222222222222222222222222222222222222])))]), (.fixedArray [(.address (addr (hx 20 [0x3333333333333333333333333333333333333333]))), (.address (addr (hx 20 [0x4444444444444444444444444444444444444444])))])])] := by decide +kernel

/-! tests.rs:224-296 `encode_dynamic_array_of_fixed_arrays_of_dynamic_array`, `decode_dynamic_array_of_fixed_arrays_of_dynamic_array` -/
example : encode .debug [(.array [(.fixedArray [(.array [(.address (addr (hx 20 [0x1111111111111111111111111111111111111111]))), (.address (addr (hx 20 [0x2222222222222222222222222222222222222222])))]), (.array [(.address (addr (hx 20 [0x3333333333333333333333333333333333333333]))), (.address (addr (hx 20 [0x4444444444444444444444444444444444444444])))])]), (.fixedArray [(.array [(.address (addr (hx 20 [0x5555555555555555555555555555555555555555]))), (.address (addr (hx 20 [0x6666666666666666666666666666666666666666])))]), (.array [(.address (addr (hx 20 [0x7777777777777777777777777777777777777777]))), (.address (addr (hx 20 [0x8888888888888888888888888888888888888888])))])])])] = .ok (hx 640 [0x0000000000000000000000000000000000000000000000000000000000000020,
      0x0000000000000000000000000000000000000000000000000000000000000002,
      0x0000000000000000000000000000000000000000000000000000000000000040,
      0x0000000000000000000000000000000000000000000000000000000000000140,
      0x0000000000000000000000000000000000000000000000000000000000000040,
      0x00000000000000000000000000000000000000000000000000000000000000a0,
      0x0000000000000000000000000000000000000000000000000000000000000002,
      0x0000000000000000000000001111111111111111111111111111111111111111,
      0x0000000000000000000000002222222222222222222222222222222222222222,
      0x0000000000000000000000000000000000000000000000000000000000000002,
      0x0000000000000000000000003333333333333333333333333333333333333333,
      0x0000000000000000000000004444444444444444444444444444444444444444,
      0x0000000000000000000000000000000000000000000000000000000000000040,
      0x00000000000000000000000000000000000000000000000000000000000000a0,
      0x0000000000000000000000000000000000000000000000000000000000000002,
      0x0000000000000000000000005555555555555555555555555555555555555555,
      0x0000000000000000000000006666666666666666666666666666666666666666,
      0x0000000000000000000000000000000000000000000000000000000000000002,
      0x0000000000000000000000007777777777777777777777777777777777777777,
      0x0000000000000000000000008888888888888888888888888888888888888888]) := by decide +kernel
example : decode .debug [(.array (.fixedArray (.array .address) 2))] (hx 640 [0x0000000000000000000000000000000000000000000000000000000000000020,
      0x0000000000000000000000000000000000000000000000000000000000000002,
      0x0000000000000000000000000000000000000000000000000000000000000040,
      0x0000000000000000000000000000000000000000000000000000000000000140,
      0x0000000000000000000000000000000000000000000000000000000000000040,
      0x00000000000000000000000000000000000000000000000000000000000000a0,
      0x0000000000000000000000000000000000000000000000000000000000000002,
      0x0000000000000000000000001111111111111111111111111111111111111111,
      0x0000000000000000000000002222222222222222222222222222222222222222,
      0x0000000000000000000000000000000000000000000000000000000000000002,
      0x0000000000000000000000003333333333333333333333333333333333333333,
      0x0000000000000000000000004444444444444444444444444444444444444444,
      0x0000000000000000000000000000000000000000000000000000000000000040,
      0x00000000000000000000000000000000000000000000000000000000000000a0,
      0x0000000000000000000000000000000000000000000000000000000000000002,
      0x0000000000000000000000005555555555555555555555555555555555555555,
      0x0000000000000000000000006666666666666666666666666666666666666666,
      0x0000000000000000000000000000000000000000000000000000000000000002,
      0x0000000000000000000000007777777777777777777777777777777777777777,
      0x0000000000000000000000008888888888888888888888888888888888888888]) = .ok [(.array [(.fixedArray [(.array [(.address (addr (hx 20 [0x1111111111111111111111111111111111111111]))), (.address (addr (hx 20 [0x2222222222222222222222222222222222222222])))]), (.array [(.address (addr (hx 20 [0x3333333333333333333333333333333333333333]))), (.address (addr (hx 20 [0x4444444444444444444444444444444444444444])))])]), (.fixedArray [(.array [(.address (addr (hx 20 [0x5555555555555555555555555555555555555555]))), (.address (addr (hx 20 [0x6666666666666666666666666666666666666666])))]), (.array [(.address (addr (hx 20 [0x7777777777777777777777777777777777777777]))), (.address (addr (hx 20 [0x8888888888888888888888888888888888888888])))])])])] := by decide +kernel

/-! tests.rs:297-331 `encode_dynamic_array_of_dynamic_arrays`, `decode_dynamic_array_of_dynamic_arrays` -/
example : encode .debug [(.array [(.array [(.address (addr (hx 20 [0x1111111111111111111111111111111111111111])))]), (.array [(.address (addr (hx 20 [0x2222222222222222222222222222222222222222])))])])] = .ok (hx 256 [0x0000000000000000000000000000000000000000000000000000000000000020,
      0x0000000000000000000000000000000000000000000000000000000000000002,
      0x0000000000000000000000000000000000000000000000000000000000000040,
      0x0000000000000000000000000000000000000000000000000000000000000080,
      0x0000000000000000000000000000000000000000000000000000000000000001,
      0x0000000000000000000000001111111111111111111111111111111111111111,
      0x0000000000000000000000000000000000000000000000000000000000000001,
      0x0000000000000000000000002222222222222222222222222222222222222222]) := by decide +kernel
example : decode .debug [(.array (.array .address))] (hx 256 [0x0000000000000000000000000000000000000000000000000000000000000020,
      0x0000000000000000000000000000000000000000000000000000000000000002,
      0x0000000000000000000000000000000000000000000000000000000000000040,
      0x0000000000000000000000000000000000000000000000000000000000000080,
      0x0000000000000000000000000000000000000000000000000000000000000001,
      0x0000000000000000000000001111111111111111111111111111111111111111,
      0x0000000000000000000000000000000000000000000000000000000000000001,
      0x0000000000000000000000002222222222222222222222222222222222222222]) = .ok [(.array [(.array [(.address (addr (hx 20 [0x1111111111111111111111111111111111111111])))]), (.array [(.address (addr (hx 20 [0x2222222222222222222222222222222222222222])))])])] := by decide +kernel

/-! tests.rs:332-360 `encode_dynamic_array_of_dynamic_arrays2`, `decode_dynamic_array_of_dynamic_arrays2` -/
example : encode .debug [(.array [(.array [(.address (addr (hx 20 [0x1111111111111111111111111111111111111111]))), (.address (addr (hx 20 [0x2222222222222222222222222222222222222222])))]), (.array [(.address (addr (hx 20 [0x3333333333333333333333333333333333333333]))), (.address (addr (hx 20 [0x4444444444444444444444444444444444444444])))])])] = .ok (hx 320 [0x0000000000000000000000000000000000000000000000000000000000000020,
      0x0000000000000000000000000000000000000000000000000000000000000002,
      0x0000000000000000000000000000000000000000000000000000000000000040,
      0x00000000000000000000000000000000000000000000000000000000000000a0,
      0x0000000000000000000000000000000000000000000000000000000000000002,
      0x0000000000000000000000001111111111111111111111111111111111111111,
      0x0000000000000000000000002222222222222222222222222222222222222222,
      0x0000000000000000000000000000000000000000000000000000000000000002,
      0x0000000000000000000000003333333333333333333333333333333333333333,
      0x0000000000000000000000004444444444444444444444444444444444444444]) := by decide +kernel
example : decode .debug [(.array (.array .address))] (hx 320 [0x0000000000000000000000000000000000000000000000000000000000000020,
      0x0000000000000000000000000000000000000000000000000000000000000002,
      0x0000000000000000000000000000000000000000000000000000000000000040,
      0x00000000000000000000000000000000000000000000000000000000000000a0,
      0x0000000000000000000000000000000000000000000000000000000000000002,
      0x0000000000000000000000001111111111111111111111111111111111111111,
      0x0000000000000000000000002222222222222222222222222222222222222222,
      0x0000000000000000000000000000000000000000000000000000000000000002,
      0x0000000000000000000000003333333333333333333333333333333333333333,
      0x0000000000000000000000004444444444444444444444444444444444444444]) = .ok [(.array [(.array [(.address (addr (hx 20 [0x1111111111111111111111111111111111111111]))), (.address (addr (hx 20 [0x2222222222222222222222222222222222222222])))]), (.array [(.address (addr (hx 20 [0x3333333333333333333333333333333333333333]))), (.address (addr (hx 20 [0x4444444444444444444444444444444444444444])))])])] := by decide +kernel

/-! tests.rs:361-373 `encode_dynamic_array_of_bool`, `decode_dynamic_array_of_bool` -/
example : encode .debug [(.array [(.bool true), (.bool false)])] = .ok (hx 128 [0x0000000000000000000000000000000000000000000000000000000000000020,
      0x0000000000000000000000000000000000000000000000000000000000000002,
      0x0000000000000000000000000000000000000000000000000000000000000001,
      0x0000000000000000000000000000000000000000000000000000000000000000]) := by decide +kernel
example : decode .debug [(.array .bool)] (hx 128 [0x0000000000000000000000000000000000000000000000000000000000000020,
      0x0000000000000000000000000000000000000000000000000000000000000002,
      0x0000000000000000000000000000000000000000000000000000000000000001,
      0x0000000000000000000000000000000000000000000000000000000000000000]) = .ok [(.array [(.bool true), (.bool false)])] := by decide +kernel

/-! tests.rs:374-394 `encode_dynamic_array_of_bytes`, `decode_dynamic_array_of_bytes` -/
example : encode .debug [(.array [(.bytes (hx 38 [0x019c80031b20d5e69c8093a571162299032018d913930d93ab320ae5ea44a421,
      0x8a274f00d607]))])] = .ok (hx 192 [0x0000000000000000000000000000000000000000000000000000000000000020,
      0x0000000000000000000000000000000000000000000000000000000000000001,
      0x0000000000000000000000000000000000000000000000000000000000000020,
      0x0000000000000000000000000000000000000000000000000000000000000026,
      0x019c80031b20d5e69c8093a571162299032018d913930d93ab320ae5ea44a421,
      0x8a274f00d6070000000000000000000000000000000000000000000000000000]) := by decide +kernel
example : decode .debug [(.array .bytes)] (hx 192 [0x0000000000000000000000000000000000000000000000000000000000000020,
      0x0000000000000000000000000000000000000000000000000000000000000001,
      0x0000000000000000000000000000000000000000000000000000000000000020,
      0x0000000000000000000000000000000000000000000000000000000000000026,
      0x019c80031b20d5e69c8093a571162299032018d913930d93ab320ae5ea44a421,
      0x8a274f00d6070000000000000000000000000000000000000000000000000000]) = .ok [(.array [(.bytes (hx 38 [0x019c80031b20d5e69c8093a571162299032018d913930d93ab320ae5ea44a421,
      0x8a274f00d607]))])] := by decide +kernel

/-! tests.rs:395-415 `encode_dynamic_array_of_bytes2`, `decode_dynamic_array_of_bytes2` -/
example : encode .debug [(.array [(.bytes (hx 38 [0x4444444444444444444444444444444444444444444444444444444444444444,
      0x444444444444])), (.bytes (hx 38 [0x6666666666666666666666666666666666666666666666666666666666666666,
      0x666666666666]))])] = .ok (hx 320 [0x0000000000000000000000000000000000000000000000000000000000000020,
      0x0000000000000000000000000000000000000000000000000000000000000002,
      0x0000000000000000000000000000000000000000000000000000000000000040,
      0x00000000000000000000000000000000000000000000000000000000000000a0,
      0x0000000000000000000000000000000000000000000000000000000000000026,
      0x4444444444444444444444444444444444444444444444444444444444444444,
      0x4444444444440000000000000000000000000000000000000000000000000000,
      0x0000000000000000000000000000000000000000000000000000000000000026,
      0x6666666666666666666666666666666666666666666666666666666666666666,
      0x6666666666660000000000000000000000000000000000000000000000000000]) := by decide +kernel
example : decode .debug [(.array .bytes)] (hx 320 [0x0000000000000000000000000000000000000000000000000000000000000020,
      0x0000000000000000000000000000000000000000000000000000000000000002,
      0x0000000000000000000000000000000000000000000000000000000000000040,
      0x00000000000000000000000000000000000000000000000000000000000000a0,
      0x0000000000000000000000000000000000000000000000000000000000000026,
      0x4444444444444444444444444444444444444444444444444444444444444444,
      0x4444444444440000000000000000000000000000000000000000000000000000,
      0x0000000000000000000000000000000000000000000000000000000000000026,
      0x6666666666666666666666666666666666666666666666666666666666666666,
      0x6666666666660000000000000000000000000000000000000000000000000000]) = .ok [(.array [(.bytes (hx 38 [0x4444444444444444444444444444444444444444444444444444444444444444,
      0x444444444444])), (.bytes (hx 38 [0x6666666666666666666666666666666666666666666666666666666666666666,
      0x666666666666]))])] := by decide +kernel

/-! tests.rs:416-431 `encode_empty_dynamic_array`, `decode_empty_dynamic_array` -/
example : encode .debug [(.array []), (.array [])] = .ok (hx 128 [0x0000000000000000000000000000000000000000000000000000000000000040,
      0x0000000000000000000000000000000000000000000000000000000000000060,
      0x0000000000000000000000000000000000000000000000000000000000000000,
      0x0000000000000000000000000000000000000000000000000000000000000000]) := by decide +kernel
example : decode .debug [(.array .bool), (.array .bool)] (hx 128 [0x0000000000000000000000000000000000000000000000000000000000000040,
      0x0000000000000000000000000000000000000000000000000000000000000060,
      0x0000000000000000000000000000000000000000000000000000000000000000,
      0x0000000000000000000000000000000000000000000000000000000000000000]) = .ok [(.array []), (.array [])] := by decide +kernel

/-! tests.rs:432-451 `encode_dynamic_array_of_empty_dynamic_array`, `decode_dynamic_array_of_empty_dynamic_array` -/
example : encode .debug [(.array [(.array [])]), (.array [(.array [])])] = .ok (hx 256 [0x0000000000000000000000000000000000000000000000000000000000000040,
      0x00000000000000000000000000000000000000000000000000000000000000a0,
      0x0000000000000000000000000000000000000000000000000000000000000001,
      0x0000000000000000000000000000000000000000000000000000000000000020,
      0x0000000000000000000000000000000000000000000000000000000000000000,
      0x0000000000000000000000000000000000000000000000000000000000000001,
      0x0000000000000000000000000000000000000000000000000000000000000020,
      0x0000000000000000000000000000000000000000000000000000000000000000]) := by decide +kernel
example : decode .debug [(.array (.array .bool)), (.array (.array .bool))] (hx 256 [0x0000000000000000000000000000000000000000000000000000000000000040,
      0x00000000000000000000000000000000000000000000000000000000000000a0,
      0x0000000000000000000000000000000000000000000000000000000000000001,
      0x0000000000000000000000000000000000000000000000000000000000000020,
      0x0000000000000000000000000000000000000000000000000000000000000000,
      0x0000000000000000000000000000000000000000000000000000000000000001,
      0x0000000000000000000000000000000000000000000000000000000000000020,
      0x0000000000000000000000000000000000000000000000000000000000000000]) = .ok [(.array [(.array [])]), (.array [(.array [])])] := by decide +kernel

/-! tests.rs:454-465 `encode_fixed_array_of_addresses`, `decode_fixed_array_of_addresses` -/
example : encode .debug [(.fixedArray [(.address (addr (hx 20 [0x1111111111111111111111111111111111111111]))), (.address (addr (hx 20 [0x2222222222222222222222222222222222222222])))])] = .ok (hx 64 [0x0000000000000000000000001111111111111111111111111111111111111111,
      0x0000000000000000000000002222222222222222222222222222222222222222]) := by decide +kernel
example : decode .debug [(.fixedArray .address 2)] (hx 64 [0x0000000000000000000000001111111111111111111111111111111111111111,
      0x0000000000000000000000002222222222222222222222222222222222222222]) = .ok [(.fixedArray [(.address (addr (hx 20 [0x1111111111111111111111111111111111111111]))), (.address (addr (hx 20 [0x2222222222222222222222222222222222222222])))])] := by decide +kernel

/-! tests.rs:466-490 `encode_fixed_array_of_strings`, `decode_fixed_array_of_strings` -/
example : encode .debug [(.fixedArray [(.string (lit "foo")), (.string (lit "bar"))])] = .ok (hx 224 [0x0000000000000000000000000000000000000000000000000000000000000020,
      0x0000000000000000000000000000000000000000000000000000000000000040,
      0x0000000000000000000000000000000000000000000000000000000000000080,
      0x0000000000000000000000000000000000000000000000000000000000000003,
      0x666f6f0000000000000000000000000000000000000000000000000000000000,
      0x0000000000000000000000000000000000000000000000000000000000000003,
      0x6261720000000000000000000000000000000000000000000000000000000000]) := by decide +kernel
example : decode .debug [(.fixedArray .string 2)] (hx 224 [0x0000000000000000000000000000000000000000000000000000000000000020,
      0x0000000000000000000000000000000000000000000000000000000000000040,
      0x0000000000000000000000000000000000000000000000000000000000000080,
      0x0000000000000000000000000000000000000000000000000000000000000003,
      0x666f6f0000000000000000000000000000000000000000000000000000000000,
      0x0000000000000000000000000000000000000000000000000000000000000003,
      0x6261720000000000000000000000000000000000000000000000000000000000]) = .ok [(.fixedArray [(.string (lit "foo")), (.string (lit "bar"))])] := by decide +kernel

/-! tests.rs:491-514 `encode_fixed_array_of_fixed_arrays`, `decode_fixed_array_of_fixed_arrays` -/
example : encode .debug [(.fixedArray [(.fixedArray [(.address (addr (hx 20 [0x1111111111111111111111111111111111111111]))), (.address (addr (hx 20 [0x2222222222222222222222222222222222222222])))]), (.fixedArray [(.address (addr (hx 20 [0x3333333333333333333333333333333333333333]))), (.address (addr (hx 20 [0x4444444444444444444444444444444444444444])))])])] = .ok (hx 128 [0x0000000000000000000000001111111111111111111111111111111111111111,
      0x0000000000000000000000002222222222222222222222222222222222222222,
      0x0000000000000000000000003333333333333333333333333333333333333333,
      0x0000000000000000000000004444444444444444444444444444444444444444]) := by decide +kernel
example : decode .debug [(.fixedArray (.fixedArray .address 2) 2)] (hx 128 [0x0000000000000000000000001111111111111111111111111111111111111111,
      0x0000000000000000000000002222222222222222222222222222222222222222,
      0x0000000000000000000000003333333333333333333333333333333333333333,
      0x0000000000000000000000004444444444444444444444444444444444444444]) = .ok [(.fixedArray [(.fixedArray [(.address (addr (hx 20 [0x1111111111111111111111111111111111111111]))), (.address (addr (hx 20 [0x2222222222222222222222222222222222222222])))]), (.fixedArray [(.address (addr (hx 20 [0x3333333333333333333333333333333333333333]))), (.address (addr (hx 20 [0x4444444444444444444444444444444444444444])))])])] := by decide +kernel

/-! tests.rs:515-542 `encode_fixed_array_of_dynamic_array_of_addresses`, `decode_fixed_array_of_dynamic_array_of_addresses` -/
example : encode .debug [(.fixedArray [(.array [(.address (addr (hx 20 [0x1111111111111111111111111111111111111111]))), (.address (addr (hx 20 [0x2222222222222222222222222222222222222222])))]), (.array [(.address (addr (hx 20 [0x3333333333333333333333333333333333333333]))), (.address (addr (hx 20 [0x4444444444444444444444444444444444444444])))])])] = .ok (hx 288 [0x0000000000000000000000000000000000000000000000000000000000000020,
      0x0000000000000000000000000000000000000000000000000000000000000040,
      0x00000000000000000000000000000000000000000000000000000000000000a0,
      0x0000000000000000000000000000000000000000000000000000000000000002,
      0x0000000000000000000000001111111111111111111111111111111111111111,
      0x0000000000000000000000002222222222222222222222222222222222222222,
      0x0000000000000000000000000000000000000000000000000000000000000002,
      0x0000000000000000000000003333333333333333333333333333333333333333,
      0x0000000000000000000000004444444444444444444444444444444444444444]) := by decide +kernel
example : decode .debug [(.fixedArray (.array .address) 2)] (hx 288 [0x0000000000000000000000000000000000000000000000000000000000000020,
      0x0000000000000000000000000000000000000000000000000000000000000040,
      0x00000000000000000000000000000000000000000000000000000000000000a0,
      0x0000000000000000000000000000000000000000000000000000000000000002,
      0x0000000000000000000000001111111111111111111111111111111111111111,
      0x0000000000000000000000002222222222222222222222222222222222222222,
      0x0000000000000000000000000000000000000000000000000000000000000002,
      0x0000000000000000000000003333333333333333333333333333333333333333,
      0x0000000000000000000000004444444444444444444444444444444444444444]) = .ok [(.fixedArray [(.array [(.address (addr (hx 20 [0x1111111111111111111111111111111111111111]))), (.address (addr (hx 20 [0x2222222222222222222222222222222222222222])))]), (.array [(.address (addr (hx 20 [0x3333333333333333333333333333333333333333]))), (.address (addr (hx 20 [0x4444444444444444444444444444444444444444])))])])] := by decide +kernel

/-! tests.rs:545-551 `encode_fixed_bytes`, `decode_fixed_bytes` -/
example : encode .debug [(.fixedBytes (hx 2 [0x1234]))] = .ok (hx 32 [0x1234000000000000000000000000000000000000000000000000000000000000]) := by decide +kernel
example : decode .debug [(.fixedBytes 2)] (hx 32 [0x1234000000000000000000000000000000000000000000000000000000000000]) = .ok [(.fixedBytes (hx 2 [0x1234]))] := by decide +kernel

/-! tests.rs:554-599 `encode_tuple_with_tuple_array_test`, `decode_tuple_with_tuple_array_test` -/
example : encode .debug [(.tuple [(.array [(.tuple [(.address (addr (hx 20 [0x1111111111111111111111111111111111111111]))), (.uint 0x1111111111111111111111111111111111111111111111111111111111111111#256)]), (.tuple [(.address (addr (hx 20 [0x2222222222222222222222222222222222222222]))), (.uint 0x2222222222222222222222222222222222222222222222222222222222222222#256)]), (.tuple [(.address (addr (hx 20 [0x3333333333333333333333333333333333333333]))), (.uint 0x4444444444444444444444444444444444444444444444444444444444444444#256)])])])] = .ok (hx 288 [0x0000000000000000000000000000000000000000000000000000000000000020,
      0x0000000000000000000000000000000000000000000000000000000000000020,
      0x0000000000000000000000000000000000000000000000000000000000000003,
      0x0000000000000000000000001111111111111111111111111111111111111111,
      0x1111111111111111111111111111111111111111111111111111111111111111,
      0x0000000000000000000000002222222222222222222222222222222222222222,
      0x2222222222222222222222222222222222222222222222222222222222222222,
      0x0000000000000000000000003333333333333333333333333333333333333333,
      0x4444444444444444444444444444444444444444444444444444444444444444]) := by decide +kernel
example : decode .debug [(.tuple [(.array (.tuple [.address, (.uint 256)]))])] (hx 288 [0x0000000000000000000000000000000000000000000000000000000000000020,
      0x0000000000000000000000000000000000000000000000000000000000000020,
      0x0000000000000000000000000000000000000000000000000000000000000003,
      0x0000000000000000000000001111111111111111111111111111111111111111,
      0x1111111111111111111111111111111111111111111111111111111111111111,
      0x0000000000000000000000002222222222222222222222222222222222222222,
      0x2222222222222222222222222222222222222222222222222222222222222222,
      0x0000000000000000000000003333333333333333333333333333333333333333,
      0x4444444444444444444444444444444444444444444444444444444444444444]) = .ok [(.tuple [(.array [(.tuple [(.address (addr (hx 20 [0x1111111111111111111111111111111111111111]))), (.uint 0x1111111111111111111111111111111111111111111111111111111111111111#256)]), (.tuple [(.address (addr (hx 20 [0x2222222222222222222222222222222222222222]))), (.uint 0x2222222222222222222222222222222222222222222222222222222222222222#256)]), (.tuple [(.address (addr (hx 20 [0x3333333333333333333333333333333333333333]))), (.uint 0x4444444444444444444444444444444444444444444444444444444444444444#256)])])])] := by decide +kernel

/-! tests.rs:602-633 `encode_comprehensive_test`, `decode_comprehensive_test` -/
example : encode .debug [(.int 0x5#256), (.bytes (hx 64 [0x131a3afc00d1b1e3461b955e53fc866dcf303b3eb9f4c16f89e388930f48134b,
      0x131a3afc00d1b1e3461b955e53fc866dcf303b3eb9f4c16f89e388930f48134b])), (.int 0x3#256), (.bytes (hx 64 [0x131a3afc00d1b1e3461b955e53fc866dcf303b3eb9f4c16f89e388930f48134b,
      0x131a3afc00d1b1e3461b955e53fc866dcf303b3eb9f4c16f89e388930f48134b]))] = .ok (hx 320 [0x0000000000000000000000000000000000000000000000000000000000000005,
      0x0000000000000000000000000000000000000000000000000000000000000080,
      0x0000000000000000000000000000000000000000000000000000000000000003,
      0x00000000000000000000000000000000000000000000000000000000000000e0,
      0x0000000000000000000000000000000000000000000000000000000000000040,
      0x131a3afc00d1b1e3461b955e53fc866dcf303b3eb9f4c16f89e388930f48134b,
      0x131a3afc00d1b1e3461b955e53fc866dcf303b3eb9f4c16f89e388930f48134b,
      0x0000000000000000000000000000000000000000000000000000000000000040,
      0x131a3afc00d1b1e3461b955e53fc866dcf303b3eb9f4c16f89e388930f48134b,
      0x131a3afc00d1b1e3461b955e53fc866dcf303b3eb9f4c16f89e388930f48134b]) := by decide +kernel
example : decode .debug [(.int 32), .bytes, (.int 32), .bytes] (hx 320 [0x0000000000000000000000000000000000000000000000000000000000000005,
      0x0000000000000000000000000000000000000000000000000000000000000080,
      0x0000000000000000000000000000000000000000000000000000000000000003,
      0x00000000000000000000000000000000000000000000000000000000000000e0,
      0x0000000000000000000000000000000000000000000000000000000000000040,
      0x131a3afc00d1b1e3461b955e53fc866dcf303b3eb9f4c16f89e388930f48134b,
      0x131a3afc00d1b1e3461b955e53fc866dcf303b3eb9f4c16f89e388930f48134b,
      0x0000000000000000000000000000000000000000000000000000000000000040,
      0x131a3afc00d1b1e3461b955e53fc866dcf303b3eb9f4c16f89e388930f48134b,
      0x131a3afc00d1b1e3461b955e53fc866dcf303b3eb9f4c16f89e388930f48134b]) = .ok [(.int 0x5#256), (.bytes (hx 64 [0x131a3afc00d1b1e3461b955e53fc866dcf303b3eb9f4c16f89e388930f48134b,
      0x131a3afc00d1b1e3461b955e53fc866dcf303b3eb9f4c16f89e388930f48134b])), (.int 0x3#256), (.bytes (hx 64 [0x131a3afc00d1b1e3461b955e53fc866dcf303b3eb9f4c16f89e388930f48134b,
      0x131a3afc00d1b1e3461b955e53fc866dcf303b3eb9f4c16f89e388930f48134b]))] := by decide +kernel

/-! tests.rs:634-669 `encode_comprehensive_test2`, `decode_comprehensive_test2` -/
example : encode .debug [(.int 0x1#256), (.string (lit "gavofyork")), (.int 0x2#256), (.int 0x3#256), (.int 0x4#256), (.array [(.int 0x5#256), (.int 0x6#256), (.int 0x7#256)])] = .ok (hx 384 [0x0000000000000000000000000000000000000000000000000000000000000001,
      0x00000000000000000000000000000000000000000000000000000000000000c0,
      0x0000000000000000000000000000000000000000000000000000000000000002,
      0x0000000000000000000000000000000000000000000000000000000000000003,
      0x0000000000000000000000000000000000000000000000000000000000000004,
      0x0000000000000000000000000000000000000000000000000000000000000100,
      0x0000000000000000000000000000000000000000000000000000000000000009,
      0x6761766f66796f726b0000000000000000000000000000000000000000000000,
      0x0000000000000000000000000000000000000000000000000000000000000003,
      0x0000000000000000000000000000000000000000000000000000000000000005,
      0x0000000000000000000000000000000000000000000000000000000000000006,
      0x0000000000000000000000000000000000000000000000000000000000000007]) := by decide +kernel
example : decode .debug [(.int 32), .string, (.int 32), (.int 32), (.int 32), (.array (.int 32))] (hx 384 [0x0000000000000000000000000000000000000000000000000000000000000001,
      0x00000000000000000000000000000000000000000000000000000000000000c0,
      0x0000000000000000000000000000000000000000000000000000000000000002,
      0x0000000000000000000000000000000000000000000000000000000000000003,
      0x0000000000000000000000000000000000000000000000000000000000000004,
      0x0000000000000000000000000000000000000000000000000000000000000100,
      0x0000000000000000000000000000000000000000000000000000000000000009,
      0x6761766f66796f726b0000000000000000000000000000000000000000000000,
      0x0000000000000000000000000000000000000000000000000000000000000003,
      0x0000000000000000000000000000000000000000000000000000000000000005,
      0x0000000000000000000000000000000000000000000000000000000000000006,
      0x0000000000000000000000000000000000000000000000000000000000000007]) = .ok [(.int 0x1#256), (.string (lit "gavofyork")), (.int 0x2#256), (.int 0x3#256), (.int 0x4#256), (.array [(.int 0x5#256), (.int 0x6#256), (.int 0x7#256)])] := by decide +kernel

end Ethabi.Tests

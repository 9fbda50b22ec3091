import Verif.Tests.Helpers
import Verif.Spec.Keccak
import Verif.Model.Event
/-!
# Tests: signatures, function calls, events and topic filters

The unit tests of ethabi/src/signature.rs, function.rs, event.rs and filter.rs, with the concrete Keccak-256.
These are tests of the model (finitely many inputs), not proofs of any property.
-/
namespace Ethabi.Tests
open Keccak

/-- Keccak-256 of the empty string, the well-known constant -/
example : (keccak256 []).1 =
    hx 32 [0xc5d2460186f7233c927e7db2dcc703c0e500b653ca82273b7bfad8045d85a470] := by decide +kernel

/-! signature.rs:41-44 `test_signature` -/
example : shortSignature keccak256 (lit "baz") [.uint 32, .bool] = hx 4 [0xcdcd77c0] := by decide +kernel

/-! function.rs:97-116 `test_function_encode_call` -/
example : Function.encodeInput keccak256 .debug
    { name := lit "baz",
      inputs := [⟨lit "a", .uint 32, none⟩, ⟨lit "b", .bool, none⟩],
      outputs := [], constant := false, stateMutability := .payable }
    [.uint 69#256, .bool true] =
    .ok (hx 68 [0xcdcd77c000000000000000000000000000000000000000000000000000000000,
        0x0000004500000000000000000000000000000000000000000000000000000000,
        0x00000001]) := by decide +kernel

/-- event.rs:188-210 the event of `test_decoding_event` -/
def fooEvent : Event :=
  { name := lit "foo",
    inputs := [⟨lit "a", .int 256, false⟩, ⟨lit "b", .int 256, true⟩, ⟨lit "c", .address, false⟩,
      ⟨lit "d", .address, true⟩, ⟨lit "e", .string, true⟩, ⟨lit "f", .array (.int 256), true⟩,
      ⟨lit "g", .fixedArray .address 5, true⟩],
    anonymous := false }

/-! event.rs:187-276 `test_decoding_event` -/
example : Event.parseLog keccak256 .debug fooEvent
    { topics := [
        longSignature keccak256 (lit "foo") [.int 256, .int 256, .address, .address, .string, .array (.int 256),
          .fixedArray .address 5],
        word (hx 32 [0x0000000000000000000000000000000000000000000000000000000000000002]),
        word (hx 32 [0x0000000000000000000000001111111111111111111111111111111111111111]),
        word (hx 32 [0x00000000000000000aaaaaaaaaaaaaaaaaaaaaaaaaaaaaaaaaaaaaaaaaaaaaaa]),
        word (hx 32 [0x00000000000000000bbbbbbbbbbbbbbbbbbbbbbbbbbbbbbbbbbbbbbbbbbbbbbb]),
        word (hx 32 [0x00000000000000000ccccccccccccccccccccccccccccccccccccccccccccccc])],
      data := hx 64 [0x0000000000000000000000000000000000000000000000000000000000000003,
        0x0000000000000000000000002222222222222222222222222222222222222222] } =
    .ok { params := [
      ⟨lit "a", .int 3#256⟩, ⟨lit "b", .int 2#256⟩,
      ⟨lit "c", .address (addr (hx 20 [0x2222222222222222222222222222222222222222]))⟩,
      ⟨lit "d", .address (addr (hx 20 [0x1111111111111111111111111111111111111111]))⟩,
      ⟨lit "e", .fixedBytes (hx 32 [0x00000000000000000aaaaaaaaaaaaaaaaaaaaaaaaaaaaaaaaaaaaaaaaaaaaaaa])⟩,
      ⟨lit "f", .fixedBytes (hx 32 [0x00000000000000000bbbbbbbbbbbbbbbbbbbbbbbbbbbbbbbbbbbbbbbbbbbbbbb])⟩,
      ⟨lit "g", .fixedBytes (hx 32 [0x00000000000000000ccccccccccccccccccccccccccccccccccccccccccccccc])⟩] } := by
  decide +kernel

/-! filter.rs:160-176 `test_topic_filter_serialization` -/
example : sameJson (serTopicFilter
    { topic0 := .this (word (hx 32 [0x000000000000000000000000a94f5374fce5edbc8e2a8697c15331677e6ebf0b])),
      topic1 := .any,
      topic2 := .oneOf [word (hx 32 [0x000000000000000000000000a94f5374fce5edbc8e2a8697c15331677e6ebf0b]),
        word (hx 32 [0x0000000000000000000000000aff3454fce5edbc8cca8697c15331677e6ebccc])],
      topic3 := .any })
    (.arr [.str (lit "0x000000000000000000000000a94f5374fce5edbc8e2a8697c15331677e6ebf0b"), .null,
      .arr [.str (lit "0x000000000000000000000000a94f5374fce5edbc8e2a8697c15331677e6ebf0b"),
        .str (lit "0x0000000000000000000000000aff3454fce5edbc8cca8697c15331677e6ebccc")], .null]) = true := by
  decide +kernel

/-! filter.rs:178-183 `test_topic_from` -/
example : Topic.ofOption (none : Option Nat) = .any := by decide +kernel
example : Topic.ofValue 10 = .this 10 := by decide +kernel
example : Topic.ofVec [10, 20] = .oneOf [10, 20] := by decide +kernel

/-! filter.rs:185-196 `test_topic_into_vec` -/
example : (Topic.any : Topic Nat).toVec = [] := by decide +kernel
example : (Topic.this 10).toVec = [10] := by decide +kernel
example : (Topic.oneOf [10, 20]).toVec = [10, 20] := by decide +kernel

/-! filter.rs:198-203 `test_topic_is_any` -/
example : (Topic.any : Topic Nat).isAny = true := by decide +kernel
example : (Topic.oneOf [10, 20]).isAny = false := by decide +kernel
example : (Topic.this 10).isAny = false := by decide +kernel

/-! filter.rs:205-222 `test_topic_index`, `test_topic_index_panic`, `test_topic_index_panic2` -/
example : (Topic.oneOf [10, 20]).index 0 = .ok 10 := by decide +kernel
example : (Topic.oneOf [10, 20]).index 1 = .ok 20 := by decide +kernel
example : (Topic.this 10).index 0 = .ok 10 := by decide +kernel
example : (Topic.any : Topic Nat).index 0 = .panic := by decide +kernel
example : (Topic.this 10).index 1 = .panic := by decide +kernel

end Ethabi.Tests

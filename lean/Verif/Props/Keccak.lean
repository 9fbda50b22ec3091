import Verif.Spec.Keccak
import Verif.Props.Filters
import Verif.Props.Derive
/-! # Counterexamples of C40 and C64 with Keccak-256 itself -/
namespace Ethabi.Props
open Spec Keccak

/-- **C40 is false** with Keccak-256: a filter for the string "a" does not match the log that was emitted with it. -/
theorem C40_counterexample_keccak_string (prof : Profile) :
    ∃ f, (oneParamEvent .string).filter keccak256 prof { topic0 := .this (.string (lit "a")) } = .ok f ∧
      ¬ filterMatches f (emitTopics keccak256 (lit "E") true [⟨[], .string, true, .string (lit "a")⟩]) := by
  refine ⟨{ topic0 := .this (keccak256 (encodeArgs [.string (lit "a")] [.string])) }, by cases prof <;> decide +kernel, ?_⟩
  rintro ⟨h, -⟩
  revert h
  show ¬ (_ = _)
  decide +kernel

/-- Likewise for an array `bool[]` and, not being hashed, for `bool[1]`. -/
theorem C40_counterexample_keccak_array (prof : Profile) :
    (∃ f, (oneParamEvent (.array .bool)).filter keccak256 prof { topic0 := .this (.array [.bool true]) } = .ok f ∧
      ¬ filterMatches f (emitTopics keccak256 (lit "E") true [⟨[], .array .bool, true, .array [.bool true]⟩])) ∧
    (∃ f, (oneParamEvent (.fixedArray .bool 1)).filter keccak256 prof { topic0 := .this (.fixedArray [.bool true]) } = .ok f ∧
      ¬ filterMatches f (emitTopics keccak256 (lit "E") true [⟨[], .fixedArray .bool 1, true, .fixedArray [.bool true]⟩])) := by
  constructor
  · refine ⟨{ topic0 := .this (keccak256 (encodeArgs [.array [.bool true]] [.array .bool])) }, by cases prof <;> decide +kernel, ?_⟩
    rintro ⟨h, -⟩
    revert h
    show ¬ (_ = _)
    decide +kernel
  · refine ⟨{ topic0 := .this ⟨word 1, by decide⟩ }, by cases prof <;> decide +kernel, ?_⟩
    rintro ⟨h, -⟩
    revert h
    show ¬ (_ = _)
    decide +kernel

/-- **C64 is false** with Keccak-256: if the case conversion writes `transfer` as `Transfer`, the generated `parse_log` of an
event `transfer(address,address,uint256)` refuses every log of that event. -/
theorem C64_counterexample_keccak (camel : Str → Str) (hc : camel (lit "transfer") = lit "Transfer") (prof : Profile)
    (inputs : List EventParam) (hi : inputs.map (·.kind) = [.address, .address, .uint 256]) (topics : List Word) (data : Bytes)
    (ht : (topics.map (·.1)).head? = some (eventTopic keccak256 (lit "transfer") [.address, .address, .uint 256])) :
    genParseLog camel keccak256 prof { name := lit "transfer", inputs := inputs, anonymous := false }
      { topics := topics, data := data } = .err .invalidData := by
  refine C64_counterexample camel keccak256 prof _ _ rfl ?_ ?_
  · show eventTopic keccak256 (camel (lit "transfer")) (inputs.map (·.kind)) ≠
      eventTopic keccak256 (lit "transfer") (inputs.map (·.kind))
    rw [hc, hi]
    decide +kernel
  · show (topics.map (·.1)).head? = some (eventTopic keccak256 (lit "transfer") (inputs.map (·.kind)))
    rw [hi, ht]

/-- the topic of the well-known event `Transfer(address,address,uint256)` -/
example : eventTopic keccak256 (lit "Transfer") [.address, .address, .uint 256] =
    [0xdd, 0xf2, 0x52, 0xad, 0x1b, 0xe2, 0xc8, 0x9b, 0x69, 0xc2, 0xb0, 0x68, 0xfc, 0x37, 0x8d, 0xaa,
     0x95, 0x2b, 0xa7, 0xf1, 0x63, 0xc4, 0xa1, 0x16, 0x28, 0xf5, 0x5a, 0x4d, 0xf5, 0x23, 0xb3, 0xef] := by decide +kernel

end Ethabi.Props

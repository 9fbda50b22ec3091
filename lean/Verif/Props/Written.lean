import Verif.Proofs.WrittenUnique
import Verif.Props.Json
/-! # Property C88: the ABI JSON that is written -/
namespace Ethabi.Props
open Spec

/-- **C88** for parameters: name, type string, components exactly for tuples, the internal type if there is one. -/
theorem C88_param (p : Param) : WrittenParam p (serParam p) := Written.param p

/-- **C88** for event parameters. -/
theorem C88_event_param (p : EventParam) : WrittenEventParam p (serEventParam p) := Written.eventParam p

/-- **C88** for tuple members on their own. -/
theorem C88_tuple_param (p : TupleParam) : WrittenMember p (serTupleParam p) := Written.member p

/-- **C88** for operations. -/
theorem C88_operation (op : Operation) : WrittenOperation op (serOperation op) := Written.operation op

/-- **C88** for contracts: an array with the constructor, if any, all functions, all events and, if they are there, `receive`
and `fallback`; functions and events in the order of the map, those of one name in their order. -/
theorem C88_contract (c : Contract) : ∃ ops, WrittenList WrittenOperation ops (serContract c) ∧
    ops = (c.constructor.map Operation.constructor).toList ++ c.allFunctions.map .function ++ c.allEvents.map .event ++
      (if c.receive then [.receive] else []) ++ (if c.fallback then [.fallback] else []) := by
  refine ⟨_, Written.list Written.operation c.operations, ?_⟩
  have h1 : (c.functions.flatMap fun e => e.2.map Operation.function) = c.allFunctions.map .function := by
    rw [Contract.allFunctions, List.map_flatMap]
  have h2 : (c.events.flatMap fun e => e.2.map Operation.event) = c.allEvents.map .event := by
    rw [Contract.allEvents, List.map_flatMap]
  rw [Contract.operations, h1, h2]
  cases c.constructor <;> rfl

/-- **C88**: the type string and the components determine the type, for all types and sizes. -/
theorem C88_unambiguous (t t' : ParamType) (s : Str) (c : Option Json) (h : Describes t s c) (h' : Describes t' s c) : t = t' :=
  Written.unique t t' s c h h'

/-- **C88**: hence different parameters are written differently. -/
theorem C88_injective (p p' : Param) (j : Json) (h : WrittenParam p j) (h' : WrittenParam p' j) : p = p' := by
  obtain ⟨s, c, hd, he⟩ := h
  obtain ⟨s', c', hd', he'⟩ := h'
  have e := Written.entries_same he he' rfl (by simp)
  simp only [List.cons.injEq, Prod.mk.injEq, Option.some.injEq, Json.str.injEq, true_and, and_true] at e
  obtain ⟨h1, rfl, rfl, h2⟩ := e
  have hk := Written.unique _ _ _ _ hd hd'
  have hi : p.internalType = p'.internalType := Option.map_injective (fun a b h => by simpa using h) h2
  cases p; cases p'
  simp_all

/-- a nested tuple with array suffixes: `tuple[2][]` with two members, the second a tuple again -/
example : Describes (.array (.fixedArray (.tuple [.uint 8, .tuple [.bool]]) 2)) "tuple[2][]".toList
    (some (.arr [.obj [("type".toList, .str "uint8".toList)],
      .obj [("components".toList, .arr [.obj [("type".toList, .str "bool".toList)]]), ("type".toList, .str "tuple".toList)]])) := by
  refine Describes.array (s := "tuple[2]".toList) (Describes.fixedArray (s := "tuple".toList) 2 (Describes.tuple ?_))
  refine .cons (.uint 8) ?_ (.cons (c := some (.arr [.obj [("type".toList, .str "bool".toList)]])) (.tuple (.cons .bool ?_ .nil)) ?_ .nil)
  · have h8 : inDecimal 8 = ['8'] := by decide
    exact ⟨_, rfl, by simp, fun k v => by simp [h8, and_comm, eq_comm]⟩
  · exact ⟨_, rfl, by simp, fun k v => by simp [and_comm, eq_comm]⟩
  · refine ⟨_, rfl, by simp, fun k v => ?_⟩
    simp only [List.mem_cons, Written.pair_eq, List.not_mem_nil, or_false, exists_eq_or_imp, exists_eq_left]
    exact Or.comm

end Ethabi.Props

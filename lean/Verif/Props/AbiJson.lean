import Verif.Props.Json
/-! # Property C77: exactly which JSON is accepted, and what it denotes -/
namespace Ethabi.Props
open Spec Schema

/-- **C77.** A function parameter is deserialised exactly from the objects that denote it. -/
theorem C77_param (mode : Mode) (j : Json) (p : Param) : deParam mode j = .ok p ↔ DenotesParam mode j p := param_iff

/-- **C77** for event parameters. -/
theorem C77_event_param (mode : Mode) (j : Json) (p : EventParam) :
    deEventParam mode j = .ok p ↔ DenotesEventParam mode j p := eventParam_iff

/-- **C77** for tuple members. -/
theorem C77_tuple_param (mode : Mode) (j : Json) (p : TupleParam) :
    deTupleParam mode j = .ok p ↔ DenotesMember mode j p := member_iff

/-- **C77** for the elements of a contract. -/
theorem C77_operation (j : Json) (op : Operation) : deOperation j = .ok op ↔ DenotesOperation j op := operation_iff

/-- **C77.** A contract loads exactly from arrays whose elements denote operations, and answers lookups from them. -/
theorem C77_contract (j : Json) :
    ((∃ c, deContract j = .ok c) ↔ ∃ ops, DenotesEach DenotesOperation j ops) ∧
    ∀ c ops, deContract j = .ok c → DenotesEach DenotesOperation j ops →
      (∀ n, c.functionsByName n = match declaredFunctions n ops with | [] => .err (.invalidName n) | l => .ok l) ∧
      (∀ n, c.eventsByName n = match declaredEvents n ops with | [] => .err (.invalidName n) | l => .ok l) ∧
      (c.receive = true ↔ Operation.receive ∈ ops) ∧ (c.fallback = true ↔ Operation.fallback ∈ ops) ∧
      (∀ k, c.constructor = some k ↔ ∃ before after, ops = before ++ .constructor k :: after ∧
        ∀ k', Operation.constructor k' ∉ after) := by
  have hf : ∀ (js : List Json) (ops : List Operation), DenotesEach DenotesOperation (.arr js) ops ↔
      List.Forall₂ (fun j op => deOperation j = .ok op) js ops := by
    intro js ops
    rw [← each_iff (de := deOperation) (fun j op => operation_iff), deArr, deVec_ok]
  cases j with
  | arr js =>
    refine ⟨by rw [C30_loads]; simp only [hf], ?_⟩
    intro c ops hc ho
    rw [hf] at ho
    obtain ⟨c1, e1, h1, h2, _⟩ := C30_lookup js ops ho
    obtain ⟨c2, e2, h3, h4, _, h5⟩ := C30_constructor_flags js ops ho
    rw [hc] at e1 e2
    cases e1; cases e2
    exact ⟨h1, h2, h3, h4, h5⟩
  | _ =>
    refine ⟨⟨?_, ?_⟩, ?_⟩
    · rintro ⟨c, h⟩; simp [deContract] at h
    · rintro ⟨ops, h⟩; cases h
    · intro c ops hc; simp [deContract] at hc

/-- **C77.** Loading a contract panics only if one of its type strings makes the reader of types panic. -/
theorem C77_panics_only (j : Json) (h : deContract j = .panic) : ∃ s, TypeString j s ∧ read s = .panic :=
  panicOnly_contract j h

/-- a function with an unknown key, keys in any order, a tuple type and defaults -/
example : DenotesOperation
    (.obj [(lit "outputs", .arr []), (lit "gas", .num 7), (lit "name", .str (lit "f(uint256)")),
      (lit "inputs", .arr [.obj [(lit "components", .arr [.obj [(lit "type", .str (lit "bool"))]]),
        (lit "type", .str (lit "tuple[2]")), (lit "name", .str (lit "x"))]]), (lit "type", .str (lit "function"))])
    (.function { name := lit "f", inputs := [{ name := lit "x", kind := .fixedArray (.tuple [.bool]) 2, internalType := none }],
                 outputs := [], constant := false, stateMutability := .nonPayable }) := by
  rw [← C77_operation]
  decide +kernel

/-- the same kinds of operation as arrays -/
example : DenotesOperation
    (.arr [.str (lit "function"), .str (lit "f"), .arr [], .arr [], .bool true, .obj [(lit "view", .null)]])
    (.function { name := lit "f", inputs := [], outputs := [], constant := true, stateMutability := .view }) ∧
    DenotesOperation (.arr [.str (lit "function"), .str (lit "f"), .arr [], .arr []])
    (.function { name := lit "f", inputs := [], outputs := [], constant := false, stateMutability := .nonPayable }) ∧
    (¬ ∃ op, DenotesOperation (.arr [.str (lit "receive"), .null]) op) ∧
    ¬ ∃ op, DenotesOperation (.arr [.str (lit "event"), .str (lit "E"), .arr []]) op := by
  simp only [← C77_operation]
  refine ⟨by decide +kernel, by decide +kernel, ?_, ?_⟩
  · rintro ⟨op, h⟩
    have e : deOperation (.arr [.str (lit "receive"), .null]) = .err .serdeJson := by decide +kernel
    rw [e] at h; cases h
  · rintro ⟨op, h⟩
    have e : deOperation (.arr [.str (lit "event"), .str (lit "E"), .arr []]) = .err .serdeJson := by decide +kernel
    rw [e] at h; cases h

/-- parameters without `indexed` are not indexed -/
example : DenotesEventParam .direct (.obj [(lit "name", .str (lit "a")), (lit "type", .str (lit "uint8"))])
    { name := lit "a", kind := .uint 8, indexed := false } :=
  ⟨_, rfl, by intro _ e he; simp at he; rcases he with rfl | rfl
              · exact ⟨"name", by simp, rfl⟩
              · exact ⟨"type", by simp, rfl⟩,
    rfl, Or.inr ⟨rfl, rfl⟩, .plain rfl (by decide +kernel) nofun rfl⟩

/-- a document that panics -/
example : deContract (.arr [.obj [(lit "type", .str (lit "constructor")),
    (lit "inputs", .arr [.obj [(lit "name", .str []), (lit "type", .str (lit "]"))]])]]) = .panic := by decide +kernel

end Ethabi.Props

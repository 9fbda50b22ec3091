import Verif.Proofs.JsonOnWritten
import Verif.Props.Json
import Verif.Spec.JsonText
/-! # Property C120: ABI JSON on targets with a `usize` of 32 bits -/
namespace Ethabi.Props
open Spec JsonOn
open JsonGrammar (Declares)

theorem declares_of_good {Z : ParamType → Prop} {c : Contract} (h : GoodContract Z c) (t : ParamType) (ht : Declares c t) : Z t := by
  rcases ht with ⟨k, p, h1, h2, rfl⟩ | ⟨e, f, p, h1, h2, h3, rfl⟩ | ⟨e, f, p, h1, h2, h3, rfl⟩
  · exact h.1 k h1 p h2
  · exact h.2.1 e h1 f h2 p h3
  · exact h.2.2 e h1 f h2 p h3

theorem good_of_declares {Z : ParamType → Prop} {c : Contract} (h : ∀ t, Declares c t → Z t) : GoodContract Z c :=
  ⟨fun k hk p hp => h _ (.inl ⟨k, p, hk, hp, rfl⟩), fun e he f hf p hp => h _ (.inr (.inl ⟨e, f, p, he, hf, hp, rfl⟩)),
    fun e he f hf p hp => h _ (.inr (.inr ⟨e, f, p, he, hf, hp, rfl⟩))⟩

/-- The model with the width as a parameter is the model of the other claims for 64 bits. -/
theorem C120_same_code (j : Json) : deContractOn 64 j = deContract j := by
  have h := contract (bits := 64) (P := False) (Z := fun _ => True) (fun _ _ _ _ => trivial) j
    fun s _ => .inl ⟨C94_same_code s, fun _ _ => trivial⟩
  rcases h with h | h
  · exact h.1
  · exact h.2.elim

theorem cut32 (j : Json) : Cut (∃ s, HasTypeText s j ∧ ∃ d n, d <:+: s ∧ numberText d n ∧ 2 ^ 32 ≤ n) (GoodContract (sizesBelow 32))
    (deContractOn 32 j) (deContract j) := by
  refine contract (fun k more hk hm => below_extend k more hk hm) j fun s hs => ?_
  rcases C94_same_or_refused s with h | ⟨h, hn⟩
  · exact .inl ⟨h, fun t ht => (C94_accepted s t (h.trans ht)).2⟩
  · exact .inr ⟨⟨_, h⟩, s, hs, hn⟩

/-- **C120.** A 32-bit target does with an ABI what a 64-bit target does, or it refuses the ABI with an error of serde;
the latter only if some type text in the ABI holds a number of 2^32 or more. -/
theorem C120_same_or_refused (j : Json) :
    deContractOn 32 j = deContract j ∨
    (deContractOn 32 j = .err .serdeJson ∧ ∃ s, HasTypeText s j ∧ ∃ d n, d <:+: s ∧ numberText d n ∧ 2 ^ 32 ≤ n) :=
  (cut32 j).imp (fun h => h.1) id

/-- **C120.** A contract loaded on a 32-bit target is the one a 64-bit target loads, and the sizes of all its types fit. -/
theorem C120_accepted (j : Json) (c : Contract) (h : deContractOn 32 j = .ok c) :
    deContract j = .ok c ∧ ∀ t, Declares c t → sizesBelow 32 t := by
  rcases cut32 j with ⟨e, hg⟩ | ⟨e, -⟩
  · exact ⟨e ▸ h, declares_of_good (hg c h)⟩
  · rw [h] at e; cases e

/-- **C120.** A contract with a type whose size is 2^32 or more is refused with an error of serde: no size is cut off. -/
theorem C120_too_large (j : Json) (c : Contract) (h : deContract j = .ok c) (t : ParamType) (ht : Declares c t)
    (hs : ¬ sizesBelow 32 t) : deContractOn 32 j = .err .serdeJson := by
  rcases C120_same_or_refused j with e | e
  · exact absurd ((C120_accepted j c (e.trans h)).2 t ht) hs
  · exact e.1

/-- **C120.** A contract loaded on a 64-bit target, all of whose sizes are below 2^32, and written as JSON with its maps
iterated in any order, loads on a 32-bit target to an equal contract. -/
theorem C120_written (j : Json) (c : Contract) (h : deContract j = .ok c) (hs : ∀ t, Declares c t → sizesBelow 32 t)
    (fs : List (Str × List Function)) (es : List (Str × List Event)) (hf : fs.Perm c.functions) (he : es.Perm c.events) :
    ∃ c', deContractOn 32 (serContract { c with functions := fs, events := es }) = .ok c' ∧ SameContract c' c := by
  obtain ⟨c', h1, h2⟩ := C29_contract_round_trip j c h fs es hf he
  refine ⟨c', ?_, h2⟩
  have hd : ∀ t, Declares { c with functions := fs, events := es } t → sizesBelow 32 t := fun t ht => by
    refine hs t ?_
    simpa only [Declares, hf.mem_iff, he.mem_iff] using ht
  rcases contract (fun k more hk hm => below_extend k more hk hm) _ (fine_contract _ (good_of_declares hd)) with e | e
  · exact e.1.trans h1
  · exact e.2.elim

/-- the ABI of a contract with a constructor of one parameter -/
def abiWithParam (fs : List (Str × Json)) : Json :=
  .arr [.obj [(lit "type", .str (lit "constructor")), (lit "inputs", .arr [.obj ((lit "name", .str (lit "a")) :: fs)])]]

/-- The sizes of the contract do not decide: components beside a type without a tuple are read and dropped. -/
theorem C120_counterexample_dropped :
    let j := abiWithParam [(lit "type", .str (lit "bool")), (lit "components", .arr [.obj [(lit "type", .str (lit "uint4294967296"))]])]
    deContractOn 32 j = .err .serdeJson ∧
    deContract j = .ok { constructor := some { inputs := [{ name := lit "a", kind := .bool, internalType := none }] } } := by
  decide +kernel

/-- the largest array that is accepted, and the next -/
example :
    let j (s : String) := abiWithParam [(lit "type", .str (lit s)), (lit "components", .arr [.obj [(lit "type", .str (lit "bool"))]])]
    let c (n : Nat) : Contract := { constructor := some { inputs := [{ name := lit "a", kind := .fixedArray (.tuple [.bool]) n, internalType := none }] } }
    deContractOn 32 (j "tuple[4294967295]") = .ok (c 4294967295) ∧ deContract (j "tuple[4294967295]") = .ok (c 4294967295) ∧
    deContractOn 32 (j "tuple[4294967296]") = .err .serdeJson ∧ deContract (j "tuple[4294967296]") = .ok (c 4294967296) ∧
    Declares (c 4294967296) (.fixedArray (.tuple [.bool]) 4294967296) ∧ ¬ sizesBelow 32 (.fixedArray (.tuple [.bool]) 4294967296) := by
  refine ⟨by decide +kernel, by decide +kernel, by decide +kernel, by decide +kernel, ?_, ?_⟩
  · exact .inl ⟨_, _, rfl, List.mem_cons_self, rfl⟩
  · simp [sizesBelow]

end Ethabi.Props

import Verif.Proofs.Selector
import Verif.Proofs.Event
/-! # Property C89: selectors and topics of ABI JSON -/
namespace Ethabi.Props
open Spec Schema

/-- **C89.** A function entry loads; its calls start with the first four bytes of the hash of the name and, in parentheses,
the canonical names of the input types; `Function::signature` adds the output types. -/
theorem C89_function (hash : Bytes → Word) (fs : List (Str × Json)) (s n : Str) (v w : Json) (cs ds : List Str) (b : Bool)
    (m : StateMutability) (ht : Once "type" fs (.str (lit "function"))) (hn : Once "name" fs (.str s)) (hc : CutAtParen s n)
    (hi : Once "inputs" fs v) (hv : CanonicalParams v cs) (ho : Once "outputs" fs w) (hw : CanonicalParams w ds)
    (hb : DefaultBool "constant" fs false b) (hm : DenotesMutability fs m) :
    ∃ f, deOperation (.obj fs) = .ok (.function f) ∧ f.name = n ∧ f.inputs.length = cs.length ∧
      (∀ prof tokens bs, f.encodeInput hash prof tokens = .ok bs →
        bs.take 4 = (hash (signatureBytes n cs)).1.take 4) ∧
      f.signature = n ++ "(".toList ++ commaSeparated cs ++ ")".toList ++
        (if ds = [] then [] else ":(".toList ++ commaSeparated ds ++ ")".toList) := by
  obtain ⟨ps, h1, h2⟩ := Selector.params_denote hv
  obtain ⟨qs, h3, h4⟩ := Selector.params_denote hw
  refine ⟨{ name := n, inputs := ps, outputs := qs, constant := b, stateMutability := m },
    operation_iff.2 (.function ht ⟨s, hn, hc⟩ hi h1 ho h3 hb hm), rfl, by simp [← h2], ?_, ?_⟩
  · intro prof tokens bs h
    simp only [Function.encodeInput, Res.bind_eq_ok] at h
    obtain ⟨okay, -, h⟩ := h
    cases okay with
    | false => simp at h
    | true =>
      simp only [Bool.not_true, Bool.false_eq_true, if_false, Res.bind_eq_ok] at h
      obtain ⟨e, -, h⟩ := h
      cases h
      rw [shortSignature, Selector.signature_bytes (cs := cs) (by simpa [Function.inputParamTypes, Function.comp_def] using h2)]
      rw [List.take_append_of_le_length, List.take_take]
      · simp
      · rw [List.length_take, (hash _).2]; decide
  · rw [← h2, ← h4]
    exact Selector.function_signature _

/-- **C89.** An event entry loads; its signature is the hash of the name and the canonical names of the types, and filters
for it ask for that topic. -/
theorem C89_event (hash : Bytes → Word) (fs : List (Str × Json)) (s n : Str) (v : Json) (cs : List Str) (a : Bool)
    (ht : Once "type" fs (.str (lit "event"))) (hn : Once "name" fs (.str s)) (hc : CutAtParen s n)
    (hi : Once "inputs" fs v) (hv : CanonicalEventParams v cs) (ha : Once "anonymous" fs (.bool a)) :
    ∃ e, deOperation (.obj fs) = .ok (.event e) ∧ e.name = n ∧ e.inputs.length = cs.length ∧
      e.signature hash = hash (signatureBytes n cs) ∧
      (a = false → ∀ prof raw f, e.filter hash prof raw = .ok f → f.topic0 = .this (hash (signatureBytes n cs))) := by
  obtain ⟨ps, h1, h2⟩ := Selector.eventParams_denote hv
  have hs : Event.signature hash { name := n, inputs := ps, anonymous := a } = hash (signatureBytes n cs) := by
    rw [Event.signature, longSignature, Selector.signature_bytes (cs := cs) (by simpa [Event.paramTypes, Function.comp_def] using h2)]
  refine ⟨{ name := n, inputs := ps, anonymous := a }, operation_iff.2 (.event ht ⟨s, hn, hc⟩ hi h1 ha), rfl,
    by simp [← h2], hs, ?_⟩
  rintro rfl prof raw f h
  simp only [Event.filter, Bool.false_eq_true, if_false, Res.bind_eq_ok] at h
  obtain ⟨_, -, _, -, _, -, h⟩ := h
  cases h
  simp only [hs]

/-- a parameter of type `tuple[2][]` with the components `uint` and `address[3]`, and one of type `int` -/
def sampleParams : Json :=
  .arr [.obj [(lit "components", .arr [.obj [(lit "name", .str (lit "a")), (lit "type", .str (lit "uint"))],
      .obj [(lit "type", .str (lit "address[3]"))]]),
    (lit "name", .str (lit "xs")), (lit "type", .str (lit "tuple[2][]"))],
    .obj [(lit "type", .str (lit "int")), (lit "name", .str (lit "n")), (lit "internalType", .str (lit "int256"))]]

theorem sampleParams_canonical : CanonicalParams sampleParams [lit "(uint256,address[3])[2][]", lit "int256"] := by
  have fit : ∀ (ds : List (Option Nat)), (∀ k, some k ∈ ds → k ≤ 3) → SizesFit ds := fun ds h k hk =>
    Nat.lt_of_le_of_lt (h k hk) (by decide)
  refine .cons (lit "xs") none rfl rfl ?_ (.cons (lit "n") (some (lit "int256")) rfl rfl ?_ .nil)
  · refine .tuple (cs := [lit "uint256", lit "address[3]"]) [some 2, none] (fit _ (by simp)) rfl rfl ?_
    refine .cons (some (lit "a")) none rfl rfl ?_ (.cons none none rfl rfl ?_ .nil)
    · exact .plain [] .uint (fit _ (by simp)) rfl rfl
    · exact .plain [some 3] (.word "address" (by decide)) (fit _ (by simp)) rfl rfl
  · exact .plain [] .int (fit _ (by simp)) rfl rfl

/-- a function with these parameters -/
example (hash : Bytes → Word) : ∃ f, deOperation (.obj [(lit "type", .str (lit "function")), (lit "name", .str (lit "pay")),
      (lit "inputs", sampleParams), (lit "outputs", .arr []), (lit "stateMutability", .str (lit "view"))]) = .ok (.function f) ∧
    (∀ prof tokens bs, f.encodeInput hash prof tokens = .ok bs →
      bs.take 4 = (hash (strBytes (lit "pay((uint256,address[3])[2][],int256)"))).1.take 4) ∧
    f.signature = lit "pay((uint256,address[3])[2][],int256)" := by
  obtain ⟨f, h1, -, -, h2, h3⟩ := C89_function hash
    [(lit "type", .str (lit "function")), (lit "name", .str (lit "pay")),
      (lit "inputs", sampleParams), (lit "outputs", .arr []), (lit "stateMutability", .str (lit "view"))]
    (lit "pay") (lit "pay") sampleParams (.arr []) _ [] false .view rfl rfl ⟨[], rfl, by decide, Or.inl rfl⟩
    rfl sampleParams_canonical rfl .nil (Or.inr ⟨rfl, rfl⟩) (Or.inl ⟨_, rfl, .string⟩)
  exact ⟨f, h1, h2, h3⟩

/-- the event `Transfer(address,address,uint256)`, declared with `uint` -/
example (hash : Bytes → Word) : ∃ e, deOperation (.obj [(lit "anonymous", .bool false), (lit "name", .str (lit "Transfer")),
      (lit "inputs", .arr [
        .obj [(lit "indexed", .bool true), (lit "name", .str (lit "from")), (lit "type", .str (lit "address"))],
        .obj [(lit "indexed", .bool true), (lit "name", .str (lit "to")), (lit "type", .str (lit "address"))],
        .obj [(lit "name", .str (lit "value")), (lit "type", .str (lit "uint"))]]),
      (lit "type", .str (lit "event"))]) = .ok (.event e) ∧
    e.signature hash = hash (strBytes (lit "Transfer(address,address,uint256)")) := by
  have fit : SizesFit [] := nofun
  obtain ⟨e, h1, -, -, h2, -⟩ := C89_event hash [(lit "anonymous", .bool false), (lit "name", .str (lit "Transfer")),
      (lit "inputs", .arr [
        .obj [(lit "indexed", .bool true), (lit "name", .str (lit "from")), (lit "type", .str (lit "address"))],
        .obj [(lit "indexed", .bool true), (lit "name", .str (lit "to")), (lit "type", .str (lit "address"))],
        .obj [(lit "name", .str (lit "value")), (lit "type", .str (lit "uint"))]]),
      (lit "type", .str (lit "event"))]
    (lit "Transfer") (lit "Transfer") _ [lit "address", lit "address", lit "uint256"] false rfl rfl
    ⟨[], rfl, by decide, Or.inl rfl⟩ rfl
    (.cons (lit "from") true rfl (Or.inl rfl) (.plain [] (.word "address" (by decide)) fit rfl rfl)
      (.cons (lit "to") true rfl (Or.inl rfl) (.plain [] (.word "address" (by decide)) fit rfl rfl)
        (.cons (lit "value") false rfl (Or.inr ⟨rfl, rfl⟩) (.plain [] .uint fit rfl rfl) .nil))) rfl
  exact ⟨e, h1, h2⟩

end Ethabi.Props

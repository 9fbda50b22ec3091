import Verif.Proofs.HeckNames
import Verif.Proofs.HeckWords
import Verif.Props.Generate
import Verif.Props.Keccak
/-!
# C96: the names in generated code

`Heck.naming` is the model of heck's conversions and of the check of identifiers (`Model/Heck.lean`).  Names are over the characters
of Solidity identifiers.
-/
namespace Ethabi.Props
open Spec Names Keccak

/-- **C96**: the conversions exactly, by where words start in a name: at its start, after `_` and `$`, at a capital after a small
letter, and at a capital after a capital if a small letter follows. -/
theorem C96_conversions (s : Str) (h : identifier s = true) : Heck.snake s = snakeText s ∧ Heck.camel s = camelText s :=
  ⟨Heck.snake_text s h, Heck.camel_text s h⟩

example : identifier (lit "aB1Cd_1E$XMLHttpRequest2V3x") = true ∧
    snakeText (lit "aB1Cd_1E$XMLHttpRequest2V3x") = lit "a_b1_cd_1e_xml_http_request2_v3x" ∧
    camelText (lit "aB1Cd_1E$XMLHttpRequest2V3x") = lit "AB1Cd1eXmlHttpRequest2V3x" := by decide

/-- **C96**, snake case: small letters and digits with single underscores between them; letters and digits stay in their order,
in lower case. -/
theorem C96_snake (s : Str) (h : identifier s = true) :
    snakeShaped (Heck.snake s) = true ∧ (Heck.snake s).filter Char.isAlphanum = letters s :=
  ⟨Heck.snake_shaped s h, Heck.snake_letters s h⟩

/-- **C96**: exactly the names of that shape are kept, so converting twice is converting once. -/
theorem C96_snake_kept (s : Str) (h : identifier s = true) :
    (Heck.snake s = s ↔ snakeShaped s = true) ∧ Heck.snake (Heck.snake s) = Heck.snake s :=
  ⟨⟨fun e => e ▸ Heck.snake_shaped s h, Heck.shaped_fixed s⟩, Heck.shaped_fixed _ (Heck.snake_shaped s h)⟩

example : Heck.snake (lit "balanceOf") = lit "balance_of" ∧ Heck.snake (lit "_ERC20Token$id") = lit "erc20_token_id" ∧
    identifier (lit "_ERC20Token$id") = true := by decide

/-- **C96**, camel case: letters and digits only, in their order; only their case changes. -/
theorem C96_camel (s : Str) (h : identifier s = true) :
    ((Heck.camel s).all Char.isAlphanum = true) ∧ (Heck.camel s).map Char.toLower = letters s :=
  ⟨List.all_eq_true.2 (Heck.camel_letters s h).2, (Heck.camel_letters s h).1⟩

/-- **C96**: the names that camel case keeps, exactly: letters and digits, the first not a small letter, and every further capital
after a small letter, or after a capital and before a small letter. -/
theorem C96_camel_kept (s : Str) (h : identifier s = true) : Heck.camel s = s ↔ camelShaped s = true := Heck.camel_fixed s h

example : camelShaped (lit "OwnershipTransferred") = true ∧ camelShaped (lit "Transfer2Batch") = true ∧
    camelShaped (lit "AToken") = true ∧ camelShaped (lit "ERC20Transfer") = false ∧ camelShaped (lit "LOG_CALL") = false ∧
    camelShaped (lit "transfer") = false := by decide

/-- camel case twice is not camel case once: `a_b_c` becomes `ABC`, and that becomes `Abc` -/
theorem C96_counterexample_camel_twice : Heck.camel (lit "a_b_c") = lit "ABC" ∧ Heck.camel (lit "ABC") = lit "Abc" := by decide

/-- **C96**: names with the same snake case have the same camel case, so the structs of two events clash when their modules do. -/
theorem C96_same_struct (a b : Str) (ha : identifier a = true) (hb : identifier b = true) (h : Heck.snake a = Heck.snake b) :
    Heck.camel a = Heck.camel b := by
  rw [← Heck.camel_snake a ha, h, Heck.camel_snake b hb]

/-- The converse fails: modules `a_1` and `a1`, but one struct `A1`. -/
theorem C96_counterexample_same_struct : Heck.camel (lit "a_1") = Heck.camel (lit "a1") ∧
    Heck.snake (lit "a_1") ≠ Heck.snake (lit "a1") := by decide

/-- **C96**: a converted name is an identifier exactly if the first letter or digit of the name is a letter. -/
theorem C96_identifiers (s : Str) (h : identifier s = true) :
    Heck.naming.valid (Heck.naming.snake s) = startsWithLetter s ∧ Heck.naming.valid (Heck.naming.camel s) = startsWithLetter s :=
  ⟨Heck.identOk_snake s h, Heck.identOk_camel s h⟩

/-- **C96**: when all names are over the characters of identifiers, text is generated exactly for contracts without tuples and
`bytesN` with N ≥ 2^32-1 (as in C69) whose functions and events, and parameters that have a name, have a letter as the first
letter or digit of the name.  For the others the generator panics. -/
theorem C96_generates (c : Contract) (h : ∀ s ∈ namesOf c, identifier s = true) :
    (generates c = true → ∃ code, generateContract Heck.naming c = .ok code) ∧
    (generates c = false → generateContract Heck.naming c = .panic) := by
  rw [← Heck.contractOk_heck c h]
  exact C69_generates Heck.naming c

/-- the contract with the one function `f` -/
def oneFunction (f : Function) : Contract := ⟨none, [(f.name, [f])], [], false, false⟩

example : generates (oneFunction ⟨lit "transfer", [⟨lit "_to", .address, none⟩, ⟨[], .uint 256, none⟩], [], false, .view⟩) = true ∧
    namesOf (oneFunction ⟨lit "transfer", [⟨lit "_to", .address, none⟩, ⟨[], .uint 256, none⟩], [], false, .view⟩) =
      [lit "transfer", lit "_to", []] := by decide

/-- A parameter `_`, a parameter `_1` and a function `_` are Solidity, but make the generator panic. -/
theorem C96_counterexample_identifiers :
    generateContract Heck.naming (oneFunction ⟨lit "f", [⟨lit "_", .bool, none⟩], [], false, .view⟩) = .panic ∧
    generateContract Heck.naming (oneFunction ⟨lit "f", [⟨lit "_1", .bool, none⟩], [], false, .view⟩) = .panic ∧
    generateContract Heck.naming (oneFunction ⟨lit "_", [], [], false, .view⟩) = .panic := by
  refine ⟨(C96_generates _ ?_).2 ?_, (C96_generates _ ?_).2 ?_, (C96_generates _ ?_).2 ?_⟩ <;> decide

/-- **C96**: underscores before and after a name are lost. -/
theorem C96_underscores (s : Str) (h : identifier s = true) :
    Heck.snake ('_' :: s) = Heck.snake s ∧ Heck.snake (s ++ ['_']) = Heck.snake s ∧
    Heck.camel ('_' :: s) = Heck.camel s ∧ Heck.camel (s ++ ['_']) = Heck.camel s := by
  simp only [Heck.snake, Heck.camel, Heck.words_underscore_before s h, Heck.words_underscore_after, and_self]

/-- **C96**: so a contract with two functions whose names differ by such an underscore only has no valid text. -/
theorem C96_clash (c : Contract) (t : ContractText) (ht : t.Implements Heck.naming c) (fs gs hs : List Function) (f g : Function)
    (hc : c.allFunctions = fs ++ f :: (gs ++ g :: hs)) (hi : identifier f.name = true)
    (hn : g.name = '_' :: f.name ∨ g.name = f.name ++ ['_']) : t.distinct = false := by
  rw [Bool.eq_false_iff]
  intro hd
  have hnd := ((C73_distinct Heck.naming c t ht).1 hd).1
  have e : Heck.naming.snake g.name = Heck.naming.snake f.name := by
    have := C96_underscores f.name hi
    rcases hn with hn | hn
    · rw [hn]; exact this.1
    · rw [hn]; exact this.2.1
  rw [hc, List.map_append, List.map_cons, List.map_append, List.map_cons, e] at hnd
  have := (List.nodup_cons.1 (List.nodup_append.1 hnd).2.1).1
  simp at this

/-- Parameters `_to` and `to` of one function become one name; a parameter `_self` or `Self` becomes the keyword `self`, although
`self` itself is replaced.  Text is generated, but it is not valid Rust. -/
theorem C96_counterexample_parameters :
    functionOk Heck.naming ⟨lit "g", [⟨lit "_to", .bool, none⟩, ⟨lit "to", .bool, none⟩], [], false, .view⟩ = true ∧
    callable Heck.naming ⟨lit "g", [⟨lit "_to", .bool, none⟩, ⟨lit "to", .bool, none⟩], [], false, .view⟩ = false ∧
    callable Heck.naming ⟨lit "g", [⟨lit "self", .bool, none⟩], [], false, .view⟩ = true ∧
    functionOk Heck.naming ⟨lit "g", [⟨lit "_self", .bool, none⟩], [], false, .view⟩ = true ∧
    callable Heck.naming ⟨lit "g", [⟨lit "_self", .bool, none⟩], [], false, .view⟩ = false ∧
    callable Heck.naming ⟨lit "g", [⟨lit "Self", .bool, none⟩], [], false, .view⟩ = false := by decide

/-- **C64** with heck's conversion: the generated event is the declared one exactly for the names that camel case keeps. -/
theorem C64_names (e : Event) (h : identifier e.name = true) : genEvent Heck.camel e = e ↔ camelShaped e.name = true := by
  rw [← C96_camel_kept e.name h]
  cases e
  simp [genEvent]

/-- An event named `ERC20Transfer`: with heck's conversion and Keccak-256, every log of it is refused by the generated code. -/
theorem C64_counterexample_heck (prof : Profile) (inputs : List EventParam)
    (hi : inputs.map (·.kind) = [.address, .address, .uint 256]) (topics : List Word) (data : Bytes)
    (ht : (topics.map (·.1)).head? = some (eventTopic keccak256 (lit "ERC20Transfer") [.address, .address, .uint 256])) :
    genParseLog Heck.camel keccak256 prof { name := lit "ERC20Transfer", inputs := inputs, anonymous := false }
      { topics := topics, data := data } = .err .invalidData := by
  refine C64_counterexample Heck.camel keccak256 prof _ _ rfl ?_ ?_
  · show eventTopic keccak256 (Heck.camel (lit "ERC20Transfer")) (inputs.map (·.kind)) ≠
      eventTopic keccak256 (lit "ERC20Transfer") (inputs.map (·.kind))
    rw [show Heck.camel (lit "ERC20Transfer") = lit "Erc20Transfer" by decide, hi]
    decide +kernel
  · show (topics.map (·.1)).head? = some (eventTopic keccak256 (lit "ERC20Transfer") (inputs.map (·.kind)))
    rw [hi, ht]

end Ethabi.Props

import Verif.Model.Files
import Verif.Spec.Files
import Verif.Props.JsonText
import Verif.Props.CliPanics
import Verif.Props.DeriveEntry
/-! # Property C102: the tool and the macro on file texts -/
namespace Ethabi.Props
open JsonText JsonGrammar Spec

/-- the text is not JSON, but loading it panics before this is seen -/
def CrashesEarly (fits : Str → Bool) (s : Str) : Prop :=
  (∀ j, ¬ Text fits j s) ∧ BreaksOff fits (fun x => ∃ op, DenotesOperation x op) CrashesOperation s

theorem load_other {fits : Str → Bool} {s : Str} (h : ∀ j, ¬ Text fits j s) :
    (load fits s = .panic ∧ CrashesEarly fits s) ∨ (load fits s = .err .serdeJson ∧ ¬ CrashesEarly fits s) := by
  cases hl : load fits s with
  | ok c =>
    obtain ⟨j, hj, -⟩ := (C99_load_ok fits s c).1 hl
    exact absurd hj (h j)
  | panic => exact Or.inl ⟨rfl, h, (C99_load_panic fits s).1 hl⟩
  | err e =>
    refine Or.inr ⟨by rw [C99_load_err fits s e hl], fun hc => ?_⟩
    rw [(C99_load_panic fits s).2 hc.2] at hl
    cases hl

theorem text_not_early {fits : Str → Bool} {s : Str} {j : Json} (h : Text fits j s) : ¬ CrashesEarly fits s := fun hc => hc.1 j h

theorem loadText_cases (fits : Str → Bool) (file : Str → Option Str) (trees : Str → Option (Option Json)) (hs : Renders fits file trees)
    (path : Str) :
    (loadText fits file path = (openAbi trees path >>= deContract) ∧ ∀ s, file path = some s → ¬ CrashesEarly fits s) ∨
    (loadText fits file path = .panic ∧ (openAbi trees path >>= deContract) = .err .serdeJson ∧
      ∃ s, file path = some s ∧ CrashesEarly fits s) := by
  rcases hs path with ⟨h1, h2⟩ | ⟨s, j, h1, h2, h3⟩ | ⟨s, h1, h2, h3⟩
  · left
    rw [loadText, openAbi, h1, h2]
    exact ⟨rfl, fun s h => by cases h⟩
  · left
    rw [loadText, openAbi, h1, h2]
    refine ⟨C99_load fits s j h3, fun s' h => ?_⟩
    cases h
    exact text_not_early h3
  · rw [loadText, openAbi, h1, h2]
    rcases load_other h3 with ⟨h, h'⟩ | ⟨h, h'⟩
    · exact Or.inr ⟨h, rfl, s, rfl, h'⟩
    · refine Or.inl ⟨h, fun s' e => ?_⟩
      cases e
      exact h'

theorem Res.bind_assoc' {α β γ : Type} (x : Res α) (f : α → Res β) (g : β → Res γ) : (x >>= f >>= g) = (x >>= fun a => f a >>= g) := by
  cases x <;> rfl

/-- **C102.** A command does on files of texts what it does on the JSON values of the texts (C85, C91, C51–C62): the same output, the
same errors and panics, unless the file it reads is not JSON and starts like an array of operations with one that crashes; then it
panics. -/
theorem C102_execute (hash : Bytes → Word) (parseHash : Str → Res Word) (prof : Profile) (fits : Str → Bool) (file : Str → Option Str)
    (trees : Str → Option (Option Json)) (hs : Renders fits file trees) (cmd : Command) :
    ((∃ path s, Opens cmd path ∧ file path = some s ∧ CrashesEarly fits s) →
      executeText hash parseHash prof fits file cmd = .panic ∧ execute hash parseHash prof trees cmd = .err .serdeJson) ∧
    ((¬ ∃ path s, Opens cmd path ∧ file path = some s ∧ CrashesEarly fits s) →
      executeText hash parseHash prof fits file cmd = execute hash parseHash prof trees cmd) := by
  have key : ∀ (path : Str) (k : Contract → Res Str) (x : Res Str),
      (x = (openAbi trees path >>= deContract) >>= k) →
      ((∃ s, file path = some s ∧ CrashesEarly fits s) → (loadText fits file path >>= k) = .panic ∧ x = .err .serdeJson) ∧
      ((¬ ∃ s, file path = some s ∧ CrashesEarly fits s) → (loadText fits file path >>= k) = x) := by
    intro path k x hx
    rcases loadText_cases fits file trees hs path with ⟨h1, h2⟩ | ⟨h1, h2, h3⟩
    · exact ⟨fun ⟨s, ha, hb⟩ => absurd hb (h2 s ha), fun _ => by rw [h1, hx]⟩
    · exact ⟨fun _ => by rw [h1, hx, h2]; exact ⟨rfl, rfl⟩, fun h => absurd h3 h⟩
  cases cmd with
  | encodeFunction path name params lenient =>
    have := key path (fun c => selectFunction c name >>= fun f => encodeInputOf hash prof f params lenient)
      (execute hash parseHash prof trees (.encodeFunction path name params lenient))
      (by simp only [execute, cliEncodeInput, loadFunction, Res.bind_assoc'])
    simpa only [Opens, executeText, exists_and_left, exists_eq_left'] using this
  | decodeFunction path name data =>
    have := key path (fun c => selectFunction c name >>= fun f => decodeOutputOf prof f data)
      (execute hash parseHash prof trees (.decodeFunction path name data))
      (by simp only [execute, cliDecodeOutput, loadFunction, Res.bind_assoc'])
    simpa only [Opens, executeText, exists_and_left, exists_eq_left'] using this
  | decodeLog path name topics data =>
    have := key path (fun c => selectEvent hash c name >>= fun e => decodeLogOf hash parseHash prof e topics data)
      (execute hash parseHash prof trees (.decodeLog path name topics data))
      (by simp only [execute, cliDecodeLog, loadEvent, Res.bind_assoc'])
    simpa only [Opens, executeText, exists_and_left, exists_eq_left'] using this
  | encodeParams params lenient => exact ⟨fun ⟨_, _, h, _⟩ => absurd h id, fun _ => rfl⟩
  | decodeParams types data => exact ⟨fun ⟨_, _, h, _⟩ => absurd h id, fun _ => rfl⟩

/-- **C102.** The output of a command is exactly that for the JSON values of its files; no text without a value gives output. -/
theorem C102_output (hash : Bytes → Word) (parseHash : Str → Res Word) (prof : Profile) (fits : Str → Bool) (file : Str → Option Str)
    (trees : Str → Option (Option Json)) (hs : Renders fits file trees) (cmd : Command) (out : Str) :
    executeText hash parseHash prof fits file cmd = .ok out ↔ execute hash parseHash prof trees cmd = .ok out := by
  have h := C102_execute hash parseHash prof fits file trees hs cmd
  by_cases hc : ∃ path s, Opens cmd path ∧ file path = some s ∧ CrashesEarly fits s
  · rw [(h.1 hc).1, (h.1 hc).2]
    simp
  · rw [h.2 hc]

/-- **C102.** The layout of the file does not matter: two texts of one value give the same result, whatever the command. -/
theorem C102_layout (hash : Bytes → Word) (parseHash : Str → Res Word) (prof : Profile) (fits : Str → Bool)
    (file file' : Str → Option Str) (cmd : Command)
    (h : ∀ path, Opens cmd path → ∃ j s s', file path = some s ∧ file' path = some s' ∧ Text fits j s ∧ Text fits j s') :
    executeText hash parseHash prof fits file cmd = executeText hash parseHash prof fits file' cmd := by
  have key : ∀ path, Opens cmd path → loadText fits file path = loadText fits file' path := by
    intro path hp
    obtain ⟨j, s, s', h1, h2, h3, h4⟩ := h path hp
    rw [loadText, loadText, h1, h2]
    show load fits s = load fits s'
    rw [C99_load fits s j h3, C99_load fits s' j h4]
  cases cmd with
  | encodeParams params lenient => rfl
  | decodeParams types data => rfl
  | _ => simp only [executeText, key _ rfl]

theorem exists_shows (fits : Str → Bool) (file : Str → Option Str) :
    Renders fits file (fun path => (file path).map (parse fits)) := by
  intro path
  cases hf : file path with
  | none => exact Or.inl ⟨rfl, by simp [hf]⟩
  | some s =>
    cases hp : parse fits s with
    | none =>
      refine Or.inr (Or.inr ⟨s, rfl, by simp [hf, hp], fun j hj => ?_⟩)
      rw [(C99_parse fits s j).2 hj] at hp
      cases hp
    | some j => exact Or.inr (Or.inl ⟨s, j, rfl, by simp [hf, hp], (C99_parse fits s j).1 hp⟩)

/-- **C102.** Every file system can be shown as values, in one way only. -/
theorem C102_values (fits : Str → Bool) (file : Str → Option Str) : ∃ trees, Renders fits file trees ∧ ∀ t, Renders fits file t → t = trees := by
  refine ⟨_, exists_shows fits file, fun t ht => ?_⟩
  funext path
  rcases ht path with ⟨h1, h2⟩ | ⟨s, j, h1, h2, h3⟩ | ⟨s, h1, h2, h3⟩
  · simp [h1, h2]
  · simp [h1, h2, (C99_parse fits s j).2 h3]
  · rw [h2, h1]
    show _ = some (parse fits s)
    cases hp : parse fits s with
    | none => rfl
    | some j => exact absurd ((C99_parse fits s j).1 hp) (h3 j)

/-- **C102** for the derive macro: on texts it generates what it generates on their values (C84), and stops otherwise. -/
theorem C102_derive (nm : Naming) (fits : Str → Bool) (dir : Option Str) (file : Str → Option Str)
    (trees : Str → Option (Option Json)) (hs : Renders fits file trees) (attrs : List Attribute) :
    ethabiDeriveText nm fits dir file attrs = ethabiDerive nm { manifestDir := dir, file := trees } attrs := by
  have hload : ∀ path, loadFile { manifestDir := dir, file := trees } path = (openAbi trees path >>= deContract) := by
    intro path
    show (match trees path with | none => _ | some none => _ | some (some j) => _) = _
    rw [openAbi]
    cases trees path with
    | none => rfl
    | some o => cases o <;> rfl
  rw [ethabiDeriveText, ethabiDerive, implEthabiDeriveText, implEthabiDerive]
  cases getOptions attrs (lit "ethabi_contract_options") with
  | err e => rfl
  | panic => rfl
  | ok options =>
    simp only [Res.ok_bind]
    cases getOption options (lit "path") with
    | err e => rfl
    | panic => rfl
    | ok rel =>
      simp only [Res.ok_bind]
      have : normalizePath { manifestDir := dir, file := fun _ => none } rel = normalizePath { manifestDir := dir, file := trees } rel := rfl
      rw [this]
      cases normalizePath { manifestDir := dir, file := trees } rel with
      | err e => rfl
      | panic => rfl
      | ok path =>
        simp only [Res.ok_bind, hload]
        rcases loadText_cases fits file trees hs path with ⟨h1, -⟩ | ⟨h1, h2, -⟩
        · rw [h1]; rfl
        · rw [h1, h2]
          rfl

/-- a file and what the tool prints -/
def oneText : Str → Option Str := fun p =>
  if p = lit "a.json" then some (lit "\n[ {\"type\":\"function\",\"inputs\":[{\"name\":\"x\",\"type\":\"bool\"}],\"outputs\":[],\"name\":\"f\\u006fo\"} ]\n") else none

example : executeText prefixHash (fun _ => .err .other) .debug (fun _ => true) oneText
      (.encodeFunction (lit "a.json") (lit "foo") [lit "true"] false) =
    .ok (hexEncode ((prefixHash (strBytes (lit "foo(bool)"))).1.take 4) ++ List.replicate 63 '0' ++ ['1']) ∧
    executeText prefixHash (fun _ => .err .other) .debug (fun _ => true) oneText
      (.encodeFunction (lit "b.json") (lit "foo") [lit "true"] false) = .err .other := by decide +kernel

/-- a text that is not JSON and crashes -/
example : CrashesEarly (fun _ => true) (lit "[{\"type\":\"constructor\",\"inputs\":[{\"name\":\"\",\"type\":\"]\"}]} ?") := by
  have h1 : load (fun _ => true) (lit "[{\"type\":\"constructor\",\"inputs\":[{\"name\":\"\",\"type\":\"]\"}]} ?") = .panic := by decide +kernel
  have h2 : (parse (fun _ => true) (lit "[{\"type\":\"constructor\",\"inputs\":[{\"name\":\"\",\"type\":\"]\"}]} ?")).isSome = false := by decide +kernel
  refine ⟨fun j hj => ?_, (C99_load_panic _ _).1 h1⟩
  rw [(C99_parse _ _ j).2 hj] at h2
  cases h2

end Ethabi.Props

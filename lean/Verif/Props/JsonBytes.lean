import Verif.Spec.FileBytes
import Verif.Proofs.JsonBytes
import Verif.Props.Files
/-! # Property C105: ABI files as bytes -/
namespace Ethabi.Props
open JsonGrammar Spec

theorem encodes_iff {s : Str} {bs : Bytes} : Encodes s bs ↔ bs = utf8 s := by rw [Encodes, utf8_eq_core]

/-- the bytes start like an array of operations with one that crashes -/
abbrev CrashesBytes (fits : Str → Bool) (bs : Bytes) : Prop :=
  BreaksOffBytes fits (fun x => ∃ op, DenotesOperation x op) CrashesOperation bs

/-- **C105.** Loading the bytes of a text is loading the text (C99). -/
theorem C105_text (fits : Str → Bool) (s : Str) (bs : Bytes) (h : Encodes s bs) : JsonBytes.load fits bs = JsonText.load fits s := by
  have := JsonBytes.load_bytes (fits := fits) (junk := []) (.inl rfl) s
  rw [List.append_nil, if_pos rfl] at this
  rw [encodes_iff.1 h, this]

/-- **C105.** `load` panics exactly if the bytes start like an array whose first elements denote operations and whose next one
crashes.  What follows need not be UTF-8. -/
theorem C105_panic (fits : Str → Bool) (bs : Bytes) : JsonBytes.load fits bs = .panic ↔ CrashesBytes fits bs := by
  constructor
  · intro h
    obtain ⟨s, junk, rfl, hj⟩ := JsonBytes.utf8_split bs.length bs (le_refl _)
    rw [JsonBytes.load_bytes hj] at h
    have hl : JsonText.load fits s = .panic := by
      split at h
      · exact h
      · cases hl : JsonText.load fits s with
        | ok c => rw [hl] at h; cases h
        | err e => rw [hl] at h; cases h
        | panic => rfl
    obtain ⟨w, js, t, j, a, v, r, h1, h2, h3, h4, rfl, h5, h6⟩ := (C99_load_panic fits s).1 hl
    refine ⟨w, js, t, j, a, v, _, utf8 r ++ junk, h1, h2, h3, h4, rfl, ?_, h5, h6⟩
    rw [← utf8_eq_core, ← List.append_assoc (utf8 _), ← JsonBytes.utf8_append (w ++ '[' :: (t ++ (a ++ v))) r]
    simp
  · rintro ⟨w, js, t, j, a, v, front, rest, h1, h2, h3, h4, h7, rfl, h5, h6⟩
    obtain ⟨s, junk, rfl, hj⟩ := JsonBytes.utf8_split rest.length rest (le_refl _)
    have hl : JsonText.load fits ((w ++ '[' :: (t ++ (a ++ v))) ++ s) = .panic :=
      (C99_load_panic fits _).2 ⟨w, js, t, j, a, v, s, h1, h2, h3, h4, by simp, h5, h6⟩
    rw [encodes_iff.1 h7, ← List.append_assoc, ← JsonBytes.utf8_append, JsonBytes.load_bytes hj, hl]
    split <;> rfl

/-- **C105.** `load` succeeds exactly on the UTF-8 encodings of texts of values that are contracts. -/
theorem C105_ok (fits : Str → Bool) (bs : Bytes) (c : Contract) :
    JsonBytes.load fits bs = .ok c ↔ ∃ j, Holds fits j bs ∧ deContract j = .ok c := by
  constructor
  · intro h
    obtain ⟨s, junk, rfl, hj⟩ := JsonBytes.utf8_split bs.length bs (le_refl _)
    rw [JsonBytes.load_bytes hj] at h
    split at h
    · rename_i hn
      obtain ⟨j, h1, h2⟩ := (C99_load_ok fits s c).1 h
      exact ⟨j, ⟨s, encodes_iff.2 (by rw [hn, List.append_nil]), h1⟩, h2⟩
    · cases hl : JsonText.load fits s with
      | ok c => rw [hl] at h; cases h
      | err e => rw [hl] at h; cases h
      | panic => rw [hl] at h; cases h
  · rintro ⟨j, ⟨s, h1, h2⟩, h3⟩
    rw [C105_text fits s bs h1]
    exact (C99_load_ok fits s c).2 ⟨j, h2, h3⟩

/-- **C105.** All errors of `load` are JSON errors. -/
theorem C105_err (fits : Str → Bool) (bs : Bytes) (e : Err) (h : JsonBytes.load fits bs = .err e) : e = .serdeJson := by
  obtain ⟨s, junk, rfl, hj⟩ := JsonBytes.utf8_split bs.length bs (le_refl _)
  rw [JsonBytes.load_bytes hj] at h
  split at h
  · exact C99_load_err fits s e h
  · cases hl : JsonText.load fits s with
    | ok c => rw [hl] at h; cases h; rfl
    | err e' => rw [hl] at h; cases h; exact C99_load_err fits s _ hl
    | panic => rw [hl] at h; cases h

/-- **C105.** Bytes that are not UTF-8 are not loaded: a JSON error, or the panic of an operation in front. -/
theorem C105_not_utf8 (fits : Str → Bool) (bs : Bytes) (h : ∀ s, ¬ Encodes s bs) :
    (JsonBytes.load fits bs = .panic ∧ CrashesBytes fits bs) ∨ (JsonBytes.load fits bs = .err .serdeJson ∧ ¬ CrashesBytes fits bs) := by
  cases hl : JsonBytes.load fits bs with
  | ok c =>
    obtain ⟨j, ⟨s, hs, _⟩, _⟩ := (C105_ok fits bs c).1 hl
    exact absurd hs (h s)
  | panic => exact .inl ⟨rfl, (C105_panic fits bs).1 hl⟩
  | err e =>
    refine .inr ⟨by rw [C105_err fits bs e hl], fun hc => ?_⟩
    rw [(C105_panic fits bs).2 hc] at hl
    cases hl

theorem holds_load {fits : Str → Bool} {bs : Bytes} {j : Json} (h : Holds fits j bs) : JsonBytes.load fits bs = deContract j := by
  obtain ⟨s, h1, h2⟩ := h
  rw [C105_text fits s bs h1, C99_load fits s j h2]

/-- no JSON in UTF-8, but loading it panics before this is seen -/
def CrashesEarlyBytes (fits : Str → Bool) (bs : Bytes) : Prop := (∀ j, ¬ Holds fits j bs) ∧ CrashesBytes fits bs

theorem loadBytes_cases (fits : Str → Bool) (file : Str → Option Bytes) (trees : Str → Option (Option Json))
    (hs : RendersBytes fits file trees) (path : Str) :
    (loadBytes fits file path = (openAbi trees path >>= deContract) ∧ ∀ bs, file path = some bs → ¬ CrashesEarlyBytes fits bs) ∨
    (loadBytes fits file path = .panic ∧ (openAbi trees path >>= deContract) = .err .serdeJson ∧
      ∃ bs, file path = some bs ∧ CrashesEarlyBytes fits bs) := by
  rcases hs path with ⟨h1, h2⟩ | ⟨bs, j, h1, h2, h3⟩ | ⟨bs, h1, h2, h3⟩
  · left
    rw [loadBytes, openAbi, h1, h2]
    exact ⟨rfl, fun s h => by cases h⟩
  · left
    rw [loadBytes, openAbi, h1, h2]
    refine ⟨holds_load h3, fun s' h => ?_⟩
    cases h
    exact fun hc => hc.1 j h3
  · rw [loadBytes, openAbi, h1, h2]
    cases hl : JsonBytes.load fits bs with
    | ok c =>
      obtain ⟨j, hj, _⟩ := (C105_ok fits bs c).1 hl
      exact absurd hj (h3 j)
    | panic => exact .inr ⟨hl, rfl, bs, rfl, h3, (C105_panic fits bs).1 hl⟩
    | err e =>
      refine .inl ⟨by show JsonBytes.load fits bs = _; rw [hl, C105_err fits bs e hl]; rfl, fun s' e' hc => ?_⟩
      cases e'
      rw [(C105_panic fits bs).2 hc.2] at hl
      cases hl

/-- **C105.** A command does on files of bytes what it does on their JSON values (C85, C91, C51–C62); files that are not JSON in UTF-8
have none.  The exception is that of C102: such a file may start like an array of operations with one that crashes; then the command
panics. -/
theorem C105_execute (hash : Bytes → Word) (parseHash : Str → Res Word) (prof : Profile) (fits : Str → Bool) (file : Str → Option Bytes)
    (trees : Str → Option (Option Json)) (hs : RendersBytes fits file trees) (cmd : Command) :
    ((∃ path bs, Opens cmd path ∧ file path = some bs ∧ CrashesEarlyBytes fits bs) →
      executeBytes hash parseHash prof fits file cmd = .panic ∧ execute hash parseHash prof trees cmd = .err .serdeJson) ∧
    ((¬ ∃ path bs, Opens cmd path ∧ file path = some bs ∧ CrashesEarlyBytes fits bs) →
      executeBytes hash parseHash prof fits file cmd = execute hash parseHash prof trees cmd) := by
  have key : ∀ (path : Str) (k : Contract → Res Str) (x : Res Str),
      (x = (openAbi trees path >>= deContract) >>= k) →
      ((∃ s, file path = some s ∧ CrashesEarlyBytes fits s) → (loadBytes fits file path >>= k) = .panic ∧ x = .err .serdeJson) ∧
      ((¬ ∃ s, file path = some s ∧ CrashesEarlyBytes fits s) → (loadBytes fits file path >>= k) = x) := by
    intro path k x hx
    rcases loadBytes_cases fits file trees hs path with ⟨h1, h2⟩ | ⟨h1, h2, h3⟩
    · exact ⟨fun ⟨s, ha, hb⟩ => absurd hb (h2 s ha), fun _ => by rw [h1, hx]⟩
    · exact ⟨fun _ => by rw [h1, hx, h2]; exact ⟨rfl, rfl⟩, fun h => absurd h3 h⟩
  cases cmd with
  | encodeFunction path name params lenient =>
    have := key path (fun c => selectFunction c name >>= fun f => encodeInputOf hash prof f params lenient)
      (execute hash parseHash prof trees (.encodeFunction path name params lenient))
      (by simp only [execute, cliEncodeInput, loadFunction, Res.bind_assoc'])
    simpa only [Opens, executeBytes, exists_and_left, exists_eq_left'] using this
  | decodeFunction path name data =>
    have := key path (fun c => selectFunction c name >>= fun f => decodeOutputOf prof f data)
      (execute hash parseHash prof trees (.decodeFunction path name data))
      (by simp only [execute, cliDecodeOutput, loadFunction, Res.bind_assoc'])
    simpa only [Opens, executeBytes, exists_and_left, exists_eq_left'] using this
  | decodeLog path name topics data =>
    have := key path (fun c => selectEvent hash c name >>= fun e => decodeLogOf hash parseHash prof e topics data)
      (execute hash parseHash prof trees (.decodeLog path name topics data))
      (by simp only [execute, cliDecodeLog, loadEvent, Res.bind_assoc'])
    simpa only [Opens, executeBytes, exists_and_left, exists_eq_left'] using this
  | encodeParams params lenient => exact ⟨fun ⟨_, _, h, _⟩ => absurd h id, fun _ => rfl⟩
  | decodeParams types data => exact ⟨fun ⟨_, _, h, _⟩ => absurd h id, fun _ => rfl⟩

/-- **C105.** The output of a command is exactly that for the JSON values of its files: a file that is not UTF-8 gives none. -/
theorem C105_output (hash : Bytes → Word) (parseHash : Str → Res Word) (prof : Profile) (fits : Str → Bool) (file : Str → Option Bytes)
    (trees : Str → Option (Option Json)) (hs : RendersBytes fits file trees) (cmd : Command) (out : Str) :
    executeBytes hash parseHash prof fits file cmd = .ok out ↔ execute hash parseHash prof trees cmd = .ok out := by
  have h := C105_execute hash parseHash prof fits file trees hs cmd
  by_cases hc : ∃ path bs, Opens cmd path ∧ file path = some bs ∧ CrashesEarlyBytes fits bs
  · rw [(h.1 hc).1, (h.1 hc).2]
    simp
  · rw [h.2 hc]

/-- **C105** for the derive macro: on files of bytes it generates what it generates on their values (C84), and stops otherwise. -/
theorem C105_derive (nm : Naming) (fits : Str → Bool) (dir : Option Str) (file : Str → Option Bytes)
    (trees : Str → Option (Option Json)) (hs : RendersBytes fits file trees) (attrs : List Attribute) :
    ethabiDeriveBytes nm fits dir file attrs = ethabiDerive nm { manifestDir := dir, file := trees } attrs := by
  have hload : ∀ path, loadFile { manifestDir := dir, file := trees } path = (openAbi trees path >>= deContract) := by
    intro path
    show (match trees path with | none => _ | some none => _ | some (some j) => _) = _
    rw [openAbi]
    cases trees path with
    | none => rfl
    | some o => cases o <;> rfl
  rw [ethabiDeriveBytes, ethabiDerive, implEthabiDeriveBytes, implEthabiDerive]
  cases getOptions attrs (lit "ethabi_contract_options") with
  | err e => rfl
  | panic => rfl
  | ok options =>
    simp only [Res.ok_bind]
    cases getOption options (lit "path") with
    | err e => rfl
    | panic => rfl
    | ok rel =>
      simp only [Res.ok_bind]
      have : normalizePath { manifestDir := dir, file := fun _ => none } rel = normalizePath { manifestDir := dir, file := trees } rel := rfl
      rw [this]
      cases normalizePath { manifestDir := dir, file := trees } rel with
      | err e => rfl
      | panic => rfl
      | ok path =>
        simp only [Res.ok_bind, hload]
        rcases loadBytes_cases fits file trees hs path with ⟨h1, -⟩ | ⟨h1, h2, -⟩
        · rw [h1]; rfl
        · rw [h1, h2]
          rfl

theorem holds_unique {fits : Str → Bool} {bs : Bytes} {j j' : Json} (h : Holds fits j bs) (h' : Holds fits j' bs) : j = j' := by
  obtain ⟨s, h1, h2⟩ := h
  obtain ⟨s', h3, h4⟩ := h'
  rw [encodes_iff] at h1 h3
  have : s = s' := by rw [← lossy_utf8 s, ← lossy_utf8 s', ← h1, ← h3]
  subst this
  have a := (C99_parse fits s j).2 h2
  rw [(C99_parse fits s j').2 h4] at a
  cases a
  rfl

/-- **C105.** Every file system can be shown as values, in one way only. -/
theorem C105_values (fits : Str → Bool) (file : Str → Option Bytes) :
    ∃ trees, RendersBytes fits file trees ∧ ∀ t, RendersBytes fits file t → t = trees := by
  classical
  refine ⟨fun path => (file path).map fun bs => if h : ∃ j, Holds fits j bs then some h.choose else none, fun path => ?_, fun t ht => ?_⟩
  · cases hf : file path with
    | none => exact .inl ⟨rfl, by simp [hf]⟩
    | some bs =>
      by_cases h : ∃ j, Holds fits j bs
      · exact .inr (.inl ⟨bs, h.choose, rfl, by simp [hf, h], h.choose_spec⟩)
      · exact .inr (.inr ⟨bs, rfl, by simp [hf, h], fun j hj => h ⟨j, hj⟩⟩)
  · funext path
    rcases ht path with ⟨h1, h2⟩ | ⟨bs, j, h1, h2, h3⟩ | ⟨bs, h1, h2, h3⟩
    · simp [h1, h2]
    · have h : ∃ j, Holds fits j bs := ⟨j, h3⟩
      rw [h1, h2, Option.map_some, dif_pos h, holds_unique h3 h.choose_spec]
    · have h : ¬ ∃ j, Holds fits j bs := fun ⟨j, hj⟩ => h3 j hj
      rw [h1, h2, Option.map_some, dif_neg h]

/-- a name outside ASCII, written directly -/
example : (JsonBytes.load (fun _ => true) (utf8 (lit "[{\"type\":\"event\",\"inputs\":[],\"name\":\"é😀\",\"anonymous\":false}]"))
    >>= fun c => .ok (c.events.map (·.1))) = .ok [lit "é😀"] := by decide +kernel

/-- the same name in Latin-1: not UTF-8, an error -/
example : JsonBytes.load (fun _ => true)
    (utf8 (lit "[{\"type\":\"event\",\"inputs\":[],\"name\":\"") ++ [0xe9] ++ utf8 (lit "\",\"anonymous\":false}]")) =
    .err .serdeJson := by decide +kernel

/-- a file that is not UTF-8 and crashes -/
example : CrashesEarlyBytes (fun _ => true) (utf8 (lit "[{\"type\":\"constructor\",\"inputs\":[{\"name\":\"\",\"type\":\"]\"}]}") ++ [0xff]) := by
  have h1 : JsonBytes.load (fun _ => true) (utf8 (lit "[{\"type\":\"constructor\",\"inputs\":[{\"name\":\"\",\"type\":\"]\"}]}") ++ [0xff]) = .panic := by
    decide +kernel
  have h2 : fromUtf8 (utf8 (lit "[{\"type\":\"constructor\",\"inputs\":[{\"name\":\"\",\"type\":\"]\"}]}") ++ [0xff]) = none := by decide +kernel
  refine ⟨fun j ⟨s, hs, _⟩ => ?_, (C105_panic _ _).1 h1⟩
  rw [JsonBytes.fromUtf8_some.2 (encodes_iff.1 hs)] at h2
  cases h2

end Ethabi.Props

import Verif.Proofs.JsonReload
import Verif.Props.Json
import Verif.Props.AbiJson
import Verif.Props.Crash
import Verif.Props.Errors
/-! # Properties C99 and C100: ABI texts -/
namespace Ethabi.Props
open JsonText JsonGrammar Spec

/-- **C99.** A text is read as a value exactly if the grammar gives it this value. -/
theorem C99_parse (fits : Str → Bool) (s : Str) (j : Json) : parse fits s = some j ↔ Text fits j s := parse_iff fits s j

/-- **C99.** A text has at most one value. -/
theorem C99_unique (fits : Str → Bool) (s : Str) (j k : Json) (h : Text fits j s) (h' : Text fits k s) : j = k := text_unique h h'

/-- **C99.** On the text of a value, whatever its white space and escapes, `load` does what deserialising the value does. -/
theorem C99_load (fits : Str → Bool) (s : Str) (j : Json) (h : Text fits j s) : load fits s = deContract j := load_text h

/-- **C99.** `load` succeeds exactly on the texts of values that are contracts. -/
theorem C99_load_ok (fits : Str → Bool) (s : Str) (c : Contract) :
    load fits s = .ok c ↔ ∃ j, Text fits j s ∧ deContract j = .ok c :=
  ⟨load_ok, fun ⟨_, h, e⟩ => (load_text h).trans e⟩

/-- **C99.** `load` panics exactly if the text starts like an array whose first elements denote operations (C77) and are followed by
commas, and whose next one crashes (C90).  What follows need not be JSON. -/
theorem C99_load_panic (fits : Str → Bool) (s : Str) : load fits s = .panic ↔
    ∃ w js t j a v r, Blank w ∧ Begun fits js t ∧ Blank a ∧ Value fits 126 j v ∧ s = w ++ '[' :: (t ++ (a ++ (v ++ r))) ∧
      (∀ x ∈ js, ∃ op, DenotesOperation x op) ∧ CrashesOperation j := by
  rw [load_panic]
  simp only [C77_operation, C90_operation]

theorem loadLoop_err {fits : Str → Bool} : ∀ {n : Nat} {s : Str} {c : Contract} {e : Err}, loadLoop fits n s c = .err e → e = .serdeJson
  | 0, _, _, _, h => by cases h; rfl
  | n + 1, s, c, e, h => by
      rw [loadLoop] at h
      split at h
      · cases h; rfl
      rename_i j s1 hv
      cases hop : deOperation j with
      | err e' =>
        have : deContract (.arr [j]) = .err e' := by rw [deContract, deOperations, hop]; rfl
        rw [hop] at h
        cases h
        exact ((C93_loading _ _).1 this)
      | panic => rw [hop] at h; cases h
      | ok op =>
        rw [hop] at h
        replace h : (match skipWs s1 with
          | [] => .err .serdeJson
          | d :: s =>
              if d = ',' then loadLoop fits n s (c.add op)
              else if d = ']' then .ok (c.add op, s) else .err .serdeJson) = (Res.err e : Res (Contract × Str)) := h
        split at h
        · cases h; rfl
        split at h
        · exact loadLoop_err h
        · split at h
          · cases h
          · cases h; rfl

/-- **C99.** All errors of `load` are JSON errors. -/
theorem C99_load_err (fits : Str → Bool) (s : Str) (e : Err) (h : load fits s = .err e) : e = .serdeJson := by
  rw [load] at h
  split at h
  · cases h; rfl
  split at h
  · cases h; rfl
  split at h
  · replace h : (if _ = [] then Res.ok _ else .err .serdeJson) = (.err e : Res Contract) := h
    split at h <;> cases h; rfl
  · rename_i d s1 hs hd hh
    cases hl : loadLoop fits s1.length s1 {} with
    | err e' => rw [hl] at h; cases h; exact loadLoop_err hl
    | panic => rw [hl] at h; cases h
    | ok p =>
      rw [hl] at h
      replace h : (if skipWs p.2 = [] then Res.ok p.1 else .err .serdeJson) = (.err e : Res Contract) := h
      split at h <;> cases h; rfl

/-- **C99.** What `serde_json::to_string` writes for a value is a text of this value if at most 127 arrays and objects are nested,
and is not read otherwise. -/
theorem C99_written (fits : Str → Bool) (j : Json) (h : NumbersAre (fun n => fits (writeInt n) = true) j) :
    parse fits (JsonText.write j) = if nest j ≤ 127 then some j else none := by
  split
  · rename_i hn
    exact (parse_iff _ _ _).2 (text_write h hn)
  · rename_i hn
    have e : JsonText.write j = [] ++ (JsonText.write j ++ []) := by simp
    rw [parse, e, value_deep (d := 127) blank_nil (value_write j h) (by omega)]

/-- escapes, a surrogate pair, numbers, white space, repeated keys -/
example : (parse (fun _ => true) (lit " { \"a\\u0041\\n\" : [ 1 , -20.5e+3,\ttrue ] , \"\\uD83D\\uDE00\":null, \"\\uD83D\\uDE00\" : {}}\r\n")).map JsonText.write =
    some (JsonText.write (.obj [(lit "aA\n", .arr [.num 1, .num (-20), .bool true]), (lit "😀", .null), (lit "😀", .obj [])])) := by decide +kernel

/-- texts that are refused: a comma at the end, a leading zero, half a pair, a control character, something behind the value, an
unfinished number -/
example : [lit "[1,]", lit "01", lit "\"\\uD83D\"", lit "\"\n\"", lit "1 2", lit "1.", lit "{\"a\" 1}", lit "nul", lit ""].map
    (fun s => (parse (fun _ => true) s).isSome) = List.replicate 9 false := by decide +kernel

/-- 127 nested arrays are read, 128 are not -/
example : (parse (fun _ => true) (List.replicate 127 '[' ++ List.replicate 127 ']')).isSome = true ∧
    (parse (fun _ => true) (List.replicate 128 '[' ++ List.replicate 128 ']')).isSome = false := by decide +kernel

/-- a text is loaded -/
example : load (fun _ => true) (lit "[{\"type\":\"receive\"}, {\"type\" : \"event\",\"name\":\"E\\u0028x\",\"inputs\":[],\"anonymous\":true}]") =
    .ok { receive := true, events := [(lit "E", [{ name := lit "E", inputs := [], anonymous := true }])] } := by decide +kernel

/-- the panic of the type reader comes before the text turns out not to be JSON -/
example : load (fun _ => true) (lit "[{\"type\":\"receive\"}, {\"type\":\"constructor\",\"inputs\":[{\"name\":\"\",\"type\":\"]\"}]} ?") = .panic ∧
    load (fun _ => true) (lit "[{\"type\":\"receive\"} {\"type\":\"constructor\",\"inputs\":[{\"name\":\"\",\"type\":\"]\"}]}]") = .err .serdeJson := by
  decide +kernel

/-- what is written -/
example : JsonText.write (.obj [(lit "a\"", .arr [.str [Char.ofNat 8, Char.ofNat 31, 'é'], .num (-12), .null]), (lit "", .obj [])]) =
    lit "{\"a\\\"\":[\"\\b\\u001fé\",-12,null],\"\":{}}" := by decide +kernel

/-- **C100, partial.** A contract that was loaded from a text, written with `serde_json::to_string` in any order of its maps: if no
type declared in it needs more than 124 objects and arrays, the text loads and gives an equal contract.  Otherwise it does not load. -/
theorem C100_reload_partial (fits : Str → Bool) (s : Str) (c : Contract) (h : load fits s = .ok c)
    (fs : List (Str × List Function)) (es : List (Str × List Event)) (hf : fs.Perm c.functions) (he : es.Perm c.events) :
    ((∀ t, Declares c t → layers t ≤ 124) →
      ∃ c', load fits (JsonText.write (serContract { c with functions := fs, events := es })) = .ok c' ∧ SameContract c' c) ∧
    (∀ t, Declares c t → 124 < layers t →
      load fits (JsonText.write (serContract { c with functions := fs, events := es })) = .err .serdeJson) := by
  obtain ⟨j, _, hj⟩ := load_ok h
  have hd : ∀ t, Declares { c with functions := fs, events := es } t ↔ Declares c t := by
    intro t
    simp only [Declares, hf.mem_iff, he.mem_iff]
  constructor
  · intro hl
    obtain ⟨c', h1, h2⟩ := C29_contract_round_trip j c hj fs es hf he
    exact ⟨c', (load_write _ fun t ht => hl t ((hd t).1 ht)).trans h1, h2⟩
  · intro t ht hl
    exact load_write_deep _ (contractOk_perm (deContract_ok hj) hf.symm he.symm) ⟨t, (hd t).2 ht, hl⟩

/-- **C100** for texts in any layout: every text of the JSON written for a loaded contract gives an equal contract. -/
theorem C100_any_layout (fits : Str → Bool) (s : Str) (c : Contract) (h : load fits s = .ok c)
    (fs : List (Str × List Function)) (es : List (Str × List Event)) (hf : fs.Perm c.functions) (he : es.Perm c.events)
    (s' : Str) (h' : Text fits (serContract { c with functions := fs, events := es }) s') :
    ∃ c', load fits s' = .ok c' ∧ SameContract c' c := by
  obtain ⟨j, _, hj⟩ := load_ok h
  obtain ⟨c', h1, h2⟩ := C29_contract_round_trip j c hj fs es hf he
  exact ⟨c', (load_text h').trans h1, h2⟩

/-- an ABI with one parameter: 61 tuples, and inside them one whose type string has further tuples -/
def deepText : Str :=
  lit "[{\"type\":\"constructor\",\"inputs\":[{\"name\":\"a\"," ++
    (List.replicate 61 (lit "\"type\":\"tuple\",\"components\":[{")).flatten ++
    lit "\"type\":\"((bool))\",\"components\":[]" ++ (List.replicate 61 (lit "}]")).flatten ++ lit "}]}]"

/-- **C100** is false in general: a contract that loads, and whose text does not load. -/
theorem C100_counterexample : ∃ c, load (fun _ => true) deepText = .ok c ∧
    load (fun _ => true) (JsonText.write (serContract c)) = .err .serdeJson := by
  cases h : load (fun _ => true) deepText with
  | ok c =>
    refine ⟨c, rfl, ?_⟩
    have e : (match load (fun _ => true) deepText with
      | .ok c => decide (load (fun _ => true) (JsonText.write (serContract c)) = .err .serdeJson)
      | _ => false) = true := by decide +kernel
    rw [h] at e
    exact of_decide_eq_true e
  | err e => have : (match load (fun _ => true) deepText with | .ok _ => true | _ => false) = true := by decide +kernel
             rw [h] at this; cases this
  | panic => have : (match load (fun _ => true) deepText with | .ok _ => true | _ => false) = true := by decide +kernel
             rw [h] at this; cases this

/-- a contract with tuples that is written and loaded again -/
example : (match load (fun _ => true) (lit "[{\"type\":\"constructor\",\"inputs\":[{\"name\":\"a\",\"type\":\"tuple[2]\",\"components\":[{\"type\":\"bool\"}]}]}]") with
    | .ok c => decide (load (fun _ => true) (JsonText.write (serContract c)) = .ok c ∧ c.constructor = some { inputs := [{ name := lit "a", kind := .fixedArray (.tuple [.bool]) 2, internalType := none }] })
    | _ => false) = true := by decide +kernel

/-- how many layers: 61 tuples around a type are possible, 62 are not -/
example (n : Nat) : layers (Nat.rec .bool (fun _ t => .tuple [t]) n) = 2 * n + 1 := by
  induction n with
  | zero => rfl
  | succ n ih =>
    show max (layers _) 0 + 2 = _
    rw [ih]; omega

end Ethabi.Props

import Verif.Model.Cli
import Verif.Props.Json
import Verif.Props.Calls
import Verif.Props.Logs
import Verif.Props.Signatures
import Verif.Props.Tokenizer
import Verif.Proofs.EncodeFine
/-!
# Properties of the command line tool: C51, C52, C59-C62
-/
namespace Ethabi.Props
open Spec

/-! ## C51 which function, which event -/

theorem signatureName_none {s : Str} (h : '(' ∉ s) : signatureName s = none := if_neg h

theorem takeWhile_paren {n : Str} (h : '(' ∉ n) (rest : Str) : (n ++ '(' :: rest).takeWhile (· != '(') = n := by
  induction n with
  | nil => rfl
  | cons c n ih =>
    have hc : c ≠ '(' := fun e => h (e ▸ List.mem_cons_self)
    rw [List.cons_append, List.takeWhile_cons, if_pos (by simpa using hc), ih (fun e => h (List.mem_cons_of_mem _ e))]

theorem signatureName_some {n : Str} (h : '(' ∉ n) (rest : Str) : signatureName (n ++ '(' :: rest) = some n := by
  rw [signatureName, if_pos (by simp), takeWhile_paren h]

/-- **C51**, functions by name: the only function of that name; an error when there are none or several. -/
theorem C51_function_by_name (js : List Json) (ops : List Operation)
    (h : List.Forall₂ (fun j op => deOperation j = .ok op) js ops) (n : Str) (hn : '(' ∉ n) :
    loadFunction (.arr js) n = match declaredFunctions n ops with
      | [] => .err (.invalidName n)
      | [f] => .ok f
      | _ => .err .other := by
  obtain ⟨c, hc, hf, -⟩ := C30_lookup js ops h
  rw [loadFunction, hc, Res.ok_bind, selectFunction, signatureName_none hn]
  simp only [hf]
  rcases declaredFunctions n ops with _ | ⟨f, _ | ⟨g, l⟩⟩ <;> rfl

/-- **C51**, events by name. -/
theorem C51_event_by_name (hash : Bytes → Word) (js : List Json) (ops : List Operation)
    (h : List.Forall₂ (fun j op => deOperation j = .ok op) js ops) (n : Str) (hn : '(' ∉ n) :
    loadEvent hash (.arr js) n = match declaredEvents n ops with
      | [] => .err (.invalidName n)
      | [e] => .ok e
      | _ => .err .other := by
  obtain ⟨c, hc, -, he, -⟩ := C30_lookup js ops h
  rw [loadEvent, hc, Res.ok_bind, selectEvent, signatureName_none hn]
  simp only [he]
  rcases declaredEvents n ops with _ | ⟨f, _ | ⟨g, l⟩⟩ <;> rfl

/-- the text by which a function is chosen: `name(types)`, followed by `:(types)` if there are outputs -/
def functionText (f : Function) : Str :=
  (Spec.signature (String.ofList f.name) (f.inputs.map (·.kind))).toList ++
    (if f.outputs = [] then [] else (":(".toList ++
      (String.intercalate "," (Spec.typeNames (f.outputs.map (·.kind)))).toList ++ ")".toList))

/-- the text by which an event is chosen: `name(types)` -/
def eventText (e : Event) : Str := (Spec.signature (String.ofList e.name) (e.inputs.map (·.kind))).toList

theorem declaredFunctions_name {n : Str} {ops : List Operation} {f : Function} (h : f ∈ declaredFunctions n ops) :
    f.name = n := by
  unfold declaredFunctions at h
  obtain ⟨op, -, e⟩ := List.mem_filterMap.1 h
  cases op <;> simp at e
  obtain ⟨e1, rfl⟩ := e; exact e1

/-- **C51**, functions by signature `name(…`: the first function declared under that name whose text is the argument;
an error if there is none. -/
theorem C51_function_by_signature (js : List Json) (ops : List Operation)
    (h : List.Forall₂ (fun j op => deOperation j = .ok op) js ops) (n rest : Str) (hn : '(' ∉ n) :
    (∀ f, loadFunction (.arr js) (n ++ '(' :: rest) = .ok f ↔
      ∃ before after, declaredFunctions n ops = before ++ f :: after ∧ functionText f = n ++ '(' :: rest ∧
        ∀ g ∈ before, functionText g ≠ n ++ '(' :: rest) ∧
    ((∀ f ∈ declaredFunctions n ops, functionText f ≠ n ++ '(' :: rest) →
      loadFunction (.arr js) (n ++ '(' :: rest) = .err (if declaredFunctions n ops = [] then .invalidName n else .other)) := by
  obtain ⟨c, hc, hf, -⟩ := C30_lookup js ops h
  have hsig : ∀ f : Function, f.signature = functionText f := C23_suffix
  rw [loadFunction, hc, Res.ok_bind, selectFunction, signatureName_some hn]
  simp only [hf, hsig]
  rcases hd : declaredFunctions n ops with _ | ⟨f0, l⟩
  · simp [Bind.bind, Res.bind]
  · simp only [Res.ok_bind, reduceCtorEq, if_false]
    constructor
    · intro f
      rcases hfind : (f0 :: l).find? (fun f => functionText f == n ++ '(' :: rest) with _ | g
      · simp only [reduceCtorEq, false_iff]
        rintro ⟨b, a, e, e2, -⟩
        have := List.find?_eq_none.1 hfind f (by rw [e]; simp)
        simp [e2] at this
      · rw [List.find?_eq_some_iff_append] at hfind
        obtain ⟨h1, b, a, h2, h3⟩ := hfind
        simp only [Res.ok.injEq]
        constructor
        · rintro rfl
          exact ⟨b, a, h2, by simpa using h1, fun x hx => by simpa using h3 x hx⟩
        · rintro ⟨b', a', e, e2, e3⟩
          have hff : (f0 :: l).find? (fun f => functionText f == n ++ '(' :: rest) = some f := by
            rw [List.find?_eq_some_iff_append]
            exact ⟨by simpa using e2, b', a', e, fun x hx => by simpa using e3 x hx⟩
          have hgg : (f0 :: l).find? (fun f => functionText f == n ++ '(' :: rest) = some g := by
            rw [List.find?_eq_some_iff_append]
            exact ⟨h1, b, a, h2, h3⟩
          rw [hff] at hgg
          exact (Option.some.inj hgg).symm
    · intro hno
      rw [List.find?_eq_none.2 (fun x hx => by simpa using hno x hx)]

/-- Such a function is unique up to parameter names and mutability: the text determines name, inputs and outputs. -/
theorem C51_function_text_injective (f g : Function) (hf : '(' ∉ f.name) (hg : '(' ∉ g.name)
    (h : functionText f = functionText g) : f.name = g.name ∧ f.inputs.map (·.kind) = g.inputs.map (·.kind) ∧
      f.outputs.map (·.kind) = g.outputs.map (·.kind) := by
  refine C23_signature_injective f g hf hg ?_
  rw [C23_suffix f, C23_suffix g]; exact h

/-- hash of the UTF-8 bytes of a text -/
def textHash (hash : Bytes → Word) (s : Str) : Word := hash (s.flatMap String.utf8EncodeChar)

/-- **C51**, events by signature: the first event declared under that name whose text hashes to the hash of the argument
with its spaces removed; an error if there is none. -/
theorem C51_event_by_signature (hash : Bytes → Word) (js : List Json) (ops : List Operation)
    (h : List.Forall₂ (fun j op => deOperation j = .ok op) js ops) (n rest : Str) (hn : '(' ∉ n) :
    (∀ e, loadEvent hash (.arr js) (n ++ '(' :: rest) = .ok e ↔
      ∃ before after, declaredEvents n ops = before ++ e :: after ∧
        textHash hash (eventText e) = textHash hash ((n ++ '(' :: rest).filter (· ≠ ' ')) ∧
        ∀ g ∈ before, textHash hash (eventText g) ≠ textHash hash ((n ++ '(' :: rest).filter (· ≠ ' '))) ∧
    ((∀ e ∈ declaredEvents n ops, textHash hash (eventText e) ≠ textHash hash ((n ++ '(' :: rest).filter (· ≠ ' '))) →
      loadEvent hash (.arr js) (n ++ '(' :: rest) = .err (if declaredEvents n ops = [] then .invalidName n else .other)) := by
  obtain ⟨c, hc, -, he, -⟩ := C30_lookup js ops h
  have hsig : ∀ e : Event, e.signature hash = textHash hash (eventText e) :=
    fun e => Subtype.ext (signature_eventTopic hash e)
  have hs : hashSignature hash (n ++ '(' :: rest) = textHash hash ((n ++ '(' :: rest).filter (· ≠ ' ')) := by
    rw [hashSignature, strBytes, utf8_eq_core, removeSpaces, textHash]
    congr 3
    funext c
    by_cases hc : c = ' ' <;> simp [hc]
  rw [loadEvent, hc, Res.ok_bind, selectEvent, signatureName_some hn]
  simp only [he, hsig, hs]
  generalize (n ++ '(' :: rest).filter (· ≠ ' ') = w
  rcases hd : declaredEvents n ops with _ | ⟨f0, l⟩
  · simp [Bind.bind, Res.bind]
  · simp only [Res.ok_bind, reduceCtorEq, if_false]
    constructor
    · intro f
      have key := fun x => List.find?_eq_some_iff_append (p := fun e => textHash hash (eventText e) == textHash hash w)
        (xs := f0 :: l) (b := x)
      rcases hfind : (f0 :: l).find? (fun e => textHash hash (eventText e) == textHash hash w) with _ | g
      · simp only [reduceCtorEq, false_iff]
        rintro ⟨b, a, e, e2, -⟩
        have := List.find?_eq_none.1 hfind f (by rw [e]; simp)
        simp [e2] at this
      · simp only [Res.ok.injEq]
        constructor
        · rintro rfl
          obtain ⟨h1, b, a, h2, h3⟩ := (key g).1 hfind
          exact ⟨b, a, h2, by simpa [Subtype.ext_iff] using h1, fun x hx => by simpa [Subtype.ext_iff] using h3 x hx⟩
        · rintro ⟨b', a', e, e2, e3⟩
          have hff := (key f).2 ⟨by simpa [Subtype.ext_iff] using e2, b', a', e, fun x hx => by simpa [Subtype.ext_iff] using e3 x hx⟩
          rw [hfind] at hff
          exact Option.some.inj hff
    · intro hno
      rw [List.find?_eq_none.2 (fun x hx => by simpa [Subtype.ext_iff] using hno x hx)]

/-- **C51**: when no two texts collide under the hash, the event found is the first whose text is the argument without
its spaces. -/
theorem C51_event_no_collision (hash : Bytes → Word) (js : List Json) (ops : List Operation)
    (h : List.Forall₂ (fun j op => deOperation j = .ok op) js ops) (n rest : Str) (hn : '(' ∉ n)
    (hcol : ∀ e ∈ declaredEvents n ops, textHash hash (eventText e) = textHash hash ((n ++ '(' :: rest).filter (· ≠ ' ')) →
      eventText e = (n ++ '(' :: rest).filter (· ≠ ' ')) (e : Event) :
    loadEvent hash (.arr js) (n ++ '(' :: rest) = .ok e ↔
      ∃ before after, declaredEvents n ops = before ++ e :: after ∧
        eventText e = (n ++ '(' :: rest).filter (· ≠ ' ') ∧
        ∀ g ∈ before, eventText g ≠ (n ++ '(' :: rest).filter (· ≠ ' ') := by
  rw [(C51_event_by_signature hash js ops h n rest hn).1 e]
  constructor
  · rintro ⟨b, a, h1, h2, h3⟩
    exact ⟨b, a, h1, hcol e (by rw [h1]; simp) h2, fun g hg he => h3 g hg (by rw [he])⟩
  · rintro ⟨b, a, h1, h2, h3⟩
    exact ⟨b, a, h1, by rw [h2], fun g hg he => h3 g hg (hcol g (by rw [h1]; simp [hg]) he)⟩

/-- **C51**: the `unreachable!()` branches are never taken.  A panic can only come from loading the contract
(C26: a malformed type text). -/
theorem C51_no_unreachable (hash : Bytes → Word) (abi : Json) (s : Str) (h : deContract abi ≠ .panic) :
    loadFunction abi s ≠ .panic ∧ loadEvent hash abi s ≠ .panic := by
  rcases hc : deContract abi with c | e | _
  · cases abi with
    | arr js =>
      obtain ⟨ops, hops⟩ := (C30_loads js).1 ⟨c, hc⟩
      obtain ⟨c', hc', hf, he, -⟩ := C30_lookup js ops hops
      have e1 : c' = c := by rw [hc] at hc'; exact (Res.ok.inj hc').symm
      subst e1
      rw [loadFunction, loadEvent, hc, Res.ok_bind, Res.ok_bind, selectFunction, selectEvent]
      rcases signatureName s with _ | n
      · simp only [hf, he]
        constructor
        · rcases declaredFunctions s ops with _ | ⟨f, _ | ⟨g, l⟩⟩ <;> simp [Bind.bind, Res.bind]
        · rcases declaredEvents s ops with _ | ⟨f, _ | ⟨g, l⟩⟩ <;> simp [Bind.bind, Res.bind]
      · simp only [hf, he]
        constructor
        · rcases declaredFunctions n ops with _ | ⟨f, l⟩
          · simp [Bind.bind, Res.bind]
          · simp only [Res.ok_bind]; split <;> simp
        · rcases declaredEvents n ops with _ | ⟨f, l⟩
          · simp [Bind.bind, Res.bind]
          · simp only [Res.ok_bind]; split <;> simp
    | _ => cases hc
  · simp [loadFunction, loadEvent, hc, Bind.bind, Res.bind]
  · exact absurd hc h

/-- a hash for examples: the first 32 bytes -/
def prefixHash (b : Bytes) : Word := ⟨(b ++ List.replicate 32 0).take 32, by simp⟩

/-- two overloads of `f`, and `g` alone -/
def overloads : List Json := [
  .obj [(lit "type", .str (lit "function")), (lit "name", .str (lit "f")),
    (lit "inputs", .arr [.obj [(lit "name", .str (lit "x")), (lit "type", .str (lit "bool"))]]), (lit "outputs", .arr [])],
  .obj [(lit "type", .str (lit "function")), (lit "name", .str (lit "f")),
    (lit "inputs", .arr [.obj [(lit "name", .str (lit "x")), (lit "type", .str (lit "bytes"))]]),
    (lit "outputs", .arr [.obj [(lit "name", .str (lit "")), (lit "type", .str (lit "uint8"))]])],
  .obj [(lit "type", .str (lit "function")), (lit "name", .str (lit "g")),
    (lit "inputs", .arr [.obj [(lit "name", .str (lit "x")), (lit "type", .str (lit "bool"))]]), (lit "outputs", .arr [])],
  .obj [(lit "type", .str (lit "event")), (lit "name", .str (lit "e")), (lit "anonymous", .bool false),
    (lit "inputs", .arr [.obj [(lit "name", .str (lit "x")), (lit "type", .str (lit "bool")), (lit "indexed", .bool true)],
      .obj [(lit "name", .str (lit "y")), (lit "type", .str (lit "string")), (lit "indexed", .bool false)]])]]

example : loadFunction (.arr overloads) (lit "f") = .err .other ∧
    loadFunction (.arr overloads) (lit "h") = .err (.invalidName (lit "h")) ∧
    loadFunction (.arr overloads) (lit "g") = .ok
      { name := lit "g", inputs := [⟨lit "x", .bool, none⟩], outputs := [], constant := false, stateMutability := .nonPayable } ∧
    loadFunction (.arr overloads) (lit "f(bytes):(uint8)") = .ok
      { name := lit "f", inputs := [⟨lit "x", .bytes, none⟩], outputs := [⟨[], .uint 8, none⟩], constant := false,
        stateMutability := .nonPayable } ∧
    loadFunction (.arr overloads) (lit "f(bytes)") = .err .other ∧
    loadEvent prefixHash (.arr overloads) (lit "e(bool, string)") = .ok
      { name := lit "e", inputs := [⟨lit "x", .bool, true⟩, ⟨lit "y", .string, false⟩], anonymous := false } := by
  decide +kernel

/-! ## C52 encode, then decode -/

/-- one pair of command line arguments with the type and the token read from it -/
structure Row where
  type : Str
  value : Str
  kind : ParamType
  token : Token

/-- the row's texts are read as its type and token -/
def Row.Reads (lenient : Bool) (r : Row) : Prop :=
  read r.type = .ok r.kind ∧ tokenize (if lenient then .lenient else .strict) r.kind r.value = .ok r.token

/-- the line printed for a row: type, space, value -/
def Row.line (r : Row) : Str := (typeName r.kind).toList ++ ' ' :: r.token.display

theorem readPairs_rows (lenient : Bool) : ∀ (rows : List Row), (∀ r ∈ rows, r.Reads lenient) →
    readPairs (rows.flatMap fun r => [r.type, r.value]) = .ok (rows.map fun r => (r.kind, r.value))
  | [], _ => rfl
  | r :: rows, h => by
      rw [List.flatMap_cons]
      simp only [List.cons_append, List.nil_append, readPairs]
      rw [(h r List.mem_cons_self).1, Res.ok_bind, readPairs_rows lenient rows (fun x hx => h x (List.mem_cons_of_mem _ hx))]
      rfl

theorem parseTokens_rows (lenient : Bool) : ∀ (rows : List Row), (∀ r ∈ rows, r.Reads lenient) →
    parseTokens lenient (rows.map fun r => (r.kind, r.value)) = .ok (rows.map (·.token))
  | [], _ => rfl
  | r :: rows, h => by
      rw [List.map_cons, parseTokens, tokenizerOf, (h r List.mem_cons_self).2, Res.ok_bind,
        parseTokens_rows lenient rows (fun x hx => h x (List.mem_cons_of_mem _ hx))]
      rfl

theorem readAll_rows (lenient : Bool) : ∀ (rows : List Row), (∀ r ∈ rows, r.Reads lenient) →
    readAll (rows.map (·.type)) = .ok (rows.map (·.kind))
  | [], _ => rfl
  | r :: rows, h => by
      rw [List.map_cons, readAll, (h r List.mem_cons_self).1, Res.ok_bind,
        readAll_rows lenient rows (fun x hx => h x (List.mem_cons_of_mem _ hx))]
      rfl

theorem typedLines_eq : ∀ (tys : List ParamType) (ts : List Token),
    typedLines tys ts = (tys.zip ts).map fun x => (typeName x.1).toList ++ ' ' :: x.2.display
  | [], _ => by simp [typedLines]
  | _ :: _, [] => by simp [typedLines]
  | ty :: tys, t :: ts => by
      rw [typedLines, typedLines_eq tys ts, write_eq_typeName, List.zip_cons_cons, List.map_cons]
      simp [lit]

theorem typedLines_rows (rows : List Row) : typedLines (rows.map (·.kind)) (rows.map (·.token)) = rows.map Row.line := by
  rw [typedLines_eq, List.zip_map', List.map_map]; rfl

theorem evenLength (rows : List Row) : (rows.flatMap fun r => [r.type, r.value]).length = 2 * rows.length := by
  induction rows with
  | nil => rfl
  | cons r rows ih => rw [List.flatMap_cons, List.length_append, ih]; simp; omega

/-- **C52**, for values that fill their tuples (see `C52_counterexample_short_tuple`): `encode params` prints the hex text
of the ABI encoding, and `decode params` with the same types prints one line "type value" per argument. -/
theorem C52_round_trip_partial (pe pd : Profile) (lenient : Bool) (rows : List Row) (hr : ∀ r ∈ rows, r.Reads lenient)
    (ht : ∀ r ∈ rows, hasType r.token r.kind = true) (hs : ∀ r ∈ rows, solidity r.kind = true)
    (hb : (encodeArgs (rows.map (·.token)) (rows.map (·.kind))).length < 2 ^ 32) :
    ∃ out, cliEncodeParams pe (rows.flatMap fun r => [r.type, r.value]) lenient = .ok out ∧
      hexDecode out = .ok (encodeArgs (rows.map (·.token)) (rows.map (·.kind))) ∧
      cliDecodeParams pd (rows.map (·.type)) out = .ok (List.intercalate ['\n'] (rows.map Row.line)) := by
  have ht' : haveTypes (rows.map (·.token)) (rows.map (·.kind)) = true := by
    clear hr hs hb
    induction rows with
    | nil => rfl
    | cons r rows ih =>
      simp only [List.map_cons, haveTypes, Bool.and_eq_true]
      exact ⟨ht r List.mem_cons_self, ih fun x hx => ht x (List.mem_cons_of_mem _ hx)⟩
  have hs' : solidityAll (rows.map (·.kind)) = true := by
    clear hr ht ht' hb
    induction rows with
    | nil => rfl
    | cons r rows ih =>
      simp only [List.map_cons, solidityAll, Bool.and_eq_true]
      exact ⟨hs r List.mem_cons_self, ih fun x hx => hs x (List.mem_cons_of_mem _ hx)⟩
  have henc := C02_encode_conforms_solidity pe _ _ ht' hs' hb
  obtain ⟨bs, e1, e2⟩ := C01_round_trip_solidity pe pd _ _ ht' hs' hb
  rw [henc] at e1
  cases e1
  refine ⟨_, ?_, hexDecode_hexEncode _, ?_⟩
  · rw [cliEncodeParams, if_neg (by rw [evenLength]; omega), readPairs_rows lenient rows hr, Res.ok_bind,
      parseTokens_rows lenient rows hr, Res.ok_bind, henc, Res.ok_bind]
  · rw [cliDecodeParams, readAll_rows lenient rows hr, Res.ok_bind, hexDecode_hexEncode, Res.ok_bind, e2, Res.ok_bind,
      if_neg (by simp), typedLines_rows, join_eq_intercalate]
    rfl

/-- **C52** for types without tuples: no condition on the values beyond being accepted. -/
theorem C52_round_trip_tuple_free (pe pd : Profile) (lenient : Bool) (rows : List Row) (hr : ∀ r ∈ rows, r.Reads lenient)
    (ht : ∀ r ∈ rows, tupleFree r.kind = true) (hs : ∀ r ∈ rows, solidity r.kind = true)
    (hb : (encodeArgs (rows.map (·.token)) (rows.map (·.kind))).length < 2 ^ 32) :
    ∃ out, cliEncodeParams pe (rows.flatMap fun r => [r.type, r.value]) lenient = .ok out ∧
      hexDecode out = .ok (encodeArgs (rows.map (·.token)) (rows.map (·.kind))) ∧
      cliDecodeParams pd (rows.map (·.type)) out = .ok (List.intercalate ['\n'] (rows.map Row.line)) :=
  C52_round_trip_partial pe pd lenient rows hr (fun r h => C47_has_type _ r.kind (ht r h) r.value r.token (hr r h).2) hs hb

def sampleRows : List Row := [
  ⟨lit "uint", lit "258", .uint 256, .uint 258⟩,
  ⟨lit "(bool,bytes)", lit "(1,ff)", .tuple [.bool, .bytes], .tuple [.bool true, .bytes [255]]⟩,
  ⟨lit "bytes[]", lit "[00,]", .array .bytes, .array [.bytes [0], .bytes []]⟩,
  ⟨lit "string", lit "hello", .string, .string (lit "hello")⟩]

example : (∀ r ∈ sampleRows, r.Reads true) ∧ (∀ r ∈ sampleRows, hasType r.token r.kind = true) ∧
    (∀ r ∈ sampleRows, solidity r.kind = true) ∧
    (encodeArgs (sampleRows.map (·.token)) (sampleRows.map (·.kind))).length < 2 ^ 32 ∧
    List.intercalate ['\n'] (sampleRows.map Row.line) =
      lit "uint256 102\n(bool,bytes) (true,ff)\nbytes[] [00,]\nstring hello" := by
  unfold Row.Reads; decide +kernel

/-- **C52** fails for tuple values with too few members, which the tokenizer accepts (C50): decoding the printed text is an
error. -/
theorem C52_counterexample_short_tuple (pe pd : Profile) :
    cliEncodeParams pe [lit "(bool,bool)", lit "(1)"] false =
      .ok (lit "0000000000000000000000000000000000000000000000000000000000000001") ∧
    cliDecodeParams pd [lit "(bool,bool)"] (lit "0000000000000000000000000000000000000000000000000000000000000001") =
      .err .invalidData := by
  cases pe <;> cases pd <;> decide +kernel

/-! ## C59 the number of values -/

theorem parseTokens_length (lenient : Bool) : ∀ (l : List (ParamType × Str)) (ts : List Token),
    parseTokens lenient l = .ok ts → List.Forall₂ (fun x t => tokenize (tokenizerOf lenient) x.1 x.2 = .ok t) l ts
  | [], ts, h => by cases h; exact .nil
  | (p, v) :: l, ts, h => by
      simp only [parseTokens, Res.bind_eq_ok, Res.ok.injEq] at h
      obtain ⟨t, h1, ts', h2, rfl⟩ := h
      exact .cons h1 (parseTokens_length lenient l ts' h2)

theorem parseTokens_noPanic (lenient : Bool) : ∀ (l : List (ParamType × Str)), (∀ x ∈ l, isAscii x.2 = true) →
    parseTokens lenient l ≠ .panic
  | [], _ => by simp [parseTokens]
  | (p, v) :: l, h => by
      rw [parseTokens]
      refine noPanic_bind (C48_no_panic_partial _ p v (h _ List.mem_cons_self)) fun t _ => ?_
      refine noPanic_bind (parseTokens_noPanic lenient l fun x hx => h x (List.mem_cons_of_mem _ hx)) fun ts _ => ?_
      simp

/-- **C59**: `encode function` with fewer values than the function has inputs never succeeds, and with ASCII values it is
an error.  Missing: surplus values are ignored, see `C59_counterexample_surplus`. -/
theorem C59_too_few_partial (hash : Bytes → Word) (prof : Profile) (abi : Json) (name : Str) (values : List Str)
    (lenient : Bool) (f : Function) (hf : loadFunction abi name = .ok f) (hl : values.length < f.inputs.length) :
    (∀ out, cliEncodeInput hash prof abi name values lenient ≠ .ok out) ∧
    ((∀ v ∈ values, isAscii v = true) → ∃ e, cliEncodeInput hash prof abi name values lenient = .err e) := by
  have key : ∀ ts, parseTokens lenient ((f.inputs.map (·.kind)).zip values) = .ok ts →
      f.encodeInput hash prof ts = .err .invalidData := by
    intro ts h
    have h1 := (parseTokens_length lenient _ ts h).length_eq
    rw [List.length_zip, List.length_map] at h1
    rw [Function.encodeInput, Function.inputParamTypes, Token.typesCheck, if_neg (by simp; omega)]
    rfl
  rcases hp : parseTokens lenient ((f.inputs.map (·.kind)).zip values) with ts | e | _
  · have he : cliEncodeInput hash prof abi name values lenient = .err .invalidData := by
      rw [cliEncodeInput, hf, Res.ok_bind, encodeInputOf, hp, Res.ok_bind, key ts hp]; rfl
    rw [he]; exact ⟨by simp, fun _ => ⟨_, rfl⟩⟩
  · have he : cliEncodeInput hash prof abi name values lenient = .err e := by
      rw [cliEncodeInput, hf, Res.ok_bind, encodeInputOf, hp]; rfl
    rw [he]; exact ⟨by simp, fun _ => ⟨_, rfl⟩⟩
  · have he : cliEncodeInput hash prof abi name values lenient = .panic := by
      rw [cliEncodeInput, hf, Res.ok_bind, encodeInputOf, hp]; rfl
    rw [he]; refine ⟨by simp, fun h => ?_⟩
    exact absurd hp (parseTokens_noPanic lenient _ fun x hx => h _ (List.of_mem_zip hx).2)

/-- **C59** fails for surplus values: they are ignored, whatever they are. -/
theorem C59_counterexample_surplus (hash : Bytes → Word) (prof : Profile) (abi : Json) (name : Str) (values more : List Str)
    (lenient : Bool) (f : Function) (hf : loadFunction abi name = .ok f) (hl : values.length = f.inputs.length) :
    cliEncodeInput hash prof abi name (values ++ more) lenient = cliEncodeInput hash prof abi name values lenient := by
  have : (f.inputs.map (·.kind)).zip (values ++ more) = (f.inputs.map (·.kind)).zip values := by
    rw [← List.append_nil (f.inputs.map (·.kind)), List.zip_append (by simp [hl])]
    simp
  rw [cliEncodeInput, cliEncodeInput, hf, Res.ok_bind, Res.ok_bind, encodeInputOf, encodeInputOf, this]

/-- **C59**: `encode params` with an odd number of arguments panics (an `assert`), whatever they are. -/
theorem C59_odd_params (prof : Profile) (args : List Str) (lenient : Bool) (h : args.length % 2 = 1) :
    cliEncodeParams prof args lenient = .panic := by
  rw [cliEncodeParams, if_pos (by omega)]

example : cliEncodeInput prefixHash .debug (.arr overloads) (lit "g") [] false = .err .invalidData ∧
    cliEncodeInput prefixHash .debug (.arr overloads) (lit "g") [lit "1"] false =
      .ok (lit "6728626f0000000000000000000000000000000000000000000000000000000000000001") ∧
    cliEncodeInput prefixHash .debug (.arr overloads) (lit "g") [lit "1", lit "junk"] false =
      .ok (lit "6728626f0000000000000000000000000000000000000000000000000000000000000001") := by decide +kernel

/-! ## C60 encode function -/

/-- **C60.** Given values that are read as tokens of the input types, `encode function` prints the hex text of the selector
and the ABI encoding of the tokens. -/
theorem C60_encode_function (hash : Bytes → Word) (prof : Profile) (abi : Json) (name : Str) (values : List Str)
    (toks : List Token) (lenient : Bool) (f : Function) (hf : loadFunction abi name = .ok f)
    (hl : values.length = f.inputs.length)
    (hv : List.Forall₂ (fun x t => tokenize (if lenient then .lenient else .strict) x.1 x.2 = .ok t)
      ((f.inputs.map (·.kind)).zip values) toks)
    (ht : haveTypes toks (f.inputs.map (·.kind)) = true) (hs : solidityAll (f.inputs.map (·.kind)) = true)
    (hb : (encodeArgs toks (f.inputs.map (·.kind))).length < 2 ^ 32) :
    ∃ out, cliEncodeInput hash prof abi name values lenient = .ok out ∧
      hexDecode out = .ok ((textHash hash (signature (String.ofList f.name) (f.inputs.map (·.kind))).toList).1.take 4 ++
        encodeArgs toks (f.inputs.map (·.kind))) := by
  have hp : ∀ (l : List (ParamType × Str)) (ts : List Token),
      List.Forall₂ (fun x t => tokenize (if lenient then .lenient else .strict) x.1 x.2 = .ok t) l ts →
      parseTokens lenient l = .ok ts := by
    intro l ts h
    induction h with
    | nil => rfl
    | @cons x t l ts h1 h2 ih =>
      obtain ⟨p, v⟩ := x
      rw [parseTokens, tokenizerOf, h1, Res.ok_bind, ih]; rfl
  obtain ⟨sel, args, -, h1, h2, -⟩ := C18_function_round_trip_solidity hash prof prof f toks ht hs hb
  obtain ⟨e, h3, h4⟩ := C19_selector hash prof f toks _ h1
  rw [C02_encode_conforms_solidity prof _ _ ht hs hb] at h3
  cases h3
  refine ⟨_, ?_, hexDecode_hexEncode _⟩
  rw [cliEncodeInput, hf, Res.ok_bind, encodeInputOf, hp _ _ hv, Res.ok_bind, h1, Res.ok_bind, h4]
  rfl

/-! ## C61 decode function -/

/-- **C61.** `decode function` applied to the hex text of the ABI encoding of the results, possibly followed by more
bytes, prints one line "type value" per output. -/
theorem C61_decode_function (prof : Profile) (abi : Json) (name data : Str) (toks : List Token) (more : Bytes) (f : Function)
    (hf : loadFunction abi name = .ok f)
    (ht : haveTypes toks (f.outputs.map (·.kind)) = true) (hs : solidityAll (f.outputs.map (·.kind)) = true)
    (hd : hexDecode data = .ok (encodeArgs toks (f.outputs.map (·.kind)) ++ more))
    (hb : (encodeArgs toks (f.outputs.map (·.kind))).length < 2 ^ 32) :
    cliDecodeOutput prof abi name data = .ok (List.intercalate ['\n']
      (((f.outputs.map (·.kind)).zip toks).map fun x => (typeName x.1).toList ++ ' ' :: x.2.display)) := by
  obtain ⟨bs, e1, e2⟩ := C01_round_trip_solidity prof prof _ _ ht hs hb
  rw [C02_encode_conforms_solidity prof _ _ ht hs hb] at e1
  cases e1
  have e3 := C07_trailing_bytes prof _ _ more _ e2
  have hl : f.outputs.length = toks.length := by
    have := haveTypes_length _ _ ht; simpa using this.symm
  rw [cliDecodeOutput, hf, Res.ok_bind, decodeOutputOf, hd, Res.ok_bind, Function.decodeOutput, Function.outputParamTypes, e3, Res.ok_bind,
    if_neg (by simp [hl]), typedLines_eq, join_eq_intercalate]
  rfl

/-- a function with three results -/
def threeResults : List Json := [
  .obj [(lit "type", .str (lit "function")), (lit "name", .str (lit "f")), (lit "inputs", .arr []), (lit "outputs", .arr [
    .obj [(lit "name", .str (lit "a")), (lit "type", .str (lit "bool"))],
    .obj [(lit "name", .str (lit "b")), (lit "type", .str (lit "string"))],
    .obj [(lit "name", .str (lit "c")), (lit "type", .str (lit "tuple[]")),
      (lit "components", .arr [.obj [(lit "name", .str (lit "d")), (lit "type", .str (lit "uint8"))]])]])]]

example : cliDecodeOutput .release (.arr threeResults) (lit "f():(bool,string,(uint8)[])") (hexEncode (encodeArgs
      [.bool true, .string (lit "hi"), .array [.tuple [.uint 10], .tuple [.uint 11]]]
      [.bool, .string, .array (.tuple [.uint 8])])) = .ok (lit "bool true\nstring hi\n(uint8)[] [(a),(b)]") := by decide +kernel

/-! ## C62 decode log -/

theorem parseHashes_ok (parseHash : Str → Res Word) {ss : List Str} {ws : List Word}
    (h : List.Forall₂ (fun s w => parseHash s = .ok w) ss ws) : parseHashes parseHash ss = .ok ws := by
  induction h with
  | nil => rfl
  | cons h1 _ ih => rw [parseHashes, h1, Res.ok_bind, ih]; rfl

/-- **C62.** `decode log` applied to the topics and data of an emitted log prints one line "name value" per parameter in
declaration order; the value is the topic for indexed parameters that are not of a value type. -/
theorem C62_decode_log (hash : Bytes → Word) (parseHash : Str → Res Word) (prof : Profile) (abi : Json) (name data : Str)
    (topics : List Str) (e : Event) (ps : List Emitted) (ws : List Word) (he : loadEvent hash abi name = .ok e)
    (hin : e.inputs = ps.map fun p => { name := p.name, kind := p.kind, indexed := p.indexed })
    (hn : (ps.map (·.name)).Nodup)
    (ht : ∀ p ∈ ps, hasType p.value p.kind = true) (hs : ∀ p ∈ ps, solidity p.kind = true)
    (hp : List.Forall₂ (fun s w => parseHash s = .ok w) topics ws)
    (hlt : ws.map (·.1) = emitTopics hash e.name e.anonymous ps) (hld : hexDecode data = .ok (emitData ps))
    (hk : topics.length < 2 ^ 27) (hb : (emitData ps).length < 2 ^ 32) :
    cliDecodeLog hash parseHash prof abi name topics data = .ok (List.intercalate ['\n']
      (ps.map fun p => p.name ++ ' ' :: (recoverable hash p).display)) := by
  have := C33_parse_emitted hash prof e ps { topics := ws, data := emitData ps } hin hn ht hs hlt rfl
    (by rw [← hp.length_eq]; exact hk) hb
  rw [cliDecodeLog, he, Res.ok_bind, decodeLogOf, parseHashes_ok parseHash hp, Res.ok_bind, hld, Res.ok_bind, this, Res.ok_bind,
    join_eq_intercalate, List.map_map]
  congr 2
  refine List.map_congr_left fun p _ => ?_
  simp [lit]

/-- 64 hexadecimal digits, as `H256::from_str` reads them (an example of `parseHash`) -/
def plainHash (s : Str) : Res Word :=
  match hexDecode s with
  | .ok b => if h : b.length = 32 then .ok ⟨b, h⟩ else .err .other
  | _ => .err .other

example : cliDecodeLog prefixHash plainHash .debug (.arr overloads) (lit "e")
    [hexEncode (prefixHash (strBytes (lit "e(bool,string)"))).1, hexEncode (word 1)]
    (hexEncode (encodeArgs [.string (lit "hi")] [.string])) = .ok (lit "x true\ny hi") := by decide +kernel

end Ethabi.Props

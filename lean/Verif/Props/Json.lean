import Verif.Proofs.Contract
import Verif.Proofs.AbiJson
/-! # Properties C28–C32: ABI JSON and contracts -/
namespace Ethabi.Props
open Spec Schema

/-! ## C28 -/

/-- **C28.** JSON round trip of `Param`, inside a contract (`buffered`) or on its own (`direct`). Every size that
occurs in a Rust value is a 64-bit `usize` (`usizeOk`). -/
theorem C28_param (mode : Mode) (p : Param) (hu : p.kind.usizeOk = true) : deParam mode (serParam p) = .ok p :=
  deParam_serParam mode p hu

/-- **C28** for `EventParam`. -/
theorem C28_event_param (mode : Mode) (p : EventParam) (hu : p.kind.usizeOk = true) :
    deEventParam mode (serEventParam p) = .ok p := deEventParam_ser mode p hu

/-- **C28** for `TupleParam`. -/
theorem C28_tuple_param (mode : Mode) (p : TupleParam) (hu : p.kind.usizeOk = true) :
    deTupleParam mode (serTupleParam p) = .ok p := deTupleParam_ser mode p hu

/-- a parameter of type `((uint8,(bool)[])[3],string)[]`, which has no readable type string of its own (C24) -/
example : ParamType.usizeOk (.array (.tuple [.fixedArray (.tuple [.uint 8, .array (.tuple [.bool])]) 3, .string])) = true := by
  decide

/-- Names and internal types of tuple members are dropped: two different JSON texts give the same parameter. -/
theorem C28_member_names_dropped (mode : Mode) (n1 n2 : Str) :
    deParam mode (.obj [(lit "name", .str (lit "p")), (lit "type", .str (lit "tuple")),
      (lit "components", .arr [.obj [(lit "name", .str n1), (lit "type", .str (lit "bool"))]])]) =
    .ok { name := lit "p", kind := .tuple [.bool], internalType := none } ∧
    deParam mode (.obj [(lit "name", .str (lit "p")), (lit "type", .str (lit "tuple")),
      (lit "components", .arr [.obj [(lit "name", .str n2), (lit "type", .str (lit "bool"))]])]) =
    .ok { name := lit "p", kind := .tuple [.bool], internalType := none } := by
  have h1 : deKind (.str (lit "tuple")) = .ok (.tuple []) := by decide +kernel
  have h2 : deKind (.str (lit "bool")) = .ok .bool := by decide +kernel
  have e1 : lit "type" ≠ lit "name" := by decide
  have e2 : lit "components" ≠ lit "name" := by decide
  have e3 : lit "components" ≠ lit "type" := by decide
  have e4 : lit "components" ≠ lit "internalType" := by decide
  constructor <;>
    simp [deParam, deParamFields, deComponents, deTupleParams, deTupleParam, deTupleFields, deString, e1, e2, e3, e4, h1, h2,
      required, setTupleComponents, innerTuple, extendInner, finishTupleParam]

/-! ## C29 -/

/-- `a` and `b` are equal as Rust values: same constructor and flags, and maps with the same entries -/
def SameContract (a b : Contract) : Prop :=
  a.constructor = b.constructor ∧ a.receive = b.receive ∧ a.fallback = b.fallback ∧
  (∀ n, a.functionsByName n = b.functionsByName n) ∧ ∀ n, a.eventsByName n = b.eventsByName n

theorem sameContract_of {a b : Contract} (h1 : a.constructor = b.constructor) (h2 : a.receive = b.receive)
    (h3 : a.fallback = b.fallback) (h4 : ∀ n, getEntry n a.functions = getEntry n b.functions)
    (h5 : ∀ n, getEntry n a.events = getEntry n b.events) : SameContract a b := by
  refine ⟨h1, h2, h3, fun n => ?_, fun n => ?_⟩
  · unfold Contract.functionsByName; rw [h4]
  · unfold Contract.eventsByName; rw [h5]

/-- **C29.** Any loaded contract, serialised with its maps iterated in any order, loads again to an equal contract. -/
theorem C29_contract_round_trip (j : Json) (c : Contract) (h : deContract j = .ok c)
    (fs : List (Str × List Function)) (es : List (Str × List Event)) (hf : fs.Perm c.functions) (he : es.Perm c.events) :
    ∃ c', deContract (serContract { c with functions := fs, events := es }) = .ok c' ∧ SameContract c' c := by
  have hc := deContract_ok h
  obtain ⟨c', h0, h1, h2, h3, h4, h5⟩ := deContract_ser (contractOk_perm hc hf.symm he.symm)
  refine ⟨c', h0, sameContract_of h1 h2 h3 (fun n => ?_) (fun n => ?_)⟩
  · rw [h4]; exact getEntry_perm hc.functions.keys hf.symm
  · rw [h5]; exact getEntry_perm hc.events.keys he.symm

/-- **C29** for contracts built by hand: distinct keys, every function/event listed under its name, no empty lists,
names without '(' (C32). -/
theorem C29_built (c : Contract) (fk : (c.functions.map (·.1)).Nodup) (ek : (c.events.map (·.1)).Nodup)
    (fn : ∀ e ∈ c.functions, e.2 ≠ [] ∧ '(' ∉ e.1 ∧ ∀ f ∈ e.2, f.name = e.1)
    (en : ∀ e ∈ c.events, e.2 ≠ [] ∧ '(' ∉ e.1 ∧ ∀ f ∈ e.2, f.name = e.1)
    (fu : ∀ f ∈ c.allFunctions, ∀ p ∈ f.inputs ++ f.outputs, p.kind.usizeOk = true)
    (eu : ∀ e ∈ c.allEvents, ∀ p ∈ e.inputs, p.kind.usizeOk = true)
    (cu : ∀ k, c.constructor = some k → ∀ p ∈ k.inputs, p.kind.usizeOk = true) :
    ∃ c', deContract (serContract c) = .ok c' ∧ SameContract c' c := by
  have hc : ContractOk c := by
    refine ⟨⟨fk, fun e he => (fn e he).1, fun e he => (fn e he).2.2⟩, ⟨ek, fun e he => (en e he).1,
      fun e he => (en e he).2.2⟩, ?_, ?_, cu⟩
    · intro f hf
      obtain ⟨e, he, hfe⟩ := List.mem_flatMap.1 hf
      refine ⟨?_, fun p hp => fu f hf p (List.mem_append_left _ hp), fun p hp => fu f hf p (List.mem_append_right _ hp)⟩
      rw [(fn e he).2.2 f hfe]; exact (fn e he).2.1
    · intro f hf
      obtain ⟨e, he, hfe⟩ := List.mem_flatMap.1 hf
      refine ⟨?_, eu f hf⟩
      rw [(en e he).2.2 f hfe]; exact (en e he).2.1
  obtain ⟨c', h0, h1, h2, h3, h4, h5⟩ := deContract_ser hc
  exact ⟨c', h0, sameContract_of h1 h2 h3 h4 h5⟩

/-- equality in this sense also fixes the single lookups -/
theorem C29_same_lookup (a b : Contract) (h : SameContract a b) (n : Str) :
    a.function n = b.function n ∧ a.event n = b.event n := by
  obtain ⟨_, _, _, h4, h5⟩ := h
  have h4 := h4 n
  have h5 := h5 n
  unfold Contract.functionsByName at h4
  unfold Contract.eventsByName at h5
  unfold Contract.function Contract.event
  constructor
  · revert h4; cases getEntry n a.functions <;> cases getEntry n b.functions <;> (simp; try (rintro rfl; rfl))
  · revert h5; cases getEntry n a.events <;> cases getEntry n b.events <;> (simp; try (rintro rfl; rfl))

/-! ## C30 -/

/-- the functions named `n` among the operations, in declaration order -/
def declaredFunctions (n : Str) (ops : List Operation) : List Function :=
  ops.filterMap fun | .function f => if f.name = n then some f else none | _ => none
/-- the events named `n` among the operations, in declaration order -/
def declaredEvents (n : Str) (ops : List Operation) : List Event :=
  ops.filterMap fun | .event f => if f.name = n then some f else none | _ => none

theorem declaredFunctions_eq (n : Str) (ops : List Operation) :
    (opFunctions ops).filter (fun f => decide (f.name = n)) = declaredFunctions n ops := by
  unfold opFunctions declaredFunctions
  rw [List.filter_filterMap]
  congr 1
  funext op
  cases op <;> simp [Option.filter]

theorem declaredEvents_eq (n : Str) (ops : List Operation) :
    (opEvents ops).filter (fun f => decide (f.name = n)) = declaredEvents n ops := by
  unfold opEvents declaredEvents
  rw [List.filter_filterMap]
  congr 1
  funext op
  cases op <;> simp [Option.filter]

/-- a JSON array loads exactly when all its entries are operations -/
theorem C30_loads (js : List Json) :
    (∃ c, deContract (.arr js) = .ok c) ↔ ∃ ops, List.Forall₂ (fun j op => deOperation j = .ok op) js ops := by
  rw [deContract_eq]
  simp only [Res.bind_eq_ok, Res.ok.injEq, deVec_ok]
  constructor
  · rintro ⟨c, ops, h, _⟩; exact ⟨ops, h⟩
  · rintro ⟨ops, h⟩; exact ⟨_, ops, h, rfl⟩

/-- **C30.** What a loaded contract answers, in terms of the operations read, in order. -/
theorem C30_lookup (js : List Json) (ops : List Operation) (h : List.Forall₂ (fun j op => deOperation j = .ok op) js ops) :
    ∃ c, deContract (.arr js) = .ok c ∧
      (∀ n, c.functionsByName n = match declaredFunctions n ops with | [] => .err (.invalidName n) | l => .ok l) ∧
      (∀ n, c.eventsByName n = match declaredEvents n ops with | [] => .err (.invalidName n) | l => .ok l) ∧
      (∀ n, c.function n = match declaredFunctions n ops with | [] => .err (.invalidName n) | f :: _ => .ok f) ∧
      (∀ n, c.event n = match declaredEvents n ops with | [] => .err (.invalidName n) | e :: _ => .ok e) := by
  have hv := deVec_ok.2 h
  refine ⟨ops.foldl Contract.add {}, by rw [deContract_eq, hv]; rfl, ?_⟩
  have hf : ∀ n, getEntry n (ops.foldl Contract.add {}).functions = nonEmpty (declaredFunctions n ops) := by
    intro n; rw [addAll_eq]
    have := getEntry_pushAll Function.name n (opFunctions ops) [] (mapOk_nil _)
    rw [declaredFunctions_eq] at this
    exact this
  have he : ∀ n, getEntry n (ops.foldl Contract.add {}).events = nonEmpty (declaredEvents n ops) := by
    intro n; rw [addAll_eq]
    have := getEntry_pushAll Event.name n (opEvents ops) [] (mapOk_nil _)
    rw [declaredEvents_eq] at this
    exact this
  refine ⟨?_, ?_, ?_, ?_⟩ <;> intro n
  · unfold Contract.functionsByName; rw [hf]; cases declaredFunctions n ops <;> rfl
  · unfold Contract.eventsByName; rw [he]; cases declaredEvents n ops <;> rfl
  · unfold Contract.function; rw [hf]; cases declaredFunctions n ops <;> rfl
  · unfold Contract.event; rw [he]; cases declaredEvents n ops <;> rfl

/-- **C30.** The constructor is the last one declared, and the flags say whether there is a `receive`/`fallback`. -/
theorem C30_constructor_flags (js : List Json) (ops : List Operation)
    (h : List.Forall₂ (fun j op => deOperation j = .ok op) js ops) :
    ∃ c, deContract (.arr js) = .ok c ∧
      (c.receive = true ↔ Operation.receive ∈ ops) ∧ (c.fallback = true ↔ Operation.fallback ∈ ops) ∧
      (c.constructor = none ↔ ∀ k, Operation.constructor k ∉ ops) ∧
      (∀ k, c.constructor = some k ↔ ∃ before after, ops = before ++ .constructor k :: after ∧
        ∀ k', Operation.constructor k' ∉ after) := by
  have hv := deVec_ok.2 h
  refine ⟨ops.foldl Contract.add {}, by rw [deContract_eq, hv]; rfl, ?_⟩
  clear hv h
  rw [addAll_eq]
  simp only [Bool.false_or, List.any_eq_true, Option.or_none]
  refine ⟨⟨?_, fun h => ⟨_, h, rfl⟩⟩, ⟨?_, fun h => ⟨_, h, rfl⟩⟩, ?_, ?_⟩
  · rintro ⟨op, h, e⟩; cases op <;> first | exact h | cases e
  · rintro ⟨op, h, e⟩; cases op <;> first | exact h | cases e
  · rw [List.getLast?_eq_none_iff, opConstructors, List.filterMap_eq_nil_iff]
    constructor
    · intro h k hk; cases h _ hk
    · intro h op hop; cases op <;> first | rfl | exact absurd hop (h _)
  · intro k
    have hnil : ∀ l : List Operation, opConstructors l = [] ↔ ∀ k', Operation.constructor k' ∉ l := by
      intro l
      rw [opConstructors, List.filterMap_eq_nil_iff]
      constructor
      · intro h k hk; cases h _ hk
      · intro h op hop; cases op <;> first | rfl | exact absurd hop (h _)
    constructor
    · intro hk
      induction ops with
      | nil => cases hk
      | cons op ops ih =>
        by_cases h0 : opConstructors ops = []
        · cases op with
          | constructor k' =>
            have : opConstructors (.constructor k' :: ops) = [k'] := by
              have : opConstructors (.constructor k' :: ops) = k' :: opConstructors ops := rfl
              rw [this, h0]
            rw [this] at hk
            cases hk
            exact ⟨[], ops, rfl, (hnil ops).1 h0⟩
          | _ => rw [show opConstructors (_ :: ops) = opConstructors ops from rfl, h0] at hk; cases hk
        · have : (opConstructors ops).getLast? = some k := by
            cases op with
            | constructor k' =>
              rw [show opConstructors (.constructor k' :: ops) = k' :: opConstructors ops from rfl,
                List.getLast?_cons_of_ne_nil h0] at hk
              exact hk
            | _ => exact hk
          obtain ⟨b, a, e, h1⟩ := ih this
          exact ⟨op :: b, a, by rw [e]; rfl, h1⟩
    · rintro ⟨b, a, rfl, h1⟩
      have : opConstructors (b ++ .constructor k :: a) = opConstructors b ++ k :: opConstructors a := by
        unfold opConstructors; rw [List.filterMap_append]; rfl
      rw [this, (hnil a).2 h1]
      simp

/-- a contract with two overloads of `f(`…, two constructors and a fallback -/
def sampleJson : Json := .arr [
  .obj [(lit "type", .str (lit "constructor")), (lit "inputs", .arr [])],
  .obj [(lit "type", .str (lit "function")), (lit "name", .str (lit "f(bool)")), (lit "inputs", .arr []), (lit "outputs", .arr [])],
  .obj [(lit "name", .str (lit "g")), (lit "inputs", .arr []), (lit "type", .str (lit "event")), (lit "anonymous", .bool true)],
  .obj [(lit "type", .str (lit "constructor")),
    (lit "inputs", .arr [.obj [(lit "name", .str (lit "x")), (lit "type", .str (lit "bool")), (lit "unknown", .null)]])],
  .obj [(lit "type", .str (lit "function")), (lit "name", .str (lit "f")), (lit "inputs", .arr []), (lit "outputs", .arr []),
    (lit "constant", .bool true), (lit "stateMutability", .str (lit "view"))],
  .obj [(lit "type", .str (lit "fallback"))]]

/-- the hypotheses of C29–C32 are met by a concrete contract -/
example : deContract sampleJson = .ok
    { constructor := some { inputs := [{ name := lit "x", kind := .bool, internalType := none }] }
      functions := [(lit "f", [{ name := lit "f", inputs := [], outputs := [], constant := false, stateMutability := .nonPayable },
        { name := lit "f", inputs := [], outputs := [], constant := true, stateMutability := .view }])]
      events := [(lit "g", [{ name := lit "g", inputs := [], anonymous := true }])]
      receive := false
      fallback := true } := by decide +kernel

/-! ## C31 -/

/-- **C31.** `functions()` and `events()`, whatever order the maps are iterated in, list exactly the declared
functions/events, and those of one name in declaration order. -/
theorem C31_iterators (js : List Json) (ops : List Operation)
    (h : List.Forall₂ (fun j op => deOperation j = .ok op) js ops) :
    ∃ c, deContract (.arr js) = .ok c ∧
      ∀ (fs : List (Str × List Function)) (es : List (Str × List Event)), fs.Perm c.functions → es.Perm c.events →
        ({ c with functions := fs }.allFunctions.Perm (ops.filterMap fun | Operation.function f => some f | _ => none)) ∧
        ({ c with events := es }.allEvents.Perm (ops.filterMap fun | Operation.event e => some e | _ => none)) ∧
        (∀ n, { c with functions := fs }.allFunctions.filter (fun f => decide (f.name = n)) = declaredFunctions n ops) ∧
        (∀ n, { c with events := es }.allEvents.filter (fun e => decide (e.name = n)) = declaredEvents n ops) := by
  have hv := deVec_ok.2 h
  have hd : deContract (.arr js) = .ok (ops.foldl Contract.add {}) := by rw [deContract_eq, hv]; rfl
  refine ⟨_, hd, ?_⟩
  intro fs es hf he
  have hc := deContract_ok hd
  have mf := mapOk_perm _ hc.functions hf.symm
  have me := mapOk_perm _ hc.events he.symm
  rw [addAll_eq] at hf he
  refine ⟨?_, ?_, ?_, ?_⟩
  · refine (hf.flatMap_right _).trans ?_
    exact pushAll_flatten Function.name (opFunctions ops) []
  · refine (he.flatMap_right _).trans ?_
    exact pushAll_flatten Event.name (opEvents ops) []
  · intro n
    rw [Contract.allFunctions, flatten_filter _ mf,
      getEntry_perm (mapOk_pushAll _ _ (mapOk_nil _)).keys hf.symm,
      getEntry_pushAll Function.name n (opFunctions ops) [] (mapOk_nil _), declaredFunctions_eq, nonEmpty_getD]
    rfl
  · intro n
    rw [Contract.allEvents, flatten_filter _ me,
      getEntry_perm (mapOk_pushAll _ _ (mapOk_nil _)).keys he.symm,
      getEntry_pushAll Event.name n (opEvents ops) [] (mapOk_nil _), declaredEvents_eq, nonEmpty_getD]
    rfl

/-! ## C32 -/

/-- **C32.** Sanitising a name is cutting it at the first '('; it is idempotent. -/
theorem C32_sanitize (s : Str) : CutAtParen s (sanitizeName s) ∧ sanitizeName (sanitizeName s) = sanitizeName s :=
  ⟨cutAtParen_sanitize s, sanitize_id (sanitize_no_paren s)⟩

/-- the specification determines the result -/
theorem C32_unique (s p q : Str) (hp : CutAtParen s p) (hq : CutAtParen s q) : p = q := by
  have key : ∀ (s p : Str), CutAtParen s p → p = s.takeWhile (· != '(') := by
    rintro s p ⟨rest, rfl, h1, h2⟩
    have hall : ∀ a ∈ p, (a != '(') = true := by
      intro a ha
      simp only [bne_iff_ne, ne_eq]
      rintro rfl; exact h1 ha
    rw [List.takeWhile_append_of_pos hall]
    rcases h2 with rfl | ⟨r, rfl⟩ <;> simp
  rw [key s p hp, key s q hq]

theorem functionFields_name (mode : Mode) : ∀ (fs : List (Str × Json)) (st st' : OpSt),
    deFunctionFields mode fs st = .ok st' →
    st'.name = st.name ∨ ∃ s, (lit "name", Json.str s) ∈ fs ∧ st'.name = some (sanitizeName s)
  | [], st, st', he => by simp only [deFunctionFields, Res.ok.injEq] at he; left; rw [he]
  | (k, v) :: fs, st, st', he => by
      have ih := functionFields_name mode fs
      have lift : ∀ st1, deFunctionFields mode fs st1 = .ok st' → st1.name = st.name →
          st'.name = st.name ∨ ∃ s, (lit "name", Json.str s) ∈ (k, v) :: fs ∧ st'.name = some (sanitizeName s) := by
        intro st1 h1 h2
        rcases ih st1 st' h1 with h | ⟨s, h3, h4⟩
        · left; rw [h, h2]
        · right; exact ⟨s, List.mem_cons_of_mem _ h3, h4⟩
      simp only [deFunctionFields] at he
      split at he
      · rename_i hk
        split at he
        · cases he
        · simp only [deName, Res.bind_eq_ok, Res.ok.injEq] at he
          obtain ⟨x, ⟨y, hy, rfl⟩, he⟩ := he
          have hv : v = .str y := by cases v <;> cases hy; rfl
          right
          rcases ih _ _ he with h | ⟨s, h3, h4⟩
          · exact ⟨y, by rw [hk, hv]; simp, h⟩
          · exact ⟨s, List.mem_cons_of_mem _ h3, h4⟩
      · repeat' split at he
        all_goals first
          | cases he
          | (simp only [Res.bind_eq_ok] at he
             obtain ⟨x, hx, he⟩ := he
             exact lift _ he rfl)
          | exact lift _ he rfl

theorem eventFields_name (mode : Mode) : ∀ (fs : List (Str × Json)) (st st' : OpSt),
    deEventOpFields mode fs st = .ok st' →
    st'.name = st.name ∨ ∃ s, (lit "name", Json.str s) ∈ fs ∧ st'.name = some (sanitizeName s)
  | [], st, st', he => by simp only [deEventOpFields, Res.ok.injEq] at he; left; rw [he]
  | (k, v) :: fs, st, st', he => by
      have ih := eventFields_name mode fs
      have lift : ∀ st1, deEventOpFields mode fs st1 = .ok st' → st1.name = st.name →
          st'.name = st.name ∨ ∃ s, (lit "name", Json.str s) ∈ (k, v) :: fs ∧ st'.name = some (sanitizeName s) := by
        intro st1 h1 h2
        rcases ih st1 st' h1 with h | ⟨s, h3, h4⟩
        · left; rw [h, h2]
        · right; exact ⟨s, List.mem_cons_of_mem _ h3, h4⟩
      simp only [deEventOpFields] at he
      split at he
      · rename_i hk
        split at he
        · cases he
        · simp only [deName, Res.bind_eq_ok, Res.ok.injEq] at he
          obtain ⟨x, ⟨y, hy, rfl⟩, he⟩ := he
          have hv : v = .str y := by cases v <;> cases hy; rfl
          right
          rcases ih _ _ he with h | ⟨s, h3, h4⟩
          · exact ⟨y, by rw [hk, hv]; simp, h⟩
          · exact ⟨s, List.mem_cons_of_mem _ h3, h4⟩
      · repeat' split at he
        all_goals first
          | cases he
          | (simp only [Res.bind_eq_ok] at he
             obtain ⟨x, hx, he⟩ := he
             exact lift _ he rfl)
          | exact lift _ he rfl

/-- **C32.** The name of a deserialised function is the name in the JSON object, cut at the first '('. -/
theorem C32_function_name (mode : Mode) (fs : List (Str × Json)) (f : Function) (h : deFunction mode fs = .ok f) :
    ∃ s, (lit "name", Json.str s) ∈ fs ∧ CutAtParen s f.name := by
  simp only [deFunction, Res.bind_eq_ok, Res.ok.injEq] at h
  obtain ⟨st, h1, n, h2, _, _, _, _, rfl⟩ := h
  rcases functionFields_name mode fs {} st h1 with h | ⟨s, h3, h4⟩
  · rw [h] at h2; cases h2
  · rw [h4] at h2; cases h2; exact ⟨s, h3, cutAtParen_sanitize s⟩

/-- **C32** for events. -/
theorem C32_event_name (mode : Mode) (fs : List (Str × Json)) (e : Event) (h : deEvent mode fs = .ok e) :
    ∃ s, (lit "name", Json.str s) ∈ fs ∧ CutAtParen s e.name := by
  simp only [deEvent, Res.bind_eq_ok, Res.ok.injEq] at h
  obtain ⟨st, h1, n, h2, _, _, _, _, rfl⟩ := h
  rcases eventFields_name mode fs {} st h1 with h | ⟨s, h3, h4⟩
  · rw [h] at h2; cases h2
  · rw [h4] at h2; cases h2; exact ⟨s, h3, cutAtParen_sanitize s⟩

/-- **C32.** No function or event of a loaded contract has a '(' in its name. -/
theorem C32_loaded (j : Json) (c : Contract) (h : deContract j = .ok c) :
    (∀ f ∈ c.allFunctions, '(' ∉ f.name) ∧ (∀ e ∈ c.allEvents, '(' ∉ e.name) :=
  ⟨fun f hf => ((deContract_ok h).functionsOk f hf).1, fun e he => ((deContract_ok h).eventsOk e he).1⟩

end Ethabi.Props

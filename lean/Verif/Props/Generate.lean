import Verif.Proofs.GenerateStuck
import Verif.Proofs.GenerateTypes
import Verif.Props.Derive
/-!
# Properties of the code generator: C69, C70, C71, C72, C73

`generateContract` is the text that derive/src writes; `Spec/RustText.lean` says what such text does.
-/
namespace Ethabi.Props
open Spec

/-- names for the examples: converted to themselves, rejected when empty -/
def plainNaming : Naming where
  snake s := s
  camel s := s
  valid s := !s.isEmpty

/-! ## C69 when text is generated -/

/-- **C69.** Text is generated exactly for the contracts that satisfy `contractOk`: no tuple, every name an identifier, no
`bytesN` with N ≥ 2^32-1 among outputs and event parameters.  For the others the generator panics, which is a compile error;
it never returns an error. -/
theorem C69_generates (nm : Naming) (c : Contract) :
    (contractOk nm c = true → ∃ code, generateContract nm c = .ok code) ∧
    (contractOk nm c = false → generateContract nm c = .panic) := by
  rw [generateContract_eq]
  constructor
  · intro h; rw [if_pos h]; exact ⟨_, rfl⟩
  · intro h; rw [if_neg (by rw [h]; simp)]

/-- **C69**: every contract with a tuple in some function, event or in the constructor makes the generator panic. -/
theorem C69_tuples (nm : Naming) (c : Contract)
    (h : (∃ f ∈ c.allFunctions, ∃ p ∈ f.inputs ++ f.outputs, tupleFree p.kind = false) ∨
      (∃ e ∈ c.allEvents, ∃ p ∈ e.inputs, tupleFree p.kind = false) ∨
      (∃ k, c.constructor = some k ∧ ∃ p ∈ k.inputs, tupleFree p.kind = false)) : generateContract nm c = .panic := by
  refine (C69_generates nm c).2 ?_
  rw [Bool.eq_false_iff]
  intro hok
  rw [contractOk, Bool.and_eq_true, Bool.and_eq_true, List.all_eq_true, List.all_eq_true] at hok
  rcases h with ⟨f, hf, p, hp, ht⟩ | ⟨e, he, p, hp, ht⟩ | ⟨k, hk, p, hp, ht⟩
  · have := hok.1.2 f hf
    rw [functionOk, Bool.and_eq_true, Bool.and_eq_true, inputsOk_iff, all_and, Bool.and_eq_true, List.all_eq_true,
      List.all_eq_true] at this
    rcases List.mem_append.1 hp with hp | hp
    · exact absurd (this.1.1.1 p hp) (by rw [ht]; simp)
    · exact absurd (List.all_eq_true.1 this.1.2.1 p hp) (by rw [ht]; simp)
  · have := hok.2 e he
    rw [eventOk_iff, List.all_eq_true] at this
    exact absurd (this.1 p hp) (by rw [ht]; simp)
  · have := hok.1.1
    rw [hk] at this
    simp only [inputsOk_iff, List.all_eq_true] at this
    exact absurd (this.1 p hp) (by rw [ht]; simp)

example : contractOk plainNaming { functions := [(lit "f", [⟨lit "f", [⟨[], .array (.uint 256), none⟩], [⟨[], .bool, none⟩], false, .view⟩])] } = true := by
  decide
example : generateContract plainNaming { functions := [(lit "f", [⟨lit "f", [⟨[], .tuple [.bool], none⟩], [], false, .view⟩])] } = .panic :=
  C69_tuples _ _ (.inl ⟨_, List.mem_singleton.2 rfl, ⟨[], .tuple [.bool], none⟩, by simp, by decide⟩)

/-! ## C70 functions -/

/-- **C70.** The text generated for a function is that of a module which recreates the declaration, encodes calls and decodes
results as `Model/Derive.lean` says; when a name of a parameter is a keyword, used twice, `f` or `function`, its `encode_input`
and `call` are not valid Rust. -/
theorem C70_function (nm : Naming) (f : Function) (code : Code) (h : generateFunction nm f = .ok code) :
    ∃ m : FunctionModule, code = m.code ∧ m.Implements nm f := by
  rw [generateFunction_eq] at h
  split at h
  · next hok => exact ⟨_, (Res.ok.inj h).symm, functionModule_implements nm f hok⟩
  · exact absurd h (by simp)

/-- **C70**, constructors. -/
theorem C70_constructor (nm : Naming) (c : Constructor) (code : Code) (h : generateConstructor nm c = .ok code) :
    ∃ m : ConstructorItem, code = m.code ∧ m.Implements nm c := by
  rw [generateConstructor_eq] at h
  split at h
  · next hok => exact ⟨_, (Res.ok.inj h).symm, constructorItem_implements nm c hok⟩
  · exact absurd h (by simp)

/-- **C70**, down to the ABI specification: for Solidity types the text of `encode_input` computes selector and encoding,
below 4 GiB. -/
theorem C70_encodes (nm : Naming) (f : Function) (code : Code) (h : generateFunction nm f = .ok code)
    (hc : callable nm f = true) (hs : solidityAll (f.inputs.map (·.kind)) = true) :
    ∃ m : FunctionModule, code = m.code ∧ ∀ hash prof (args : RustArgs (f.inputs.map (·.kind))),
      (encodeArgs (toTokens (f.inputs.map (·.kind)) args) (f.inputs.map (·.kind))).length < 2 ^ 32 →
      m.runEncodeInput hash prof (hostVals _ args) = .ok (.bytes
        ((hash ((signature (String.ofList f.name) (f.inputs.map (·.kind))).toList.flatMap String.utf8EncodeChar)).1.take 4 ++
          encodeArgs (toTokens (f.inputs.map (·.kind)) args) (f.inputs.map (·.kind)))) := by
  obtain ⟨m, hcode, hm⟩ := C70_function nm f code h
  refine ⟨m, hcode, fun hash prof args hb => ?_⟩
  rw [hm.encode, if_pos hc, C55_encode_input_partial hash prof f args hs hb]; rfl

/-- **C70**: the text of `decode_output` returns what the library's `decode_output` returns, value by value, and does not
panic. -/
theorem C70_decodes (nm : Naming) (f : Function) (code : Code) (h : generateFunction nm f = .ok code)
    (hg : ∀ p ∈ f.outputs, generated p.kind = true) (hu : ParamType.usizeOkAll (f.outputs.map (·.kind)) = true)
    (ho : f.outputs ≠ []) :
    ∃ m : FunctionModule, code = m.code ∧ ∀ hash prof data, data.length < 2 ^ 63 →
      (∀ e, f.decodeOutput prof data = .err e → m.runDecodeOutput hash prof data = .ok (.errv e)) ∧
      (∀ toks, f.decodeOutput prof data = .ok toks →
        ∃ as, m.runDecodeOutput hash prof data = .ok (.okv (outputVal _ as)) ∧ toTokens (f.outputs.map (·.kind)) as = toks) := by
  obtain ⟨m, hcode, hm⟩ := C70_function nm f code h
  refine ⟨m, hcode, fun hash prof data hd => ?_⟩
  have := (C54_decode_output prof f data hg hu hd).2 ho
  rw [(hm.decode hg hash prof data).2]
  refine ⟨fun e he => by rw [this.1 e he]; rfl, fun toks ht => ?_⟩
  obtain ⟨as, h1, h2⟩ := this.2 toks ht
  exact ⟨as, by rw [h1]; rfl, h2⟩

/-- A parameter named `f`: text is generated, but its `encode_input` is not valid Rust. -/
theorem C70_counterexample_f :
    ∃ m : FunctionModule, generateFunction plainNaming ⟨lit "g", [⟨lit "f", .bool, none⟩], [], false, .view⟩ = .ok m.code ∧
      ∀ hash prof (b : Bool), m.runEncodeInput hash prof [.bool b] = .stuck := by
  obtain ⟨code, h⟩ : ∃ code, generateFunction plainNaming ⟨lit "g", [⟨lit "f", .bool, none⟩], [], false, .view⟩ = .ok code := by
    rw [generateFunction_eq, if_pos (by decide)]; exact ⟨_, rfl⟩
  obtain ⟨m, hcode, hm⟩ := C70_function _ _ _ h
  refine ⟨m, hcode ▸ h, fun hash prof b => ?_⟩
  exact (hm.encode hash prof (b, ())).trans (if_neg (by decide))

/-- `["param1", ""]`: the generated name of the second parameter is that of the first. -/
theorem C70_counterexample_numbered :
    callable plainNaming ⟨lit "g", [⟨lit "param1", .bool, none⟩, ⟨[], .bool, none⟩], [], false, .view⟩ = false ∧
    functionOk plainNaming ⟨lit "g", [⟨lit "param1", .bool, none⟩, ⟨[], .bool, none⟩], [], false, .view⟩ = true := by decide

/-- a constructor with a parameter named `c` or `code` -/
theorem C70_counterexample_constructor :
    constructible plainNaming ⟨[⟨lit "c", .bool, none⟩]⟩ = false ∧ constructible plainNaming ⟨[⟨lit "code", .bool, none⟩]⟩ = false ∧
    inputsOk plainNaming [⟨lit "c", .bool, none⟩, ⟨lit "code", .bool, none⟩] = true := by decide

/-- A parameter named like a keyword. -/
theorem C70_counterexample_keyword :
    callable plainNaming ⟨lit "g", [⟨lit "move", .bool, none⟩], [], false, .view⟩ = false ∧
    functionOk plainNaming ⟨lit "g", [⟨lit "move", .bool, none⟩], [], false, .view⟩ = true := by decide

example : ∃ m : FunctionModule,
    generateFunction plainNaming ⟨lit "g", [⟨lit "a", .array .bool, none⟩, ⟨[], .uint 8, none⟩], [], false, .view⟩ = .ok m.code ∧
      m.Implements plainNaming ⟨lit "g", [⟨lit "a", .array .bool, none⟩, ⟨[], .uint 8, none⟩], [], false, .view⟩ ∧
      callable plainNaming ⟨lit "g", [⟨lit "a", .array .bool, none⟩, ⟨[], .uint 8, none⟩], [], false, .view⟩ = true := by
  obtain ⟨code, h⟩ : ∃ code, generateFunction plainNaming
      ⟨lit "g", [⟨lit "a", .array .bool, none⟩, ⟨[], .uint 8, none⟩], [], false, .view⟩ = .ok code := by
    rw [generateFunction_eq, if_pos (by decide)]; exact ⟨_, rfl⟩
  obtain ⟨m, hcode, hm⟩ := C70_function _ _ _ h
  exact ⟨m, hcode ▸ h, hm, by decide⟩

/-! ## C71 events -/

/-- **C71.** The text generated for an event is that of a module which recreates the declaration under its camel-cased name, and
filters and parses logs as `Model/Derive.lean` says; `filter` is not valid Rust when an indexed parameter is a keyword, occurs
twice or is named `event`. -/
theorem C71_event (nm : Naming) (e : Event) (code : Code) (h : generateEvent nm e = .ok code) :
    ∃ m : EventModule, code = m.code ∧ m.Implements nm e := by
  rw [generateEvent_eq] at h
  split at h
  · next hok => exact ⟨_, (Res.ok.inj h).symm, eventModule_implements nm e hok⟩
  · exact absurd h (by simp)

/-- **C71**, down to the specification of logs: the text of `parse_log` reads what a contract emits. -/
theorem C71_parses (nm : Naming) (e : Event) (code : Code) (h : generateEvent nm e = .ok code) (hc : nm.camel e.name = e.name)
    (hf : namesOk (fieldNames nm 0 e.inputs) = true) :
    ∃ m : EventModule, code = m.code ∧ ∀ hash prof (ps : List Emitted) (log : RawLog),
      e.inputs = ps.map (fun p => { name := p.name, kind := p.kind, indexed := p.indexed }) →
      (∀ p ∈ ps, generated p.kind = true) → (∀ p ∈ ps, p.indexed = true → valueType p.kind = true) → (ps.map (·.name)).Nodup →
      (∀ p ∈ ps, hasType p.value p.kind = true) → (∀ p ∈ ps, solidity p.kind = true) →
      log.topics.map (·.1) = emitTopics hash e.name e.anonymous ps → log.data = emitData ps →
      log.topics.length < 2 ^ 27 → log.data.length < 2 ^ 32 →
      ∃ as, m.runParseLog hash prof log =
          .ok (.okv (.struct (nm.camel e.name) (fieldNames nm 0 e.inputs) (hostVals (e.inputs.map (·.kind)) as))) ∧
        toTokens (e.inputs.map (·.kind)) as = ps.map (·.value) := by
  obtain ⟨m, hcode, hm⟩ := C71_event nm e code h
  refine ⟨m, hcode, fun hash prof ps log hin hg hv hn ht hs hlt hld hk hb => ?_⟩
  obtain ⟨as, h1, h2⟩ := C54_parse_emitted nm.camel hash prof e ps log hc hin hg hv hn ht hs hlt hld hk hb
  refine ⟨as, ?_, h2⟩
  have hg' : ∀ p ∈ e.inputs, generated p.kind = true := by
    intro p hp
    rw [hin] at hp
    obtain ⟨q, hq, rfl⟩ := List.mem_map.1 hp
    exact hg q hq
  rw [hm.parse hg' hf hash prof log, h1]; rfl

/-- an indexed parameter named `event` -/
theorem C71_counterexample_event :
    filterable plainNaming ⟨lit "E", [⟨lit "event", .bool, true⟩], false⟩ = false ∧
    filterable plainNaming ⟨lit "E", [⟨lit "event", .bool, false⟩], false⟩ = true ∧
    eventOk plainNaming ⟨lit "E", [⟨lit "event", .bool, true⟩], false⟩ = true := by decide

example : ∃ m : EventModule, generateEvent plainNaming ⟨lit "E", [⟨lit "a", .bool, true⟩, ⟨[], .string, false⟩], false⟩ = .ok m.code ∧
    m.Implements plainNaming ⟨lit "E", [⟨lit "a", .bool, true⟩, ⟨[], .string, false⟩], false⟩ ∧
    filterable plainNaming ⟨lit "E", [⟨lit "a", .bool, true⟩, ⟨[], .string, false⟩], false⟩ = true ∧
    namesOk (fieldNames plainNaming 0 [⟨lit "a", .bool, true⟩, ⟨[], .string, false⟩]) = true := by
  obtain ⟨code, h⟩ : ∃ code, generateEvent plainNaming ⟨lit "E", [⟨lit "a", .bool, true⟩, ⟨[], .string, false⟩], false⟩ = .ok code := by
    rw [generateEvent_eq, if_pos (by decide)]; exact ⟨_, rfl⟩
  obtain ⟨m, hcode, hm⟩ := C71_event _ _ _ h
  exact ⟨m, hcode ▸ h, hm, by decide, by decide⟩

/-! ## C72 types -/

/-- **C72.** The text of a type is that of a Rust type exactly when the type contains no `T[k]` (`rtype`); for the others
`[T, k]` is written, which is no Rust type. -/
theorem C72_type (t : ParamType) (ht : tupleFree t = true) :
    (∀ r, rtype t = some r → rustType t = .ok r.code) ∧
    (rtype t = none → ∃ c, rustType t = .ok c ∧ ∀ r : RType, c ≠ r.code) := by
  rw [rustType_eq, if_pos ht]
  refine ⟨fun r hr => by rw [typeCode_some t r hr], fun hn => ⟨_, rfl, fun r h => ?_⟩⟩
  have := typeCode_none t ht hn
  rw [h, rtype_commas] at this
  omega

/-- **C72**, the bounds of the generic parameters: also `T[k]` has one, unless `T` contains another `T'[k]`. -/
theorem C72_bound (i : Nat) (t : ParamType) (ht : tupleFree t = true) :
    (∀ g, generic i t = some g → templateParamType t i = .ok g.code) ∧
    (generic i t = none → ∃ c, templateParamType t i = .ok c ∧ ∀ g : Generic, c ≠ g.code) := by
  refine ⟨fun g hg => templateParamType_some i t g hg, fun hn => ?_⟩
  obtain ⟨c, h1, h2⟩ := templateParamType_none i t ht hn
  refine ⟨c, h1, fun g hg => ?_⟩
  have := generic_commas g
  rw [← hg] at this
  omega

theorem rtype_isSome : ∀ (t : ParamType), generated t = true → (rtype t).isSome = true
  | .address, _ => rfl
  | .bytes, _ => rfl
  | .int _, _ => rfl
  | .uint _, _ => rfl
  | .bool, _ => rfl
  | .string, _ => rfl
  | .fixedBytes _, _ => rfl
  | .array t, h => by rw [rtype, Option.isSome_map]; exact rtype_isSome t h
  | .fixedArray _ _, h => by simp [generated] at h
  | .tuple _, h => by simp [generated] at h

/-- **C72**: the types for which C54 and C55 are stated are those with a Rust type. -/
theorem C72_generated (t : ParamType) :
    (generated t = true → ∃ r, rtype t = some r) ∧ (∀ i, generatedInput t = true → ∃ g, generic i t = some g) := by
  refine ⟨fun h => Option.isSome_iff_exists.1 (rtype_isSome t h), fun i h => Option.isSome_iff_exists.1 ?_⟩
  cases t with
  | array t => rw [generic, Option.isSome_map]; exact rtype_isSome t h
  | fixedArray t n => rw [generic, Option.isSome_map]; exact rtype_isSome t h
  | tuple _ => simp [generatedInput, generated] at h
  | _ => rfl

example : rtype (.array (.fixedBytes 4)) = some (.vec (.byteArray 4)) ∧ rtype (.array (.fixedArray .bool 2)) = none ∧
    tupleFree (.array (.fixedArray .bool 2)) = true ∧ (generic 0 (.fixedArray .bool 2)).isSome = true ∧
    generic 0 (.fixedArray (.fixedArray .bool 2) 3) = none := ⟨rfl, rfl, rfl, rfl, rfl⟩

/-! ## C73 contracts -/

theorem each_map {α β : Type} {R : β → α → Prop} (g : α → β) : ∀ (l : List α), (∀ a ∈ l, R (g a) a) → Each R (l.map g) l
  | [], _ => trivial
  | a :: l, h => ⟨h a (by simp), each_map g l fun b hb => h b (by simp [hb])⟩

theorem map_of_each {α β γ : Type} {R : β → α → Prop} {g : β → γ} {k : α → γ} (hR : ∀ b a, R b a → g b = k a) :
    ∀ {m : List β} {l : List α}, Each R m l → m.map g = l.map k
  | [], [], _ => rfl
  | [], _ :: _, h => h.elim
  | _ :: _, [], h => h.elim
  | b :: m, a :: l, ⟨h, hs⟩ => by rw [List.map_cons, List.map_cons, hR b a h, map_of_each hR hs]

theorem types_of_rtypes : ∀ (ts : List ParamType) (rs : List RType), ts.map rtype = rs.map some → ts.map typeCode = rs.map RType.code
  | [], [], _ => rfl
  | [], _ :: _, h => by simp at h
  | _ :: _, [], h => by simp at h
  | t :: ts, r :: rs, h => by
      simp only [List.map_cons, List.cons.injEq] at h
      rw [List.map_cons, List.map_cons, typeCode_some t r h.1, types_of_rtypes ts rs h.2]

theorem logStruct_implements (nm : Naming) (e : Event) : (logStruct nm e).Implements nm e where
  name := rfl
  fields := rfl
  types rs h := by
    have h1 : (e.inputs.map (·.kind)).map rtype = rs.map some := by rw [List.map_map]; exact h
    have := types_of_rtypes _ rs h1
    rw [List.map_map] at this
    exact this

/-- **C73.** The text for a contract consists of the items for its constructor, functions and events. -/
theorem C73_contract (nm : Naming) (c : Contract) (code : Code) (h : generateContract nm c = .ok code) :
    ∃ t : ContractText, code = t.code ∧ t.Implements nm c := by
  rw [generateContract_eq] at h
  split at h
  rotate_left
  · exact absurd h (by simp)
  next hok =>
  rw [contractOk, Bool.and_eq_true, Bool.and_eq_true, List.all_eq_true, List.all_eq_true] at hok
  refine ⟨contractText nm c, (Res.ok.inj h).symm, ?_, ?_, ?_, ?_⟩
  · have hk := hok.1.1
    show match c.constructor.map (constructorItem nm), c.constructor with
      | some m, some k => m.Implements nm k
      | none, none => True
      | _, _ => False
    rcases hc : c.constructor with _ | k
    · trivial
    · rw [hc] at hk
      exact constructorItem_implements nm k hk
  · exact each_map _ _ fun f hf => functionModule_implements nm f (hok.1.2 f hf)
  · exact each_map _ _ fun e he => eventModule_implements nm e (hok.2 e he)
  · exact each_map _ _ fun e _ => logStruct_implements nm e

/-- **C73**: two functions (or two events) of the contract with the same converted name give two modules of the same name, which
rustc rejects; otherwise the names are distinct. -/
theorem C73_distinct (nm : Naming) (c : Contract) (t : ContractText) (h : t.Implements nm c) :
    t.distinct = true ↔ (c.allFunctions.map fun f => nm.snake f.name).Nodup ∧ (c.allEvents.map fun e => nm.snake e.name).Nodup ∧
      (c.allEvents.map fun e => nm.camel e.name).Nodup := by
  have h1 := map_of_each (g := FunctionModule.name) (k := fun f : Function => nm.snake f.name) (fun _ _ h => h.name) h.functions
  have h2 := map_of_each (g := EventModule.name) (k := fun f : Event => nm.snake f.name) (fun _ _ h => h.name) h.events
  have h3 := map_of_each (g := LogStruct.name) (k := fun f : Event => nm.camel f.name) (fun _ _ h => h.name) h.logs
  rw [ContractText.distinct, Bool.and_eq_true, Bool.and_eq_true, decide_eq_true_iff, decide_eq_true_iff, decide_eq_true_iff, h1, h2, h3,
    and_assoc]

/-- **C73**: so there is no valid text for a contract with an overloaded function. -/
theorem C73_overloads (nm : Naming) (c : Contract) (t : ContractText) (h : t.Implements nm c) (name : Str) (f g : Function)
    (fs : List Function) (hc : (name, f :: g :: fs) ∈ c.functions) (hn : f.name = g.name) : t.distinct = false := by
  rw [Bool.eq_false_iff]
  intro hd
  have hnd := ((C73_distinct nm c t h).1 hd).1
  rw [Contract.allFunctions, List.map_flatMap] at hnd
  obtain ⟨l, r, hlr⟩ := List.append_of_mem hc
  rw [hlr, List.flatMap_append, List.flatMap_cons, List.nodup_append, List.nodup_append] at hnd
  have := hnd.2.1.1
  simp [hn] at this

example : ∃ t : ContractText,
    generateContract plainNaming { functions := [(lit "a", [⟨lit "a", [], [], false, .view⟩, ⟨lit "a", [⟨[], .bool, none⟩], [], false, .view⟩])] } =
      .ok t.code ∧ t.distinct = false := by
  obtain ⟨code, h⟩ := (C69_generates plainNaming
    { functions := [(lit "a", [⟨lit "a", [], [], false, .view⟩, ⟨lit "a", [⟨[], .bool, none⟩], [], false, .view⟩])] }).1 (by decide)
  obtain ⟨t, hcode, ht⟩ := C73_contract _ _ _ h
  exact ⟨t, hcode ▸ h, C73_overloads _ _ t ht (lit "a") _ _ [] (List.mem_singleton.2 rfl) rfl⟩

end Ethabi.Props

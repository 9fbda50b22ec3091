import Verif.Proofs.GenerateText
import Mathlib.Tactic.Tauto
/-!
# Lemmas: when the generator succeeds and what it writes
-/
namespace Ethabi.Spec

theorem all_and {α : Type} (l : List α) (p r : α → Bool) : (l.all fun a => p a && r a) = (l.all p && l.all r) := by
  induction l with
  | nil => rfl
  | cons a l ih =>
      rw [List.all_cons, List.all_cons, List.all_cons, ih]
      cases p a <;> cases r a <;> cases l.all p <;> rfl

theorem inputsOk_iff (nm : Naming) (ps : List Param) : inputsOk nm ps = true ↔
    (ps.all fun p => tupleFree p.kind) = true ∧ (ps.all fun p => nameOk nm (inputIdent nm) p.name) = true := by
  rw [inputsOk, all_and, Bool.and_eq_true]

theorem all_kinds {α : Type} (kind : α → ParamType) (ps : List α) :
    (ps.map kind).all tupleFree = ps.all fun p => tupleFree (kind p) := by
  rw [List.all_map]; rfl

theorem decodeOutput_code (nm : Naming) (f : Function) : (functionModule nm f).decodeOutput.code =
    r! "ethabi :: FunctionOutputDecoder :: decode ( & Decoder ( function ( ) ) , output )" := rfl

theorem encodeInputBody_eq (ts : List Expr) : encodeInputBody (codes ts) = (encodeExpr ts).code := by
  simp [encodeInputBody, encodeExpr, vecCode, Expr.code, codes, commas, Method.code, Path.code, txt]
theorem callBody_eq (ts : List Expr) : callBody (codes ts) = (callExpr ts).code := by
  simp [callBody, callExpr, vecCode, Expr.code, codes, commas, Method.code, Path.code, txt]

theorem functionCode_eq (m : FunctionModule) (tokenize : List Code)
    (h1 : m.decodeOutput.code = r! "ethabi :: FunctionOutputDecoder :: decode ( & Decoder ( function ( ) ) , output )")
    (h2 : m.encodeInput.code = encodeInputBody tokenize) (h3 : m.call.code = callBody tokenize) :
    m.code = functionText m.name m.function.code m.output m.decode.code m.generics (paramCodes 0 m.params) tokenize := by
  unfold FunctionModule.code functionText
  rw [h1, h2, h3]

theorem functionModule_code (nm : Naming) (f : Function) : (functionModule nm f).code =
    functionText (nm.snake f.name) (declExpr f).code (outputCode (f.outputs.map (·.kind)))
      (decodeExpr (f.outputs.map (·.kind))).code (genericCodes 0 (f.inputs.map (·.kind))) (paramCodes 0 (inputNames nm 0 f.inputs))
      (codes (tokenExprs (inputNames nm 0 f.inputs) (f.inputs.map (·.kind)))) := by
  exact functionCode_eq (functionModule nm f) _ (decodeOutput_code nm f) (encodeInputBody_eq _).symm (callBody_eq _).symm

theorem generateFunction_eq (nm : Naming) (f : Function) :
    generateFunction nm f = if functionOk nm f = true then .ok (functionModule nm f).code else .panic := by
  have hnames := inputNamesFrom_eq nm 0 f.inputs
  have hresult := outputKinds_eq f.outputs
  have himpl := outputImplementation_eq f.outputs
  by_cases hi : (f.inputs.all fun p => nameOk nm (inputIdent nm) p.name) = true
  rotate_left
  · have : ¬ functionOk nm f = true := by
      rw [functionOk, Bool.and_eq_true, Bool.and_eq_true, inputsOk_iff]; tauto
    rw [if_neg this, generateFunction, hnames, if_neg hi]; rfl
  by_cases hk : (f.inputs.all fun p => tupleFree p.kind) = true
  rotate_left
  · have : ¬ functionOk nm f = true := by
      rw [functionOk, Bool.and_eq_true, Bool.and_eq_true, inputsOk_iff]; tauto
    rw [if_neg this, generateFunction, hnames, if_pos hi, Res.ok_bind, declarationsFrom_panic _ _ (by rw [all_kinds]; exact hk)]; rfl
  have hk' : (f.inputs.map (·.kind)).all tupleFree = true := by rw [all_kinds]; exact hk
  by_cases ho : (f.outputs.all fun p => tupleFree p.kind && indexable p.kind) = true
  rotate_left
  · have : ¬ functionOk nm f = true := by
      rw [functionOk, Bool.and_eq_true, Bool.and_eq_true]; tauto
    rw [if_neg this, generateFunction, hnames, if_pos hi, Res.ok_bind, declarationsFrom_eq _ _ hk', Res.ok_bind,
      tokenizeCode_eq _ _ hk', Res.ok_bind, hresult, himpl, if_neg ho]
    split <;> rfl
  have ho' := ho
  rw [all_and, Bool.and_eq_true] at ho'
  by_cases hm : nm.valid (nm.snake f.name) = true
  rotate_left
  · have : ¬ functionOk nm f = true := by
      rw [functionOk, Bool.and_eq_true, Bool.and_eq_true]; tauto
    rw [if_neg this, generateFunction, hnames, if_pos hi, Res.ok_bind, declarationsFrom_eq _ _ hk', Res.ok_bind,
      tokenizeCode_eq _ _ hk', Res.ok_bind, hresult, if_pos ho'.1, Res.ok_bind, himpl, if_pos ho, Res.ok_bind,
      functionExpr_eq f hk ho'.1, Res.ok_bind, ident_eq, if_neg hm]
    rfl
  have : functionOk nm f = true := by
    rw [functionOk, Bool.and_eq_true, Bool.and_eq_true, inputsOk_iff]; tauto
  rw [if_pos this, generateFunction, hnames, if_pos hi, Res.ok_bind, declarationsFrom_eq _ _ hk', Res.ok_bind,
    tokenizeCode_eq _ _ hk', Res.ok_bind, hresult, if_pos ho'.1, Res.ok_bind, himpl, if_pos ho, Res.ok_bind,
    functionExpr_eq f hk ho'.1, Res.ok_bind, ident_eq, if_pos hm, Res.ok_bind]
  rw [definitions_eq]
  exact congrArg Res.ok (functionModule_code nm f).symm

theorem generateConstructor_eq (nm : Naming) (c : Constructor) :
    generateConstructor nm c = if inputsOk nm c.inputs = true then .ok (constructorItem nm c).code else .panic := by
  have hnames := inputNamesFrom_eq nm 0 c.inputs
  by_cases hi : (c.inputs.all fun p => nameOk nm (inputIdent nm) p.name) = true
  rotate_left
  · have : ¬ inputsOk nm c.inputs = true := by rw [inputsOk_iff]; tauto
    rw [if_neg this, generateConstructor, hnames, if_neg hi]; rfl
  by_cases hk : (c.inputs.all fun p => tupleFree p.kind) = true
  rotate_left
  · have : ¬ inputsOk nm c.inputs = true := by rw [inputsOk_iff]; tauto
    rw [if_neg this, generateConstructor, hnames, if_pos hi, Res.ok_bind, declarationsFrom_panic _ _ (by rw [all_kinds]; exact hk)]; rfl
  have hk' : (c.inputs.map (·.kind)).all tupleFree = true := by rw [all_kinds]; exact hk
  have : inputsOk nm c.inputs = true := by rw [inputsOk_iff]; tauto
  rw [if_pos this, generateConstructor, hnames, if_pos hi, Res.ok_bind, declarationsFrom_eq _ _ hk', Res.ok_bind,
    tokenizeCode_eq _ _ hk', Res.ok_bind, toEthabiParamVec_eq, if_pos hk, Res.ok_bind]
  have e1 : constructorBody (Expr.vec (c.inputs.map paramExpr)).code (codes (tokenExprs (inputNames nm 0 c.inputs) (c.inputs.map (·.kind)))) =
      (constructorExpr c.inputs (tokenExprs (inputNames nm 0 c.inputs) (c.inputs.map (·.kind)))).code := by
    simp [constructorBody, constructorExpr, vecCode, Expr.code, codes, commas, Method.code, StructName.code, Tail.code, fieldCodes, txt]
  rw [e1, definitions_eq]
  simp [ConstructorItem.code, constructorItem, txt]

theorem logInit_eq : ∀ (ns : List Str) (cs : List Code), logInit ns cs = fieldCodes ns cs
  | [], _ => by simp [logInit, fieldCodes]
  | _ :: _, [] => rfl
  | n :: ns, c :: cs => by
      have := logInit_eq ns cs
      rw [logInit] at this
      rw [logInit, List.zipWith_cons_cons, this]; rfl

theorem filterBody_eq (ns : List Str) (ts : List ParamType) :
    filterBody ((fieldCodes (topicFields 0 (filterExprs ns ts).length) (codes (filterExprs ns ts))).map (· ++ r! ",")) =
      (filterExpr ns ts).code := by
  simp [filterBody, filterExpr, Expr.code, codes, commas, Method.code, StructName.code, Tail.code, Path.code, txt]

theorem parseLogBody_eq (name : Str) (ns : List Str) (ts : List ParamType) :
    parseLogBody name (logInit ns (ts.map fun t =>
        (fromExpr (.field (.method (.next (.var (lit "log"))) .expect []) (lit "value")) t).code)) =
      (parseLogExpr name ns ts).code := by
  rw [logInit_eq, ← codes_map]
  simp [parseLogBody, parseLogExpr, Expr.code, codes, commas, Method.code, StructName.code, Tail.code, Path.code, txt]

theorem eventExpr_eq (nm : Naming) (e : Event) :
    eventExpr nm e = if (e.inputs.all fun p => tupleFree p.kind) = true then .ok (eventDeclExpr nm e).code else .panic := by
  rw [eventExpr, mapRes_if e.inputs fun p _ => eventParamCode_eq p]
  by_cases ht : (e.inputs.all fun p => tupleFree p.kind) = true
  · rw [if_pos ht, if_pos ht, Res.ok_bind]
    have : codes (e.inputs.map eventParamExpr) = e.inputs.map fun p => (eventParamExpr p).code := codes_map _ _
    simp [eventDeclExpr, Expr.code, codes, this, vecCode, commas, Method.code, StructName.code, Tail.code, fieldCodes, txt]
  · rw [if_neg ht, if_neg ht]; rfl

theorem kindsOf_eq (ps : List EventParam) :
    kindsOf ps = if (ps.all fun p => tupleFree p.kind) = true then .ok (ps.map fun p => typeCode p.kind) else .panic :=
  mapRes_if ps fun p _ => rustType_eq p.kind

theorem all_of_sublist {α : Type} {p : α → Bool} {l m : List α} (h : List.Sublist l m) (hm : m.all p = true) : l.all p = true := by
  rw [List.all_eq_true] at *
  exact fun x hx => hm x (h.subset hx)

/-- the part of the conditions on an event that `Event::from` depends on -/
theorem eventOk_iff (nm : Naming) (e : Event) : eventOk nm e = true ↔
    (e.inputs.all fun p => tupleFree p.kind) = true ∧ (e.inputs.all fun p => indexable p.kind) = true ∧
      (e.inputs.all fun p => nameOk nm nm.snake p.name) = true ∧ nm.valid (nm.snake e.name) = true ∧
      nm.valid (nm.camel e.name) = true := by
  rw [eventOk, Bool.and_eq_true, Bool.and_eq_true, all_and, Bool.and_eq_true, all_and, Bool.and_eq_true]
  tauto

theorem eventCode_eq (m : EventModule) (wildcards : List Code)
    (h : m.wildcardFilter.code = r! "filter (" ++ commas wildcards ++ r! ")") :
    m.code = eventText m.name m.logName m.event.code m.filter.code m.parseLog.code m.generics (paramCodes 0 m.params) wildcards := by
  unfold EventModule.code eventText
  rw [h]

theorem eventModule_code (nm : Naming) (e : Event) : (eventModule nm e).code =
    eventText (nm.snake e.name) (nm.camel e.name) (eventDeclExpr nm e).code
      (filterExpr ((topicNames nm e).take 3) ((topicKinds e).take 3)).code
      (parseLogExpr (nm.camel e.name) (fieldNames nm 0 e.inputs) (e.inputs.map (·.kind))).code (topicGenerics 0 (topicKinds e))
      (paramCodes 0 (topicNames nm e)) ((topicNames nm e).map fun _ => r! "ethabi :: Topic :: Any") := by
  have e3 : codes ((topicNames nm e).map fun _ => Expr.const .topicAny) = (topicNames nm e).map fun _ => r! "ethabi :: Topic :: Any" :=
    codes_map _ _
  have e4 : (eventModule nm e).wildcardFilter.code = r! "filter (" ++
      commas ((topicNames nm e).map fun _ => r! "ethabi :: Topic :: Any") ++ r! ")" := by
    rw [← e3]; simp [eventModule, Expr.code, Path.code, txt]
  exact eventCode_eq (eventModule nm e) _ e4

theorem generateEvent_eq (nm : Naming) (e : Event) :
    generateEvent nm e = if eventOk nm e = true then .ok (eventModule nm e).code else .panic := by
  have hnames := eventNamesFrom_eq nm 0 e.inputs
  by_cases hi : (e.inputs.all fun p => nameOk nm nm.snake p.name) = true
  rotate_left
  · have : ¬ eventOk nm e = true := by rw [eventOk_iff]; tauto
    rw [if_neg this, generateEvent, hnames, if_neg hi]; rfl
  have hlog : mapRes (fun (p : EventParam) => fromTokenCode (r! "log . next ( ) . expect ( INTERNAL_ERR ) . value") p.kind) e.inputs =
      if (e.inputs.all fun p => tupleFree p.kind && indexable p.kind) = true
      then .ok (e.inputs.map fun p => (fromExpr (.field (.method (.next (.var (lit "log"))) .expect []) (lit "value")) p.kind).code)
      else .panic :=
    mapRes_if e.inputs fun p _ => fromTokenCode_eq p.kind (.field (.method (.next (.var (lit "log"))) .expect []) (lit "value"))
  by_cases hk : (e.inputs.all fun p => tupleFree p.kind && indexable p.kind) = true
  rotate_left
  · have : ¬ eventOk nm e = true := by
      rw [all_and, Bool.and_eq_true] at hk
      rw [eventOk_iff]; tauto
    rw [if_neg this, generateEvent, hnames, if_pos hi, Res.ok_bind, hlog, if_neg hk]; rfl
  have hk2 := hk
  rw [all_and, Bool.and_eq_true] at hk2
  have hf : ((e.inputs.filter (·.indexed)).all fun p => tupleFree p.kind) = true :=
    all_of_sublist List.filter_sublist hk2.1
  have hf3 : ((topicKinds e).take 3).all tupleFree = true :=
    all_of_sublist (List.take_sublist _ _) (by rw [topicKinds, all_kinds]; exact hf)
  have htn : topicNamesFrom nm 0 e.inputs = .ok (topicNames nm e) := topicNamesFrom_eq nm 0 e.inputs hi
  by_cases h1 : nm.valid (nm.snake e.name) = true
  rotate_left
  · have : ¬ eventOk nm e = true := by rw [eventOk_iff]; tauto
    rw [if_neg this, generateEvent, hnames, if_pos hi, Res.ok_bind, hlog, if_pos hk, Res.ok_bind, kindsOf_eq, if_pos hf,
      Res.ok_bind, htn, Res.ok_bind, show ((e.inputs.filter (·.indexed)).map (·.kind)).take 3 = (topicKinds e).take 3 from rfl,
      filterInitFrom_eq _ _ _ hf3, Res.ok_bind, eventExpr_eq, if_pos hk2.1, Res.ok_bind, ident_eq, if_neg h1]
    rfl
  by_cases h2 : nm.valid (nm.camel e.name) = true
  rotate_left
  · have : ¬ eventOk nm e = true := by rw [eventOk_iff]; tauto
    rw [if_neg this, generateEvent, hnames, if_pos hi, Res.ok_bind, hlog, if_pos hk, Res.ok_bind, kindsOf_eq, if_pos hf,
      Res.ok_bind, htn, Res.ok_bind, show ((e.inputs.filter (·.indexed)).map (·.kind)).take 3 = (topicKinds e).take 3 from rfl,
      filterInitFrom_eq _ _ _ hf3, Res.ok_bind, eventExpr_eq, if_pos hk2.1, Res.ok_bind, ident_eq, if_pos h1, Res.ok_bind,
      ident_eq, if_neg h2]
    rfl
  have : eventOk nm e = true := by rw [eventOk_iff]; tauto
  rw [if_pos this, generateEvent, hnames, if_pos hi, Res.ok_bind, hlog, if_pos hk, Res.ok_bind, kindsOf_eq, if_pos hf,
    Res.ok_bind, htn, Res.ok_bind, show ((e.inputs.filter (·.indexed)).map (·.kind)).take 3 = (topicKinds e).take 3 from rfl,
    filterInitFrom_eq _ _ _ hf3, Res.ok_bind, eventExpr_eq, if_pos hk2.1, Res.ok_bind, ident_eq, if_pos h1, Res.ok_bind,
    ident_eq, if_pos h2, Res.ok_bind, filterBody_eq, definitions_eq]
  have e1 : (e.inputs.filter (·.indexed)).map (fun p => typeCode p.kind) = (topicKinds e).map typeCode := by
    rw [topicKinds, List.map_map]; rfl
  have e2 : e.inputs.map (fun p => (fromExpr (.field (.method (.next (.var (lit "log"))) .expect []) (lit "value")) p.kind).code) =
      (e.inputs.map (·.kind)).map fun t => (fromExpr (.field (.method (.next (.var (lit "log"))) .expect []) (lit "value")) t).code := by
    rw [List.map_map]; rfl
  rw [e1, e2, filterDeclarations_eq, parseLogBody_eq]
  exact congrArg Res.ok (eventModule_code nm e).symm

theorem generateLog_eq (nm : Naming) (e : Event) (h : eventOk nm e = true) : generateLog nm e = .ok (logStruct nm e).code := by
  rw [eventOk_iff] at h
  rw [generateLog, eventNamesFrom_eq, if_pos h.2.2.1, Res.ok_bind, kindsOf_eq, if_pos h.1, Res.ok_bind, ident_eq, if_pos h.2.2.2.2]
  simp [LogStruct.code, logStruct, logFields, txt]

/-- **the generator**: it succeeds exactly on the contracts that satisfy `contractOk`, and panics on the others -/
theorem generateContract_eq (nm : Naming) (c : Contract) :
    generateContract nm c = if contractOk nm c = true then .ok (contractText nm c).code else .panic := by
  have hfun := mapRes_if (f := generateFunction nm) c.allFunctions fun f _ => generateFunction_eq nm f
  have hev := mapRes_if (f := generateEvent nm) c.allEvents fun e _ => generateEvent_eq nm e
  have hctor : generateConstructors nm c.constructor =
        if (match c.constructor with | .none => true | .some k => inputsOk nm k.inputs) = true
          then .ok (match c.constructor.map (constructorItem nm) with | .none => [] | .some k => k.code) else .panic := by
    rcases c.constructor with _ | k
    · rfl
    · exact generateConstructor_eq nm k
  by_cases h1 : (match c.constructor with | .none => true | .some k => inputsOk nm k.inputs) = true
  rotate_left
  · have : ¬ contractOk nm c = true := by rw [contractOk, Bool.and_eq_true, Bool.and_eq_true]; tauto
    rw [if_neg this, generateContract, hctor, if_neg h1]; rfl
  by_cases h2 : c.allFunctions.all (functionOk nm) = true
  rotate_left
  · have : ¬ contractOk nm c = true := by rw [contractOk, Bool.and_eq_true, Bool.and_eq_true]; tauto
    rw [if_neg this, generateContract, hctor, if_pos h1, Res.ok_bind, hfun, if_neg h2]; rfl
  by_cases h3 : c.allEvents.all (eventOk nm) = true
  rotate_left
  · have : ¬ contractOk nm c = true := by rw [contractOk, Bool.and_eq_true, Bool.and_eq_true]; tauto
    rw [if_neg this, generateContract, hctor, if_pos h1, Res.ok_bind, hfun, if_pos h2, Res.ok_bind, hev, if_neg h3]; rfl
  have : contractOk nm c = true := by rw [contractOk, Bool.and_eq_true, Bool.and_eq_true]; tauto
  have hlogs : mapRes (generateLog nm) c.allEvents = .ok (c.allEvents.map fun e => (logStruct nm e).code) := by
    rw [mapRes_if (p := fun _ => true) (g := fun e => (logStruct nm e).code) c.allEvents, if_pos (by simp)]
    intro e he
    rw [if_pos rfl]
    exact generateLog_eq nm e (List.all_eq_true.1 h3 e he)
  rw [if_pos this, generateContract, hctor, if_pos h1, Res.ok_bind, hfun, if_pos h2, Res.ok_bind, hev, if_pos h3, Res.ok_bind,
    hlogs, Res.ok_bind]
  simp only [ContractText.code, contractText, List.map_map]
  rfl

end Ethabi.Spec

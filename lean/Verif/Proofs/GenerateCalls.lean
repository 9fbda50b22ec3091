import Verif.Proofs.GenerateRun
/-!
# Lemmas: running the generated functions that encode
-/
namespace Ethabi.Spec
variable (w : World)

theorem runFn_ok {w : World} {params : List Str} {args : List Val} {body : Expr} (h1 : namesOk params = true)
    (h2 : params.length = args.length) : runFn w params args body = returned (eval w body (bindings params args)) := by
  rw [runFn, h1, decide_eq_true h2]; rfl

theorem runMethod_ok {w : World} {self : Val} {params : List Str} {args : List Val} {body : Expr} (h1 : namesOk params = true)
    (h2 : params.length = args.length) :
    runMethod w self params args body = returned (eval w body (⟨lit "self", false, self⟩ :: bindings params args)) := by
  rw [runMethod, h1, decide_eq_true h2]; rfl

theorem namesOk_nil : namesOk [] = true := rfl
theorem namesOk_output : namesOk [lit "output"] = true := by decide
theorem namesOk_log : namesOk [lit "log"] = true := by decide

/-- `.expect` on the value of a library call, at the end of a function -/
theorem expect_result {α : Type} (f : α → Val) (r : Res α) (env : Env) :
    returned (result f r >>= fun v => Method.apply w .expect v [] >>= fun u => .ok (u, env)) = expected f r.expect := by
  cases r <;> rfl

theorem runFunction_eq (nm : Naming) (f : Function) (hash : Bytes → Word) (prof : Profile) (h : functionOk nm f = true) :
    (functionModule nm f).runFunction hash prof = .ok (.fn (genFunction f)) := by
  rw [functionOk, Bool.and_eq_true, Bool.and_eq_true, inputsOk_iff, all_and, Bool.and_eq_true] at h
  rw [FunctionModule.runFunction, runFn_ok namesOk_nil rfl]
  show returned (eval _ (declExpr f) _) = _
  rw [eval_declExpr _ f _ h.1.1.1 h.1.2.1]; rfl

theorem function_item (nm : Naming) (f : Function) (hash : Bytes → Word) (prof : Profile) (h : functionOk nm f = true) (env : Env)
    (henv : find (lit "function") env = .none) :
    eval ((functionModule nm f).world hash prof) (.call (.item (lit "function")) []) env = .ok (.fn (genFunction f), env) := by
  simp only [eval, evals, Run.ok_bind, Path.apply, henv]
  show ((functionModule nm f).runFunction hash prof >>= fun v => Run.ok (v, env)) = _
  rw [runFunction_eq nm f hash prof h]; rfl

theorem apply_encodeInput (g : Function) (ts : List Token) :
    Method.apply w .encodeInput (.fn g) [.list (ts.map .tok)] = result .bytes (g.encodeInput w.hash w.prof ts) := by
  show (Run.get (asToks (ts.map .tok)) >>= fun ts => result .bytes (g.encodeInput w.hash w.prof ts)) = _
  rw [asToks_map]; rfl

theorem apply_encodeConstructor (c : Constructor) (code : Bytes) (ts : List Token) :
    Method.apply w .encodeInput (.ctor c) [.bytes code, .list (ts.map .tok)] = result .bytes (c.encodeInput w.prof code ts) := by
  show (Run.get (asToks (ts.map .tok)) >>= fun ts => result .bytes (c.encodeInput w.prof code ts)) = _
  rw [asToks_map]; rfl

theorem eval_encodeExpr (g : Function) (ns : List Str) (ts : List ParamType) (as : RustArgs ts) (env : Env)
    (hg : eval w (.call (.item (lit "function")) []) env = .ok (.fn g, env)) (hb : Bound env ns (hostVals ts as))
    (hf : lit "f" ∉ ns) :
    returned (eval w (encodeExpr (tokenExprs ns ts)) env) = expected .bytes (g.encodeInput w.hash w.prof (toTokens ts as)).expect := by
  have hb2 : Bound (⟨lit "f", false, .fn g⟩ :: env) ns (hostVals ts as) := hb.cons hf
  rw [encodeExpr, eval, hg, Run.ok_bind, eval, eval, evals_tokenExprs w ns ts as _ hb2, Run.ok_bind, Run.ok_bind]
  have h1 : ∀ v, find (lit "f") (⟨lit "tokens", false, v⟩ :: ⟨lit "f", false, .fn g⟩ :: env) = .some ⟨lit "f", false, .fn g⟩ :=
    fun v => rfl
  have h2 : ∀ v, find (lit "tokens") (⟨lit "tokens", false, v⟩ :: ⟨lit "f", false, .fn g⟩ :: env) = .some ⟨lit "tokens", false, v⟩ :=
    fun v => rfl
  simp only [eval, evals, h1, h2, Run.get, Run.ok_bind, apply_encodeInput]
  cases (g.encodeInput w.hash w.prof (toTokens ts as)) <;> rfl

theorem eval_callExpr (g : Function) (ns : List Str) (ts : List ParamType) (as : RustArgs ts) (env : Env)
    (hg : eval w (.call (.item (lit "function")) []) env = .ok (.fn g, env)) (hb : Bound env ns (hostVals ts as))
    (hf : lit "f" ∉ ns) :
    returned (eval w (callExpr (tokenExprs ns ts)) env) =
      expected (fun b => .tuple [.bytes b, .decoder g]) (g.encodeInput w.hash w.prof (toTokens ts as)).expect := by
  have hb2 : Bound (⟨lit "f", false, .fn g⟩ :: env) ns (hostVals ts as) := hb.cons hf
  rw [callExpr, eval, hg, Run.ok_bind, eval, eval, evals_tokenExprs w ns ts as _ hb2, Run.ok_bind, Run.ok_bind]
  have h1 : ∀ v, find (lit "f") (⟨lit "tokens", false, v⟩ :: ⟨lit "f", false, .fn g⟩ :: env) = .some ⟨lit "f", false, .fn g⟩ :=
    fun v => rfl
  have h2 : ∀ v, find (lit "tokens") (⟨lit "tokens", false, v⟩ :: ⟨lit "f", false, .fn g⟩ :: env) = .some ⟨lit "tokens", false, v⟩ :=
    fun v => rfl
  simp only [eval, evals, h1, h2, Run.get, Run.ok_bind, apply_encodeInput]
  cases (g.encodeInput w.hash w.prof (toTokens ts as))
  · simp only [result, Run.ok_bind, Method.apply, evals, eval, h1, Run.get, Path.apply]; rfl
  · rfl
  · rfl

theorem runEncodeInput_eq (nm : Naming) (f : Function) (hash : Bytes → Word) (prof : Profile) (h : functionOk nm f = true)
    (hn : namesOk (inputNames nm 0 f.inputs) = true) (hf : lit "f" ∉ inputNames nm 0 f.inputs)
    (hg : lit "function" ∉ inputNames nm 0 f.inputs) (as : RustArgs (f.inputs.map (·.kind))) :
    (functionModule nm f).runEncodeInput hash prof (hostVals _ as) = expected .bytes (genEncodeInput hash prof f as) := by
  have hl : (inputNames nm 0 f.inputs).length = (hostVals _ as).length := by
    rw [inputNames_length, hostVals_length, List.length_map]
  rw [FunctionModule.runEncodeInput, show (functionModule nm f).params = inputNames nm 0 f.inputs from rfl, runFn_ok hn hl]
  exact eval_encodeExpr _ (genFunction f) _ _ as _ (function_item nm f hash prof h _ (find_bindings_none _ _ _ hg))
    (bound_bindings _ _ (namesOk_nodup hn) hl) hf

theorem runCall_eq (nm : Naming) (f : Function) (hash : Bytes → Word) (prof : Profile) (h : functionOk nm f = true)
    (hn : namesOk (inputNames nm 0 f.inputs) = true) (hf : lit "f" ∉ inputNames nm 0 f.inputs)
    (hg : lit "function" ∉ inputNames nm 0 f.inputs) (as : RustArgs (f.inputs.map (·.kind))) :
    (functionModule nm f).runCall hash prof (hostVals _ as) =
      expected (fun b => .tuple [.bytes b, .decoder (genFunction f)]) (genEncodeInput hash prof f as) := by
  have hl : (inputNames nm 0 f.inputs).length = (hostVals _ as).length := by
    rw [inputNames_length, hostVals_length, List.length_map]
  rw [FunctionModule.runCall, show (functionModule nm f).params = inputNames nm 0 f.inputs from rfl, runFn_ok hn hl]
  exact eval_callExpr _ (genFunction f) _ _ as _ (function_item nm f hash prof h _ (find_bindings_none _ _ _ hg))
    (bound_bindings _ _ (namesOk_nodup hn) hl) hf

/-! ## The constructor -/

theorem eval_constructorExpr (ps : List Param) (hps : (ps.all fun p => tupleFree p.kind) = true) (ns : List Str)
    (ts : List ParamType) (as : RustArgs ts) (env : Env) (code : Bytes)
    (hcode : ∃ b, find (lit "code") env = .some b ∧ b.val = .bytes code) (hb : Bound env ns (hostVals ts as)) (hc : lit "c" ∉ ns) :
    returned (eval w (constructorExpr ps (tokenExprs ns ts)) env) =
      expected .bytes (Constructor.encodeInput w.prof { inputs := ps.map fun p => { p with internalType := none } } code
        (toTokens ts as)).expect := by
  obtain ⟨b, hb1, hb2⟩ := hcode
  have hb3 : ∀ v, Bound (⟨lit "c", false, v⟩ :: env) ns (hostVals ts as) := fun v => hb.cons hc
  have h1 : ∀ u v, find (lit "c") (⟨lit "tokens", false, v⟩ :: ⟨lit "c", false, u⟩ :: env) = .some ⟨lit "c", false, u⟩ :=
    fun u v => rfl
  have h2 : ∀ u v, find (lit "tokens") (⟨lit "tokens", false, v⟩ :: ⟨lit "c", false, u⟩ :: env) = .some ⟨lit "tokens", false, v⟩ :=
    fun u v => rfl
  have h3 : ∀ u v, find (lit "code") (⟨lit "tokens", false, v⟩ :: ⟨lit "c", false, u⟩ :: env) = .some b :=
    fun u v => hb1
  rw [constructorExpr]
  simp only [eval, evals, evals_params w ps env hps, Run.ok_bind, build_constructor _ _ (asParams_map _),
    evals_tokenExprs w ns ts as _ (hb3 _), h1, h2, h3, Run.get, hb2, apply_encodeConstructor]
  cases (Constructor.encodeInput w.prof { inputs := ps.map fun p => { p with internalType := none } } code (toTokens ts as)) <;> rfl

theorem runConstructor_eq (nm : Naming) (c : Constructor) (hash : Bytes → Word) (prof : Profile) (h : inputsOk nm c.inputs = true)
    (hn : namesOk (lit "code" :: inputNames nm 0 c.inputs) = true) (hc : lit "c" ∉ inputNames nm 0 c.inputs)
    (code : Bytes) (as : RustArgs (c.inputs.map (·.kind))) :
    (constructorItem nm c).run hash prof code (hostVals _ as) = expected .bytes (genConstructor prof c code as) := by
  have hl : (lit "code" :: inputNames nm 0 c.inputs).length = (Val.bytes code :: hostVals _ as).length := by
    rw [List.length_cons, List.length_cons, inputNames_length, hostVals_length, List.length_map]
  have hb := bound_bindings _ _ (namesOk_nodup hn) hl
  rw [inputsOk_iff] at h
  rw [ConstructorItem.run]
  rw [show (constructorItem nm c).params = inputNames nm 0 c.inputs from rfl, runFn_ok hn hl]
  exact eval_constructorExpr (bare hash prof) c.inputs h.1 _ _ as _ code hb.1 hb.2 hc

end Ethabi.Spec

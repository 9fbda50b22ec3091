import Verif.Proofs.GenerateCalls
/-!
# Lemmas: running the generated functions that decode, and the filters
-/
namespace Ethabi.Spec
variable (w : World)

/-! ## Tokens to results -/

/-- a result that is there, or a panic -/
def toRun {α β : Type} (f : α → β) : Res α → Run β
  | .ok a => .ok (f a)
  | _ => .panic

/-- The expression yields this token, also below a variable `result`. -/
structure Yields (token : Expr) (tok : Token) (env env' : Env) : Prop where
  plain : eval w token env = .ok (.tok tok, env')
  inside : ∀ m v, eval w token (⟨lit "result", m, v⟩ :: env) = .ok (.tok tok, ⟨lit "result", m, v⟩ :: env')
  length : env'.length = env.length

theorem yields_inner (v : Token) (env : Env) :
    Yields w (.var (lit "inner")) v (⟨lit "inner", false, .tok v⟩ :: env) (⟨lit "inner", false, .tok v⟩ :: env) :=
  ⟨rfl, fun _ _ => rfl, rfl⟩

theorem mapVals_collect {α : Type} (f : Val → Run Val) (g : Token → Res α) (h : α → Val) (l : List Token)
    (hf : ∀ t ∈ l, f (.tok t) = toRun h (g t)) :
    mapVals f (l.map .tok) = toRun (List.map h) (collectAll g l) := by
  induction l with
  | nil => rfl
  | cons a l ih =>
      rw [List.map_cons, mapVals, hf a (by simp), collectAll]
      cases hg : g a with
      | ok b =>
          rw [toRun, Run.ok_bind, ih fun b hb => hf b (by simp [hb]), Res.ok_bind]
          cases collectAll g l <;> rfl
      | err e => rfl
      | panic => rfl

theorem eval_fromExpr : ∀ (t : ParamType) (token : Expr) (tok : Token) (env env' : Env), generated t = true →
    Yields w token tok env env' → eval w (fromExpr token t) env = toRun (fun a => (hostVal t a, env')) (fromToken t tok)
  | .address, token, tok, env, env', _, h => by
      simp only [fromExpr, eval, evals, h.plain, Run.ok_bind]; cases tok <;> rfl
  | .bytes, token, tok, env, env', _, h => by
      simp only [fromExpr, eval, evals, h.plain, Run.ok_bind]; cases tok <;> rfl
  | .int _, token, tok, env, env', _, h => by
      simp only [fromExpr, eval, evals, h.plain, Run.ok_bind]; cases tok <;> rfl
  | .uint _, token, tok, env, env', _, h => by
      simp only [fromExpr, eval, evals, h.plain, Run.ok_bind]; cases tok <;> rfl
  | .bool, token, tok, env, env', _, h => by
      simp only [fromExpr, eval, evals, h.plain, Run.ok_bind]; cases tok <;> rfl
  | .string, token, tok, env, env', _, h => by
      simp only [fromExpr, eval, evals, h.plain, Run.ok_bind]; cases tok <;> rfl
  | .fixedBytes n, token, tok, env, env', _, h => by
      simp only [fromExpr, eval, evals, h.inside, Run.ok_bind]
      cases tok with
      | fixedBytes b =>
          have h1 : ∀ u v, find (lit "result") (⟨lit "v", false, v⟩ :: ⟨lit "result", true, u⟩ :: env') =
            .some ⟨lit "result", true, u⟩ := fun u v => rfl
          have h2 : ∀ u v, find (lit "v") (⟨lit "v", false, v⟩ :: ⟨lit "result", true, u⟩ :: env') =
            .some ⟨lit "v", false, v⟩ := fun u v => rfl
          have h3 : ∀ u v x, assign (lit "result") x (⟨lit "v", false, v⟩ :: ⟨lit "result", true, u⟩ :: env') =
            ⟨lit "v", false, v⟩ :: ⟨lit "result", true, x⟩ :: env' := fun u v x => rfl
          simp only [Method.apply, Run.ok_bind, h1, h2, h3, Run.get, if_true, List.length_replicate]
          by_cases hl : b.length = n
          · have hf : fromToken (.fixedBytes n) (.fixedBytes b) = .ok ⟨b, hl⟩ := by
              show Res.bind (.ok b) (copyFromSlice n) = _
              exact dif_pos hl
            rw [if_pos hl, hf]
            by_cases hn : n = 32
            · rw [if_pos hn]
              simp only [eval, evals, h1, Run.get, Run.ok_bind, Path.apply, if_pos (hl.trans hn), leave_cons2 _ _ _ _ h.length]
              rfl
            · rw [if_neg hn]
              simp only [eval, h1, Run.get, Run.ok_bind, leave_cons2 _ _ _ _ h.length]
              rfl
          · have hf : fromToken (.fixedBytes n) (.fixedBytes b) = .panic := by
              show Res.bind (.ok b) (copyFromSlice n) = _
              exact dif_neg hl
            rw [if_neg hl, hf]; rfl
      | _ => rfl
  | .array t, token, tok, env, env', hg, h => by
      simp only [fromExpr, eval, evals, h.plain, Run.ok_bind]
      cases tok with
      | array l =>
          have ih : mapVals (fun v => do .ok (← eval w (fromExpr (.var (lit "inner")) t) (⟨lit "inner", false, v⟩ :: env')).1)
              (l.map .tok) = toRun (List.map (hostVal t)) (collectAll (fromToken t) l) := by
            refine mapVals_collect _ _ _ l fun a _ => ?_
            rw [eval_fromExpr t _ a _ _ hg (yields_inner w a env')]
            cases fromToken t a <;> rfl
          have hf : fromToken (.array t) (.array l) = collectAll (fromToken t) l := rfl
          simp only [Method.apply, Run.ok_bind, mapVal, ih, hf]
          cases collectAll (fromToken t) l <;> rfl
      | _ => rfl
  | .fixedArray _ _, _, _, _, _, h, _ => by simp [generated] at h
  | .tuple _, _, _, _, _, h, _ => by simp [generated] at h

theorem eval_fromExpr_panic : ∀ (t : ParamType) (token : Expr) (env : Env), generated t = true →
    eval w token env = .panic → (∀ m v, eval w token (⟨lit "result", m, v⟩ :: env) = .panic) →
    eval w (fromExpr token t) env = .panic
  | .address, token, env, _, h, _ => by simp only [fromExpr, eval, h, Run.panic_bind]
  | .bytes, token, env, _, h, _ => by simp only [fromExpr, eval, h, Run.panic_bind]
  | .int _, token, env, _, h, _ => by simp only [fromExpr, eval, h, Run.panic_bind]
  | .uint _, token, env, _, h, _ => by simp only [fromExpr, eval, h, Run.panic_bind]
  | .bool, token, env, _, h, _ => by simp only [fromExpr, eval, h, Run.panic_bind]
  | .string, token, env, _, h, _ => by simp only [fromExpr, eval, h, Run.panic_bind]
  | .fixedBytes _, token, env, _, _, h => by simp only [fromExpr, eval, h, Run.panic_bind, Run.ok_bind]
  | .array _, token, env, _, h, _ => by simp only [fromExpr, eval, h, Run.panic_bind]
  | .fixedArray _ _, _, _, h, _, _ => by simp [generated] at h
  | .tuple _, _, _, h, _, _ => by simp [generated] at h

/-- An expression that takes one token after the other, from a list of things that hold tokens; `S` are the variables when
these are left. -/
structure Stream {β : Type} (val : β → Token) (token : Expr) (S : List β → Env) : Prop where
  more : ∀ b bs, Yields w token (val b) (S (b :: bs)) (S bs)
  over : eval w token (S []) = .panic
  overInside : ∀ m v, eval w token (⟨lit "result", m, v⟩ :: S []) = .panic

theorem evals_fromExprs {β : Type} (val : β → Token) (token : Expr) (S : List β → Env) (hs : Stream w val token S) :
    ∀ (ts : List ParamType) (bs : List β), ts.all generated = true →
      evals w (ts.map (fromExpr token)) (S bs) =
        toRun (fun as => (hostVals ts as, S (bs.drop ts.length))) (fromTokens ts (bs.map val))
  | [], bs, _ => rfl
  | t :: ts, [], h => by
      rw [List.all_cons, Bool.and_eq_true] at h
      rw [List.map_cons, evals, eval_fromExpr_panic w t token _ h.1 hs.over hs.overInside]; rfl
  | t :: ts, b :: bs, h => by
      rw [List.all_cons, Bool.and_eq_true] at h
      rw [List.map_cons, evals, eval_fromExpr w t token (val b) _ _ h.1 (hs.more b bs), List.map_cons, fromTokens]
      cases fromToken t (val b) with
      | ok a =>
          rw [toRun, Run.ok_bind, evals_fromExprs val token S hs ts bs h.2, Res.ok_bind]
          cases fromTokens ts (bs.map val) <;> rfl
      | err e => rfl
      | panic => rfl

theorem fromToken_not_err : ∀ (t : ParamType) (tok : Token) (e : Err), fromToken t tok ≠ .err e
  | .address, tok, e => by cases tok <;> simp [fromToken, Token.intoAddress, expectSome]
  | .bytes, tok, e => by cases tok <;> simp [fromToken, Token.intoBytes, expectSome]
  | .int _, tok, e => by cases tok <;> simp [fromToken, Token.intoInt, expectSome]
  | .uint _, tok, e => by cases tok <;> simp [fromToken, Token.intoUint, expectSome]
  | .bool, tok, e => by cases tok <;> simp [fromToken, Token.intoBool, expectSome]
  | .string, tok, e => by cases tok <;> simp [fromToken, Token.intoString, expectSome]
  | .fixedBytes n, tok, e => by
      cases tok with
      | fixedBytes b =>
          intro h
          have h2 : copyFromSlice n b = .err e := h
          rw [copyFromSlice] at h2
          split at h2 <;> cases h2
      | _ => simp [fromToken, Token.intoFixedBytes, expectSome, Res.bind]
  | .array t, tok, e => by
      cases tok with
      | array l =>
          show collectAll (fromToken t) l ≠ .err e
          induction l with
          | nil => simp [collectAll]
          | cons a l ih =>
              rw [collectAll]
              cases ha : fromToken t a with
              | ok b =>
                  cases hl : collectAll (fromToken t) l with
                  | ok bs => simp
                  | err e' => rw [hl] at ih; simpa using ih
                  | panic => simp
              | err e' => exact absurd ha (fromToken_not_err t a e')
              | panic => simp
      | _ => simp [fromToken, Token.intoArray, expectSome, Res.bind]
  | .fixedArray _ _, _, _ => by simp [fromToken]
  | .tuple _, _, _ => by simp [fromToken]

theorem fromTokens_not_err : ∀ (ts : List ParamType) (toks : List Token) (e : Err), fromTokens ts toks ≠ .err e
  | [], _, _ => by simp [fromTokens]
  | _ :: _, [], _ => by simp [fromTokens]
  | t :: ts, tok :: toks, e => by
      rw [fromTokens]
      cases h : fromToken t tok with
      | ok a =>
          cases h2 : fromTokens ts toks with
          | ok as => simp
          | err e' => exact absurd h2 (fromTokens_not_err ts toks e')
          | panic => simp
      | err e' => exact absurd h (fromToken_not_err t tok e')
      | panic => simp

/-! ## `decode_output` -/

/-- the variables of `decode` -/
def decodeEnv (g : Function) (data : Bytes) : Env := [⟨lit "self", false, .decoder g⟩, ⟨lit "output", false, .bytes data⟩]

theorem eval_outputIter (g : Function) (data : Bytes) :
    eval w outputIter (decodeEnv g data) =
      match g.decodeOutput w.prof data with
      | .ok ts => .ok (.list (ts.map .tok), decodeEnv g data)
      | .err e => .err e
      | .panic => .panic := by
  have h1 : find (lit "self") (decodeEnv g data) = .some ⟨lit "self", false, .decoder g⟩ := rfl
  have h2 : find (lit "output") (decodeEnv g data) = .some ⟨lit "output", false, .bytes data⟩ := rfl
  have h3 : fieldVal (.decoder g) (lit "0") = .ok (.fn g) := rfl
  simp only [outputIter, eval, evals, h1, h2, h3, Run.get, Run.ok_bind, Method.apply]
  cases g.decodeOutput w.prof data <;> rfl

theorem stream_out (env : Env) :
    Stream w id (.method (.next (.var (lit "out"))) .expect []) (fun toks => ⟨lit "out", true, .list (toks.map .tok)⟩ :: env) where
  more tok toks := ⟨rfl, fun _ _ => rfl, rfl⟩
  over := rfl
  overInside _ _ := rfl

/-- the outcome of `decode` -/
def decodeResult (prof : Profile) (g : Function) (ts : List ParamType) (data : Bytes) : Res (RustArgs ts) :=
  if ts.length = 0 then fromTokens ts [] else g.decodeOutput prof data >>= fromTokens ts

theorem eval_decodeExpr (g : Function) (data : Bytes) : ∀ (ts : List ParamType), ts.all generated = true →
    returned (eval w (decodeExpr ts) (decodeEnv g data)) = result (outputVal ts) (decodeResult w.prof g ts data)
  | [], _ => rfl
  | [t], h => by
      rw [List.all_cons, Bool.and_eq_true] at h
      have hd : decodeResult w.prof g [t] data = g.decodeOutput w.prof data >>= fromTokens [t] := rfl
      have hn : ∀ env, eval w (.next outputIter) env =
          (eval w outputIter env >>= fun a => nextVal a.1 >>= fun n => .ok (n.1, a.2)) := fun _ => rfl
      rw [hd, decodeExpr, eval, eval, hn, eval_outputIter]
      cases g.decodeOutput w.prof data with
      | ok toks =>
          cases toks with
          | nil => rfl
          | cons tok toks =>
              have hy : Yields w (.var (lit "out")) tok (⟨lit "out", false, .tok tok⟩ :: decodeEnv g data)
                  (⟨lit "out", false, .tok tok⟩ :: decodeEnv g data) := ⟨rfl, fun _ _ => rfl, rfl⟩
              have := eval_fromExpr w t _ tok _ _ h.1 hy
              have hf : fromTokens [t] (tok :: toks) = fromToken t tok >>= fun a => .ok (a, ()) := rfl
              simp only [Run.ok_bind, Res.ok_bind, List.map_cons, nextVal, evals, Method.apply, eval, this, hf]
              cases hft : fromToken t tok with
              | ok a => rfl
              | err e => exact absurd hft (fromToken_not_err t tok e)
              | panic => rfl
      | err e => rfl
      | panic => rfl
  | t :: u :: ts, h => by
      have hd : decodeResult w.prof g (t :: u :: ts) data = g.decodeOutput w.prof data >>= fromTokens (t :: u :: ts) := rfl
      have he : decodeExpr (t :: u :: ts) = .letIn true (lit "out") outputIter
        (.call .ok [.tuple ((t :: u :: ts).map (fromExpr (.method (.next (.var (lit "out"))) .expect [])))]) := rfl
      have hl : ((t :: u :: ts).map (fromExpr (.method (.next (.var (lit "out"))) .expect []))).length ≠ 1 := by simp
      have ho : ∀ as, outputVal (t :: u :: ts) as = .tuple (hostVals (t :: u :: ts) as) := fun _ => rfl
      rw [hd, he, eval, eval_outputIter]
      cases g.decodeOutput w.prof data with
      | ok toks =>
          have := evals_fromExprs w id _ _ (stream_out w (decodeEnv g data)) (t :: u :: ts) toks h
          rw [List.map_id] at this
          simp only [Run.ok_bind, Res.ok_bind, eval, evals, this, if_neg hl]
          cases hf : fromTokens (t :: u :: ts) toks with
          | ok as => rw [result, ho]; rfl
          | err e => exact absurd hf (fromTokens_not_err _ _ e)
          | panic => rfl
      | err e => rfl
      | panic => rfl

theorem decodeResult_eq (prof : Profile) (f : Function) (data : Bytes) :
    decodeResult prof (genFunction f) (f.outputs.map (·.kind)) data = genDecodeOutput prof f data := by
  rw [decodeResult, genDecodeOutput, List.length_map]

theorem runDecode_eq (nm : Naming) (f : Function) (hash : Bytes → Word) (prof : Profile)
    (hg : (f.outputs.all fun p => generated p.kind) = true) (data : Bytes) :
    (functionModule nm f).runDecode hash prof (.decoder (genFunction f)) data =
      result (outputVal _) (genDecodeOutput prof f data) := by
  show runMethod (bare hash prof) (.decoder (genFunction f)) [lit "output"] [.bytes data] (decodeExpr _) = _
  rw [runMethod_ok namesOk_output rfl, ← decodeResult_eq]
  exact eval_decodeExpr (bare hash prof) (genFunction f) data _ (by rw [List.all_map]; exact hg)

theorem runDecodeOutput_eq (nm : Naming) (f : Function) (hash : Bytes → Word) (prof : Profile) (h : functionOk nm f = true)
    (hg : (f.outputs.all fun p => generated p.kind) = true) (data : Bytes) :
    (functionModule nm f).runDecodeOutput hash prof data = result (outputVal _) (genDecodeOutput prof f data) := by
  have hd := runDecode_eq nm f hash prof hg data
  have hf := function_item nm f hash prof h (bindings [lit "output"] [.bytes data]) rfl
  have hv : find (lit "output") (bindings [lit "output"] [Val.bytes data]) = .some ⟨lit "output", false, .bytes data⟩ := rfl
  rw [FunctionModule.runDecodeOutput, runFn_ok namesOk_output rfl,
    show (functionModule nm f).decodeOutput = decodeOutputExpr from rfl, decodeOutputExpr, eval, evals, eval, eval, evals, hf]
  simp only [Run.ok_bind, evals, eval, hv, Run.get, Path.apply]
  show returned ((functionModule nm f).runDecode hash prof (.decoder (genFunction f)) data >>= fun v => Run.ok (v, _)) = _
  rw [hd]
  cases genDecodeOutput prof f data <;> rfl

/-! ## Events -/

theorem runEvent_eq (nm : Naming) (e : Event) (hash : Bytes → Word) (prof : Profile) (h : eventOk nm e = true) :
    (eventModule nm e).runEvent hash prof = .ok (.ev (genEvent nm.camel e)) := by
  rw [eventOk_iff] at h
  rw [EventModule.runEvent, runFn_ok namesOk_nil rfl]
  show returned (eval _ (eventDeclExpr nm e) _) = _
  rw [eval_eventDeclExpr _ nm e _ h.1]; rfl

theorem inner_event (nm : Naming) (e : Event) (hash : Bytes → Word) (prof : Profile) (h : eventOk nm e = true) (env : Env)
    (henv : find (lit "event") env = .none) :
    eval ((eventModule nm e).inner hash prof) (.call (.item (lit "event")) []) env = .ok (.ev (genEvent nm.camel e), env) := by
  simp only [eval, evals, Run.ok_bind, Path.apply, henv]
  show ((eventModule nm e).runEvent hash prof >>= fun v => Run.ok (v, env)) = _
  rw [runEvent_eq nm e hash prof h]; rfl

theorem world_event (nm : Naming) (e : Event) (hash : Bytes → Word) (prof : Profile) (h : eventOk nm e = true) (env : Env)
    (henv : find (lit "event") env = .none) :
    eval ((eventModule nm e).world hash prof) (.call (.item (lit "event")) []) env = .ok (.ev (genEvent nm.camel e), env) := by
  simp only [eval, evals, Run.ok_bind, Path.apply, henv]
  show ((eventModule nm e).runEvent hash prof >>= fun v => Run.ok (v, env)) = _
  rw [runEvent_eq nm e hash prof h]; rfl

/-! ### `parse_log` -/

theorem stream_log (env : Env) :
    Stream w LogParam.value (.field (.method (.next (.var (lit "log"))) .expect []) (lit "value"))
      (fun l => ⟨lit "log", true, .list (l.map .logParam)⟩ :: env) where
  more _ _ := ⟨rfl, fun _ _ => rfl, rfl⟩
  over := rfl
  overInside _ _ := rfl

theorem runParseLog_eq (nm : Naming) (e : Event) (hash : Bytes → Word) (prof : Profile) (h : eventOk nm e = true)
    (hg : (e.inputs.all fun p => generated p.kind) = true) (hn : namesOk (fieldNames nm 0 e.inputs) = true) (log : RawLog) :
    (eventModule nm e).runParseLog hash prof log =
      result (fun as => .struct (nm.camel e.name) (fieldNames nm 0 e.inputs) (hostVals _ as))
        (genParseLog nm.camel hash prof e log) := by
  have he := world_event nm e hash prof h (bindings [lit "log"] [.rawLog log]) rfl
  have hgen : genParseLog nm.camel hash prof e log =
      ((genEvent nm.camel e).parseLog hash prof log >>= fun l => fromTokens (e.inputs.map (·.kind)) (l.params.map (·.value))) := rfl
  have h1 : ∀ v, find (lit "e") (⟨lit "e", false, v⟩ :: bindings [lit "log"] [.rawLog log]) = .some ⟨lit "e", false, v⟩ :=
    fun _ => rfl
  have h2 : ∀ v, find (lit "log") (⟨lit "e", false, v⟩ :: bindings [lit "log"] [.rawLog log]) =
      .some ⟨lit "log", false, .rawLog log⟩ := fun _ => rfl
  rw [EventModule.runParseLog, runFn_ok namesOk_log rfl, hgen,
    show (eventModule nm e).parseLog = parseLogExpr (nm.camel e.name) (fieldNames nm 0 e.inputs) (e.inputs.map (·.kind)) from rfl,
    parseLogExpr, eval, he]
  simp only [Run.ok_bind, eval, evals, h1, h2, Run.get, Method.apply]
  rw [show ((eventModule nm e).world hash prof).hash = hash from rfl, show ((eventModule nm e).world hash prof).prof = prof from rfl]
  cases (genEvent nm.camel e).parseLog hash prof log with
  | ok l =>
      have hp : fieldVal (.log l) (lit "params") = .ok (.list (l.params.map .logParam)) := rfl
      have := evals_fromExprs ((eventModule nm e).world hash prof) _ _ _
        (stream_log ((eventModule nm e).world hash prof)
          (⟨lit "e", false, .ev (genEvent nm.camel e)⟩ :: bindings [lit "log"] [.rawLog log]))
        (e.inputs.map (·.kind)) l.params (by rw [List.all_map]; exact hg)
      simp only [result, Run.ok_bind, tryVal, hp, this, Res.ok_bind]
      cases hf : fromTokens (e.inputs.map (·.kind)) (l.params.map (·.value)) with
      | ok as =>
          simp only [toRun, Run.ok_bind, buildStruct, hn, if_true]
          rfl
      | err e' => exact absurd hf (fromTokens_not_err _ _ e')
      | panic => rfl
  | err e => rfl
  | panic => rfl

end Ethabi.Spec

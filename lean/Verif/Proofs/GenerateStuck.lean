import Verif.Proofs.GenerateFilters
/-!
# Lemmas: generated functions that rustc rejects
-/
namespace Ethabi.Spec
variable (w : World)

/-- a value that is no argument of a generated function -/
def Foreign (v : Val) : Prop := (∃ g, v = .fn g) ∨ ∃ c, v = .ctor c

theorem stuck_tokenExpr (t : ParamType) (ht : tupleFree t = true) (n : Str) (env : Env) (b : Binding)
    (hb : find n env = .some b) (hf : Foreign b.val) : eval w (tokenExpr (templateExpr t n) t) env = .stuck := by
  obtain ⟨x, m, v⟩ := b
  rcases hf with ⟨g, rfl⟩ | ⟨c, rfl⟩ <;> cases t <;>
    first
      | (simp [tupleFree] at ht; done)
      | (simp only [tokenExpr, templateExpr, eval, evals, hb, Run.get, Run.ok_bind]; rfl)

theorem stuck_tokenExprs (x : Str) (v : Val) (hf : Foreign v) (env : Env) : ∀ (ns : List Str) (ts : List ParamType)
    (as : RustArgs ts), Bound env ns (hostVals ts as) → ts.all tupleFree = true → x ∈ ns →
    evals w (tokenExprs ns ts) (⟨x, false, v⟩ :: env) = .stuck
  | [], _, _, _, _, hx => by simp at hx
  | n :: ns, [], _, h, _, _ => h.elim
  | n :: ns, t :: ts, (a, as), h, ht, hx => by
      rw [List.all_cons, Bool.and_eq_true] at ht
      have h' : (∃ b, find n env = .some b ∧ b.val = hostVal t a) ∧ Bound env ns (hostVals ts as) := h
      rw [tokenExprs, evals]
      by_cases hn : x = n
      · subst hn
        rw [stuck_tokenExpr w t ht.1 x _ _ (find_cons_eq ⟨x, false, v⟩ env x rfl) hf]; rfl
      · obtain ⟨b, hb, hv⟩ := h'.1
        have hb' : find n (⟨x, false, v⟩ :: env) = .some b := by rw [find_cons_ne _ _ _ hn, hb]
        rw [eval_tokenExpr w t a _ _ (eval_templateExpr w t a n _ ⟨b, hb', hv⟩), Run.ok_bind,
          stuck_tokenExprs x v hf env ns ts as h'.2 ht.2 (by
            rcases List.mem_cons.1 hx with hx | hx
            · exact absurd hx hn
            · exact hx)]
        rfl

theorem find_bindings_some (x : Str) : ∀ (ns : List Str) (vs : List Val), ns.length = vs.length → x ∈ ns →
    (find x (bindings ns vs)).isSome = true
  | [], _, _, h => by simp at h
  | n :: ns, [], hl, _ => by simp at hl
  | n :: ns, v :: vs, hl, h => by
      by_cases hn : n = x
      · rw [bindings, List.zipWith_cons_cons, find_cons_eq _ _ _ hn]; rfl
      · have := find_bindings_some x ns vs (by simpa using hl) (by
          rcases List.mem_cons.1 h with h | h
          · exact absurd h.symm hn
          · exact h)
        rw [bindings] at this
        rw [bindings, List.zipWith_cons_cons, find_cons_ne _ _ _ hn, this]

theorem stuck_item (x : Str) (env : Env) (h : (find x env).isSome = true) : eval w (.call (.item x) []) env = .stuck := by
  simp only [eval, evals, Run.ok_bind, Path.apply, h, if_true]; rfl

theorem runFn_stuck {w : World} {params : List Str} {args : List Val} {body : Expr} (h1 : ¬ namesOk params = true) :
    runFn w params args body = .stuck := by
  rw [runFn, if_neg (by rw [Bool.and_eq_true]; exact fun h => h1 h.1)]

theorem callable_iff (nm : Naming) (f : Function) : callable nm f = true ↔ namesOk (inputNames nm 0 f.inputs) = true ∧
    lit "f" ∉ inputNames nm 0 f.inputs ∧ lit "function" ∉ inputNames nm 0 f.inputs := by
  simp only [callable, Bool.and_eq_true, Bool.not_eq_true', List.contains_eq_mem, decide_eq_false_iff_not, and_assoc]
theorem constructible_iff (nm : Naming) (c : Constructor) : constructible nm c = true ↔
    namesOk (lit "code" :: inputNames nm 0 c.inputs) = true ∧ lit "c" ∉ inputNames nm 0 c.inputs := by
  simp only [constructible, Bool.and_eq_true, Bool.not_eq_true', List.contains_eq_mem, decide_eq_false_iff_not]
theorem filterable_iff (nm : Naming) (e : Event) : filterable nm e = true ↔
    namesOk (topicNames nm e) = true ∧ lit "event" ∉ topicNames nm e := by
  simp only [filterable, Bool.and_eq_true, Bool.not_eq_true', List.contains_eq_mem, decide_eq_false_iff_not]

/-- both functions that encode start like this -/
theorem stuck_call (nm : Naming) (f : Function) (hash : Bytes → Word) (prof : Profile) (h : functionOk nm f = true)
    (hc : ¬ callable nm f = true) (as : RustArgs (f.inputs.map (·.kind))) (rest : Expr) :
    runFn ((functionModule nm f).world hash prof) (inputNames nm 0 f.inputs) (hostVals _ as)
      (.letIn false (lit "f") (.call (.item (lit "function")) [])
        (.letIn false (lit "tokens") (.vec (tokenExprs (inputNames nm 0 f.inputs) (f.inputs.map (·.kind)))) rest)) = .stuck := by
  have hl : (inputNames nm 0 f.inputs).length = (hostVals _ as).length := by
    rw [inputNames_length, hostVals_length, List.length_map]
  by_cases hn : namesOk (inputNames nm 0 f.inputs) = true
  rotate_left
  · exact runFn_stuck hn
  rw [runFn_ok hn hl, eval]
  by_cases hf : lit "function" ∈ inputNames nm 0 f.inputs
  · rw [stuck_item _ _ _ (find_bindings_some _ _ _ hl hf)]; rfl
  rw [function_item nm f hash prof h _ (find_bindings_none _ _ _ hf), Run.ok_bind, eval, eval]
  have hx : lit "f" ∈ inputNames nm 0 f.inputs := by
    rw [callable_iff] at hc
    exact Classical.byContradiction fun hx => hc ⟨hn, hx, hf⟩
  have ht : (f.inputs.map (·.kind)).all tupleFree = true := by
    rw [functionOk, Bool.and_eq_true, Bool.and_eq_true, inputsOk_iff] at h
    rw [all_kinds]; exact h.1.1.1
  rw [stuck_tokenExprs _ (lit "f") (.fn (genFunction f)) (.inl ⟨_, rfl⟩) _ _ _ as (bound_bindings _ _ (namesOk_nodup hn) hl) ht hx]
  rfl

theorem stuck_constructor (nm : Naming) (c : Constructor) (hash : Bytes → Word) (prof : Profile) (h : inputsOk nm c.inputs = true)
    (hc : ¬ constructible nm c = true) (code : Bytes) (as : RustArgs (c.inputs.map (·.kind))) :
    (constructorItem nm c).run hash prof code (hostVals _ as) = .stuck := by
  have hl : (lit "code" :: inputNames nm 0 c.inputs).length = (Val.bytes code :: hostVals _ as).length := by
    rw [List.length_cons, List.length_cons, inputNames_length, hostVals_length, List.length_map]
  rw [inputsOk_iff] at h
  rw [ConstructorItem.run, show (constructorItem nm c).params = inputNames nm 0 c.inputs from rfl]
  by_cases hn : namesOk (lit "code" :: inputNames nm 0 c.inputs) = true
  rotate_left
  · exact runFn_stuck hn
  have hx : lit "c" ∈ inputNames nm 0 c.inputs := by
    rw [constructible_iff] at hc
    exact Classical.byContradiction fun hx => hc ⟨hn, hx⟩
  have hb := (bound_bindings _ _ (namesOk_nodup hn) hl).2
  rw [runFn_ok hn hl, show (constructorItem nm c).body = constructorExpr c.inputs _ from rfl, constructorExpr, eval, eval, evals, eval,
    evals_params _ _ _ h.1]
  simp only [Run.ok_bind, evals, build_constructor _ _ (asParams_map _)]
  rw [eval, eval, stuck_tokenExprs _ (lit "c") _ (.inr ⟨_, rfl⟩) _ _ _ as hb (by rw [all_kinds]; exact h.1) hx]
  rfl

theorem stuck_filter (nm : Naming) (e : Event) (hash : Bytes → Word) (prof : Profile)
    (hc : ¬ filterable nm e = true) (as : FilterArgs ((e.indexedParams true).map (·.kind))) :
    (eventModule nm e).runFilter hash prof (topicVals _ as) = .stuck := by
  have hl : (topicNames nm e).length = (topicVals _ as).length := by rw [topicNames_length, topicVals_length]
  rw [EventModule.runFilter, show (eventModule nm e).params = topicNames nm e from rfl]
  by_cases hn : namesOk (topicNames nm e) = true
  rotate_left
  · exact runFn_stuck hn
  have hx : lit "event" ∈ topicNames nm e := by
    rw [filterable_iff] at hc
    exact Classical.byContradiction fun hx => hc ⟨hn, hx⟩
  rw [runFn_ok hn hl, show (eventModule nm e).filter = filterExpr ((topicNames nm e).take 3) ((topicKinds e).take 3) from rfl,
    topicKinds_eq, filterExpr, filterExprs_length 3 _ _ as (topicNames_length nm e), eval, eval,
    evals_filterExprs _ 3 _ _ as _ (bound_bindings _ _ (namesOk_nodup hn) hl), Run.ok_bind, build_raw, Run.ok_bind, Run.ok_bind, eval,
    stuck_item]
  · rfl
  · exact find_bindings_some _ _ _ hl hx

theorem stuck_wildcard (nm : Naming) (e : Event) (hash : Bytes → Word) (prof : Profile) (hc : ¬ filterable nm e = true) :
    (eventModule nm e).runWildcardFilter hash prof = .stuck := by
  have hf := stuck_filter nm e hash prof hc (anyArgs _)
  have hv : topicVals _ (anyArgs ((e.indexedParams true).map (·.kind))) = (topicNames nm e).map fun _ => Val.topic .any := by
    rw [topicVals_any, List.map_const', List.map_const', topicNames_length]
  rw [hv] at hf
  rw [EventModule.runWildcardFilter, runFn_ok namesOk_nil rfl,
    show (eventModule nm e).wildcardFilter = .call (.item (lit "filter")) ((topicNames nm e).map fun _ => .const .topicAny) from rfl,
    eval, evals_any, Run.ok_bind]
  show returned ((eventModule nm e).runFilter hash prof ((topicNames nm e).map fun _ => Val.topic .any) >>= fun v => Run.ok (v, _)) = _
  rw [hf]; rfl

/-! ## Modules -/

theorem all_mem {α : Type} {l : List α} {p : α → Bool} (h : ∀ a ∈ l, p a = true) : l.all p = true := List.all_eq_true.2 h

theorem functionModule_implements (nm : Naming) (f : Function) (h : functionOk nm f = true) :
    (functionModule nm f).Implements nm f where
  name := rfl
  params := rfl
  function hash prof := runFunction_eq nm f hash prof h
  encode hash prof as := by
    by_cases hc : callable nm f = true
    · rw [if_pos hc]
      rw [callable_iff] at hc
      exact runEncodeInput_eq nm f hash prof h hc.1 hc.2.1 hc.2.2 as
    · rw [if_neg hc]
      exact stuck_call nm f hash prof h hc as _
  call hash prof as := by
    by_cases hc : callable nm f = true
    · rw [if_pos hc]
      rw [callable_iff] at hc
      exact runCall_eq nm f hash prof h hc.1 hc.2.1 hc.2.2 as
    · rw [if_neg hc]
      exact stuck_call nm f hash prof h hc as _
  decode hg hash prof data :=
    ⟨runDecode_eq nm f hash prof (all_mem hg) data, runDecodeOutput_eq nm f hash prof h (all_mem hg) data⟩

theorem constructorItem_implements (nm : Naming) (c : Constructor) (h : inputsOk nm c.inputs = true) :
    (constructorItem nm c).Implements nm c := by
  intro hash prof code as
  by_cases hc : constructible nm c = true
  · rw [if_pos hc]
    rw [constructible_iff] at hc
    exact runConstructor_eq nm c hash prof h hc.1 hc.2 code as
  · rw [if_neg hc]
    exact stuck_constructor nm c hash prof h hc code as

theorem eventModule_implements (nm : Naming) (e : Event) (h : eventOk nm e = true) : (eventModule nm e).Implements nm e where
  name := rfl
  params := rfl
  logName := rfl
  event hash prof := runEvent_eq nm e hash prof h
  filter hash prof as := by
    by_cases hc : filterable nm e = true
    · rw [if_pos hc]
      rw [filterable_iff] at hc
      exact runFilter_eq nm e hash prof h hc.1 hc.2 as
    · rw [if_neg hc]
      exact stuck_filter nm e hash prof hc as
  wildcard hash prof := by
    by_cases hc : filterable nm e = true
    · rw [if_pos hc]
      rw [filterable_iff] at hc
      exact runWildcardFilter_eq nm e hash prof h hc.1 hc.2
    · rw [if_neg hc]
      exact stuck_wildcard nm e hash prof hc
  parse hg hn hash prof log := runParseLog_eq nm e hash prof h (all_mem hg) hn log

end Ethabi.Spec

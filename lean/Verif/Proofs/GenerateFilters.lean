import Verif.Proofs.GenerateResults
/-!
# Lemmas: running the generated filters
-/
namespace Ethabi.Spec
variable (w : World)

/-- a topic of tokens as a value -/
def topicVal (t : Topic Token) : Val := .topic (t.map .tok)

theorem asTopic_topicVal (t : Topic Token) : asTopic (topicVal t) = .some t := by
  cases t with
  | any => rfl
  | this a => rfl
  | oneOf l => show (asToks (l.map .tok)).map Topic.oneOf = _; rw [asToks_map]; rfl

theorem eval_filterExpr1 (t : ParamType) (a : Topic (Rust t)) (n : Str) (env : Env)
    (h : ∃ b, find n env = .some b ∧ b.val = .topic (a.map (hostVal t))) :
    eval w (.map (.method (.var n) .into []) (lit "i") (tokenExpr (.var (lit "i")) t)) env =
      .ok (topicVal (a.map (toToken t)), env) := by
  obtain ⟨b, hb, hv⟩ := h
  have key : ∀ x : Rust t, eval w (tokenExpr (.var (lit "i")) t) (⟨lit "i", false, hostVal t x⟩ :: env) =
      .ok (.tok (toToken t x), ⟨lit "i", false, hostVal t x⟩ :: env) := fun x => eval_tokenExpr w t x _ _ rfl
  simp only [eval, evals, hb, Run.get, Run.ok_bind, hv, Method.apply]
  cases a with
  | any => rfl
  | this x => simp only [Topic.map, mapVal, key, Run.ok_bind]; rfl
  | oneOf l =>
      have := mapVals_map (fun v => do .ok (← eval w (tokenExpr (.var (lit "i")) t) (⟨lit "i", false, v⟩ :: env)).1) (hostVal t)
        (fun x => Val.tok (toToken t x)) l fun x _ => by simp only [key, Run.ok_bind]
      simp only [Topic.map, mapVal, this, Run.ok_bind, topicVal, toks_map]

theorem evals_filterExprs : ∀ (k : Nat) (ns : List Str) (ts : List ParamType) (as : FilterArgs ts) (env : Env),
    Bound env ns (topicVals ts as) →
    evals w (filterExprs (ns.take k) (ts.take k)) env = .ok (((filterTopics ts as).take k).map topicVal, env)
  | 0, _, _, _, _, _ => rfl
  | _ + 1, [], [], _, _, _ => rfl
  | _ + 1, n :: ns, [], _, _, h => h.elim
  | _ + 1, [], t :: ts, (a, as), _, h => h.elim
  | k + 1, n :: ns, t :: ts, (a, as), env, h => by
      have h' : (∃ b, find n env = .some b ∧ b.val = .topic (a.map (hostVal t))) ∧ Bound env ns (topicVals ts as) := h
      rw [List.take_succ_cons, List.take_succ_cons, filterExprs, evals, eval_filterExpr1 w t a n env h'.1, Run.ok_bind,
        evals_filterExprs k ns ts as env h'.2]
      rfl

theorem filterExprs_length : ∀ (k : Nat) (ns : List Str) (ts : List ParamType) (as : FilterArgs ts), ns.length = ts.length →
    (filterExprs (ns.take k) (ts.take k)).length = ((filterTopics ts as).take k).length
  | 0, _, _, _, _ => rfl
  | _ + 1, [], [], _, _ => rfl
  | _ + 1, n :: ns, [], _, h => by simp at h
  | _ + 1, [], t :: ts, (a, as), h => by simp at h
  | k + 1, n :: ns, t :: ts, (a, as), h => by
      rw [List.take_succ_cons, List.take_succ_cons, filterExprs, List.length_cons, filterExprs_length k ns ts as (by simpa using h)]
      rfl

theorem build_raw (l : List (Topic Token)) :
    buildStruct .rawTopicFilter (topicFields 0 (l.take 3).length) ((l.take 3).map topicVal) .default =
      .ok (.rawFilter (rawOfTopics l)) := by
  have h0 : numbered "topic" 0 = lit "topic0" := by decide
  have h1 : numbered "topic" 1 = lit "topic1" := by decide
  have h2 : numbered "topic" 2 = lit "topic2" := by decide
  match l with
  | [] => rfl
  | [a] =>
      show buildStruct .rawTopicFilter [numbered "topic" 0] [topicVal a] .default = _
      rw [h0]
      show (match asTopic (topicVal a), some Topic.any, some Topic.any with
        | .some a, .some b, .some c => Run.ok (Val.rawFilter { topic0 := a, topic1 := b, topic2 := c }) | _, _, _ => .stuck) = _
      rw [asTopic_topicVal]; rfl
  | [a, b] =>
      show buildStruct .rawTopicFilter [numbered "topic" 0, numbered "topic" 1] [topicVal a, topicVal b] .default = _
      rw [h0, h1]
      show (match asTopic (topicVal a), asTopic (topicVal b), some Topic.any with
        | .some a, .some b, .some c => Run.ok (Val.rawFilter { topic0 := a, topic1 := b, topic2 := c }) | _, _, _ => .stuck) = _
      rw [asTopic_topicVal, asTopic_topicVal]; rfl
  | a :: b :: c :: l =>
      show buildStruct .rawTopicFilter [numbered "topic" 0, numbered "topic" 1, numbered "topic" 2]
        [topicVal a, topicVal b, topicVal c] .default = _
      rw [h0, h1, h2]
      show (match asTopic (topicVal a), asTopic (topicVal b), asTopic (topicVal c) with
        | .some a, .some b, .some c => Run.ok (Val.rawFilter { topic0 := a, topic1 := b, topic2 := c }) | _, _, _ => .stuck) = _
      rw [asTopic_topicVal, asTopic_topicVal, asTopic_topicVal]; rfl

theorem eval_filterExpr (e : Event) (ns : List Str) (ts : List ParamType) (as : FilterArgs ts) (env : Env)
    (hlen : ns.length = ts.length) (hb : Bound env ns (topicVals ts as))
    (he : ∀ v, eval w (.call (.item (lit "event")) []) (⟨lit "raw", false, v⟩ :: env) = .ok (.ev e, ⟨lit "raw", false, v⟩ :: env)) :
    returned (eval w (filterExpr (ns.take 3) (ts.take 3)) env) =
      expected .filter (e.filter w.hash w.prof (rawOfTopics (filterTopics ts as))).expect := by
  have h1 : ∀ u v, find (lit "e") (⟨lit "e", false, v⟩ :: ⟨lit "raw", false, u⟩ :: env) = .some ⟨lit "e", false, v⟩ :=
    fun _ _ => rfl
  have h2 : ∀ u v, find (lit "raw") (⟨lit "e", false, v⟩ :: ⟨lit "raw", false, u⟩ :: env) = .some ⟨lit "raw", false, u⟩ :=
    fun _ _ => rfl
  rw [filterExpr, filterExprs_length 3 ns ts as hlen, eval, eval, evals_filterExprs w 3 ns ts as env hb, Run.ok_bind, build_raw,
    Run.ok_bind, Run.ok_bind, eval, he, Run.ok_bind]
  simp only [eval, evals, h1, h2, Run.get, Run.ok_bind, Method.apply.eq_24]
  show returned ((result .filter (e.filter w.hash w.prof (rawOfTopics (filterTopics ts as))) >>= fun v => Run.ok (v, _)) >>= _) = _
  cases e.filter w.hash w.prof (rawOfTopics (filterTopics ts as)) <;> rfl

theorem topicVals_length : ∀ (ts : List ParamType) (as : FilterArgs ts), (topicVals ts as).length = ts.length
  | [], _ => rfl
  | _ :: ts, (_, as) => by rw [topicVals, List.length_cons, topicVals_length ts as]; rfl

theorem topicKinds_eq (e : Event) : topicKinds e = (e.indexedParams true).map (·.kind) := by
  rw [topicKinds, Event.indexedParams]
  congr 2
  funext p
  cases p.indexed <;> rfl

theorem topicNamesAt_length (nm : Naming) : ∀ (i : Nat) (ps : List EventParam),
    (topicNamesAt nm i ps).length = (ps.filter (·.indexed)).length
  | _, [] => rfl
  | i, p :: ps => by
      have := topicNamesAt_length nm (i + 1) ps
      rw [topicNamesAt] at this
      rw [topicNamesAt, fieldNames, List.zip_cons_cons, List.filterMap_cons, List.filter_cons]
      cases hp : p.indexed
      · simpa [hp] using this
      · simpa [hp] using this

theorem topicNames_length (nm : Naming) (e : Event) : (topicNames nm e).length = ((e.indexedParams true).map (·.kind)).length := by
  rw [← topicKinds_eq, topicKinds, List.length_map]
  exact topicNamesAt_length nm 0 e.inputs

theorem runFilter_eq (nm : Naming) (e : Event) (hash : Bytes → Word) (prof : Profile) (h : eventOk nm e = true)
    (hn : namesOk (topicNames nm e) = true) (he : lit "event" ∉ topicNames nm e)
    (as : FilterArgs ((e.indexedParams true).map (·.kind))) :
    (eventModule nm e).runFilter hash prof (topicVals _ as) = expected .filter (genFilter nm.camel hash prof e as) := by
  have hl : (topicNames nm e).length = (topicVals _ as).length := by rw [topicNames_length, topicVals_length]
  rw [EventModule.runFilter, show (eventModule nm e).params = topicNames nm e from rfl, runFn_ok hn hl,
    show (eventModule nm e).filter = filterExpr ((topicNames nm e).take 3) ((topicKinds e).take 3) from rfl, topicKinds_eq]
  exact eval_filterExpr ((eventModule nm e).inner hash prof) (genEvent nm.camel e) _ _ as _ (topicNames_length nm e)
    (bound_bindings _ _ (namesOk_nodup hn) hl) fun v => inner_event nm e hash prof h _ (find_bindings_none _ _ _ he)

theorem topicVals_any : ∀ (ts : List ParamType), topicVals ts (anyArgs ts) = ts.map fun _ => .topic .any
  | [] => rfl
  | _ :: ts => by rw [anyArgs, topicVals, topicVals_any ts]; rfl

theorem evals_any {α : Type} (l : List α) (env : Env) :
    evals w (l.map fun _ => .const .topicAny) env = .ok (l.map fun _ => .topic .any, env) :=
  evals_map w _ _ env l fun _ _ => rfl

theorem runWildcardFilter_eq (nm : Naming) (e : Event) (hash : Bytes → Word) (prof : Profile) (h : eventOk nm e = true)
    (hn : namesOk (topicNames nm e) = true) (he : lit "event" ∉ topicNames nm e) :
    (eventModule nm e).runWildcardFilter hash prof = expected .filter (genWildcardFilter nm.camel hash prof e) := by
  have hf := runFilter_eq nm e hash prof h hn he (anyArgs _)
  have hv : topicVals _ (anyArgs ((e.indexedParams true).map (·.kind))) = (topicNames nm e).map fun _ => Val.topic .any := by
    rw [topicVals_any, List.map_const', List.map_const', topicNames_length]
  rw [hv] at hf
  rw [EventModule.runWildcardFilter, runFn_ok namesOk_nil rfl,
    show (eventModule nm e).wildcardFilter = .call (.item (lit "filter")) ((topicNames nm e).map fun _ => .const .topicAny) from rfl,
    eval, evals_any, Run.ok_bind]
  show returned ((eventModule nm e).runFilter hash prof ((topicNames nm e).map fun _ => Val.topic .any) >>= fun v => Run.ok (v, _)) = _
  rw [hf, genWildcardFilter]
  cases genFilter nm.camel hash prof e (anyArgs _) <;> rfl

end Ethabi.Spec

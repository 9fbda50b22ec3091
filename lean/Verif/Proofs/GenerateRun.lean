import Verif.Proofs.GenerateItems
import Verif.Spec.Derive
/-!
# Lemmas: running the generated text

First the expressions that recreate the declarations, then conversions of arguments to tokens and of tokens to results.
-/
namespace Ethabi.Spec

/-! ## Environments -/

theorem leave_cons (b : Binding) (env : Env) : leave env (b :: env) = env := by simp [leave]
theorem leave_cons2 (b c : Binding) (env env' : Env) (h : env'.length = env.length) : leave env (b :: c :: env') = env' := by
  rw [leave, List.length_cons, List.length_cons, h, show env.length + 1 + 1 - env.length = 2 by omega]; rfl

theorem find_cons_eq (b : Binding) (env : Env) (x : Str) (h : b.name = x) : find x (b :: env) = .some b := if_pos h
theorem find_cons_ne (b : Binding) (env : Env) (x : Str) (h : ¬ b.name = x) : find x (b :: env) = find x env := if_neg h

theorem find_bindings_none (x : Str) : ∀ (ns : List Str) (vs : List Val), x ∉ ns → find x (bindings ns vs) = .none
  | [], _, _ => rfl
  | _ :: _, [], _ => rfl
  | n :: ns, v :: vs, h => by
      rw [List.mem_cons, not_or] at h
      have := find_bindings_none x ns vs h.2
      rw [bindings] at this
      rw [bindings, List.zipWith_cons_cons, find_cons_ne _ _ _ (fun e => h.1 e.symm), this]

/-- the variables `ns` have the values `vs` -/
def Bound (env : Env) : List Str → List Val → Prop
  | n :: ns, v :: vs => (∃ b, find n env = .some b ∧ b.val = v) ∧ Bound env ns vs
  | [], [] => True
  | _, _ => False

theorem Bound.cons {b : Binding} {env : Env} : ∀ {ns : List Str} {vs : List Val}, Bound env ns vs → b.name ∉ ns →
    Bound (b :: env) ns vs
  | [], [], _, _ => trivial
  | n :: ns, v :: vs, ⟨⟨c, hc, hv⟩, h⟩, hn => by
      rw [List.mem_cons, not_or] at hn
      exact ⟨⟨c, by rw [find_cons_ne _ _ _ hn.1, hc], hv⟩, h.cons hn.2⟩

theorem bound_bindings : ∀ (ns : List Str) (vs : List Val), ns.Nodup → ns.length = vs.length → Bound (bindings ns vs) ns vs
  | [], [], _, _ => trivial
  | [], _ :: _, _, h => by simp at h
  | _ :: _, [], _, h => by simp at h
  | n :: ns, v :: vs, hd, h => by
      rw [List.nodup_cons] at hd
      have ih := bound_bindings ns vs hd.2 (by simpa using h)
      exact ⟨⟨⟨n, false, v⟩, find_cons_eq _ _ _ rfl, rfl⟩, ih.cons hd.1⟩

theorem namesOk_nodup {ns : List Str} (h : namesOk ns = true) : ns.Nodup := by
  rw [namesOk, Bool.and_eq_true, decide_eq_true_iff] at h
  exact h.1

/-! ## Declarations -/

variable (w : World)

theorem evals_map {α : Type} (f : α → Expr) (g : α → Val) (env : Env) : ∀ (l : List α),
    (∀ a ∈ l, eval w (f a) env = .ok (g a, env)) → evals w (l.map f) env = .ok (l.map g, env)
  | [], _ => rfl
  | a :: l, h => by
      rw [List.map_cons, evals, h a (by simp), Run.ok_bind, evals_map f g env l (fun b hb => h b (by simp [hb]))]
      rfl

theorem eval_typeExpr : ∀ (t : ParamType) (env : Env), tupleFree t = true → eval w (typeExpr t) env = .ok (.ty t, env)
  | .address, _, _ => rfl
  | .bytes, _, _ => rfl
  | .int _, _, _ => rfl
  | .uint _, _, _ => rfl
  | .bool, _, _ => rfl
  | .string, _, _ => rfl
  | .fixedBytes _, _, _ => rfl
  | .array t, env, h => by
      have := eval_typeExpr t env h
      simp [typeExpr, eval, evals, this, Path.apply]
  | .fixedArray t n, env, h => by
      have := eval_typeExpr t env h
      simp [typeExpr, eval, evals, this, Path.apply]
  | .tuple _, _, h => by simp [tupleFree] at h

theorem build_param (n : Str) (k : ParamType) :
    buildStruct .param [lit "name", lit "kind", lit "internal_type"] [.str n, .ty k, .none] .nothing = .ok (.param ⟨n, k, .none⟩) := rfl
theorem build_eventParam (n : Str) (k : ParamType) (i : Bool) :
    buildStruct .eventParam [lit "name", lit "kind", lit "indexed"] [.str n, .ty k, .bool i] .nothing =
      .ok (.eventParam ⟨n, k, i⟩) := rfl

theorem eval_paramExpr (p : Param) (env : Env) (h : tupleFree p.kind = true) :
    eval w (paramExpr p) env = .ok (.param { p with internalType := none }, env) := by
  simp only [paramExpr, eval, evals, eval_typeExpr w p.kind env h, Run.ok_bind, Method.apply, Const.val, build_param]

theorem eval_eventParamExpr (p : EventParam) (env : Env) (h : tupleFree p.kind = true) :
    eval w (eventParamExpr p) env = .ok (.eventParam p, env) := by
  simp only [eventParamExpr, eval, evals, eval_typeExpr w p.kind env h, Run.ok_bind, Method.apply, build_eventParam]

theorem asParams_map (ps : List Param) : asParams (ps.map .param) = .some ps := by
  induction ps with
  | nil => rfl
  | cons p ps ih => rw [List.map_cons, asParams, ih]; rfl
theorem asEventParams_map (ps : List EventParam) : asEventParams (ps.map .eventParam) = .some ps := by
  induction ps with
  | nil => rfl
  | cons p ps ih => rw [List.map_cons, asEventParams, ih]; rfl
theorem asToks_map (ts : List Token) : asToks (ts.map .tok) = .some ts := by
  induction ts with
  | nil => rfl
  | cons p ps ih => rw [List.map_cons, asToks, ih]; rfl

theorem build_function (n : Str) (is os : List Val) (c : Bool) (m : StateMutability) (ps qs : List Param)
    (h1 : asParams is = .some ps) (h2 : asParams os = .some qs) :
    buildStruct .function [lit "name", lit "inputs", lit "outputs", lit "constant", lit "state_mutability"]
      [.str n, .list is, .list os, .bool c, .mutability m] .nothing = .ok (.fn ⟨n, ps, qs, c, m⟩) := by
  show (match asParams is, asParams os with
          | .some is, .some os => Run.ok (Val.fn ⟨n, is, os, c, m⟩)
          | _, _ => .stuck) = _
  rw [h1, h2]

theorem build_constructor (is : List Val) (ps : List Param) (h1 : asParams is = .some ps) :
    buildStruct .constructor [lit "inputs"] [.list is] .comma = .ok (.ctor ⟨ps⟩) := by
  show Run.get ((asParams is).map fun ps => Val.ctor ⟨ps⟩) = _
  rw [h1]; rfl

theorem build_event (n : Str) (is : List Val) (a : Bool) (ps : List EventParam) (h1 : asEventParams is = .some ps) :
    buildStruct .event [lit "name", lit "inputs", lit "anonymous"] [.str n, .list is, .bool a] .comma = .ok (.ev ⟨n, ps, a⟩) := by
  show Run.get ((asEventParams is).map fun ps => Val.ev ⟨n, ps, a⟩) = _
  rw [h1]; rfl

theorem evals_params (ps : List Param) (env : Env) (h : (ps.all fun p => tupleFree p.kind) = true) :
    evals w (ps.map paramExpr) env = .ok ((ps.map fun p => { p with internalType := none }).map .param, env) := by
  rw [evals_map w paramExpr (fun p => .param { p with internalType := none }), List.map_map]
  · rfl
  · exact fun p hp => eval_paramExpr w p env (List.all_eq_true.1 h p hp)

theorem evals_eventParams (ps : List EventParam) (env : Env) (h : (ps.all fun p => tupleFree p.kind) = true) :
    evals w (ps.map eventParamExpr) env = .ok (ps.map .eventParam, env) :=
  evals_map w eventParamExpr _ env ps fun p hp => eval_eventParamExpr w p env (List.all_eq_true.1 h p hp)

theorem eval_declExpr (f : Function) (env : Env) (hi : (f.inputs.all fun p => tupleFree p.kind) = true)
    (ho : (f.outputs.all fun p => tupleFree p.kind) = true) : eval w (declExpr f) env = .ok (.fn (genFunction f), env) := by
  simp only [declExpr, eval, evals, evals_params w _ env hi, evals_params w _ env ho, Run.ok_bind, Method.apply, Const.val]
  rw [build_function _ _ _ _ _ _ _ (asParams_map _) (asParams_map _)]
  rfl

theorem eval_eventDeclExpr (nm : Naming) (e : Event) (env : Env) (hi : (e.inputs.all fun p => tupleFree p.kind) = true) :
    eval w (eventDeclExpr nm e) env = .ok (.ev (genEvent nm.camel e), env) := by
  simp only [eventDeclExpr, eval, evals, evals_eventParams w _ env hi, Run.ok_bind, Method.apply]
  rw [build_event _ _ _ _ (asEventParams_map _)]
  rfl

/-! ## Arguments to tokens -/

theorem mapVals_map {α : Type} (f : Val → Run Val) (g h : α → Val) (l : List α) (hf : ∀ a ∈ l, f (g a) = .ok (h a)) :
    mapVals f (l.map g) = .ok (l.map h) := by
  induction l with
  | nil => rfl
  | cons a l ih =>
      rw [List.map_cons, mapVals, hf a (by simp), Run.ok_bind, ih fun b hb => hf b (by simp [hb])]; rfl

theorem toks_map (t : ParamType) (l : List (Rust t)) :
    List.map Val.tok (List.map (toToken t) l) = List.map (fun a => Val.tok (toToken t a)) l := by rw [List.map_map]; rfl

theorem eval_tokenExpr : ∀ (t : ParamType) (a : Rust t) (name : Expr) (env : Env),
    eval w name env = .ok (hostVal t a, env) → eval w (tokenExpr name t) env = .ok (.tok (toToken t a), env)
  | .address, a, name, env, h => by simp only [tokenExpr, eval, evals, h]; rfl
  | .bytes, a, name, env, h => by simp only [tokenExpr, eval, evals, h]; rfl
  | .int _, a, name, env, h => by simp only [tokenExpr, eval, evals, h]; rfl
  | .uint _, a, name, env, h => by simp only [tokenExpr, eval, evals, h]; rfl
  | .bool, a, name, env, h => by simp only [tokenExpr, eval, evals, h]; rfl
  | .string, a, name, env, h => by simp only [tokenExpr, eval, evals, h]; rfl
  | .fixedBytes _, a, name, env, h => by simp only [tokenExpr, eval, evals, h]; rfl
  | .array t, l, name, env, h => by
      have ih : mapVals (fun v => do .ok (← eval w (tokenExpr (.var (lit "inner")) t) (⟨lit "inner", false, v⟩ :: env)).1)
          (List.map (hostVal t) l) = .ok (List.map (fun a => .tok (toToken t a)) l) := by
        refine mapVals_map _ _ _ l fun a _ => ?_
        rw [eval_tokenExpr t a (.var (lit "inner")) (⟨lit "inner", false, hostVal t a⟩ :: env) rfl]
        rfl
      have hv : hostVal (.array t) l = .list (List.map (hostVal t) l) := rfl
      have ht : List.map (fun a => Val.tok (toToken t a)) l = List.map .tok (List.map (toToken t) l) := (toks_map t l).symm
      have hf : ∀ v, find (lit "v") (⟨lit "v", false, v⟩ :: env) = .some ⟨lit "v", false, v⟩ := fun v => if_pos rfl
      simp only [tokenExpr, eval, evals, h, hv, Run.ok_bind, Method.apply, mapVal, ih, hf, Run.get, Path.apply, ht, asToks_map,
        Option.map_some, leave_cons]
      rfl
  | .fixedArray t n, l, name, env, h => by
      have ih : mapVals (fun v => do .ok (← eval w (tokenExpr (.var (lit "inner")) t) (⟨lit "inner", false, v⟩ :: env)).1)
          (List.map (hostVal t) l.1) = .ok (List.map (fun a => .tok (toToken t a)) l.1) := by
        refine mapVals_map _ _ _ l.1 fun a _ => ?_
        rw [eval_tokenExpr t a (.var (lit "inner")) (⟨lit "inner", false, hostVal t a⟩ :: env) rfl]
        rfl
      have hv : hostVal (.fixedArray t n) l = .list (List.map (hostVal t) l.1) := rfl
      have ht : List.map (fun a => Val.tok (toToken t a)) l.1 = List.map .tok (List.map (toToken t) l.1) := by rw [List.map_map]; rfl
      have hf : ∀ v, find (lit "v") (⟨lit "v", false, v⟩ :: env) = .some ⟨lit "v", false, v⟩ := fun v => if_pos rfl
      simp only [tokenExpr, eval, evals, h, hv, Run.ok_bind, Method.apply, mapVal, ih, hf, Run.get, Path.apply, ht, asToks_map,
        Option.map_some, leave_cons]
      rfl
  | .tuple _, e, _, _, _ => nomatch e

theorem eval_templateExpr (t : ParamType) (a : Rust t) (n : Str) (env : Env) (h : ∃ b, find n env = .some b ∧ b.val = hostVal t a) :
    eval w (templateExpr t n) env = .ok (hostVal t a, env) := by
  obtain ⟨b, hb, hv⟩ := h
  have hvar : eval w (.var n) env = .ok (hostVal t a, env) := by simp only [eval, hb, Run.get, Run.ok_bind, hv]
  cases t with
  | array t => simp only [templateExpr, eval, evals, hb, Run.get, Run.ok_bind, hv]; rfl
  | fixedArray t n => simp only [templateExpr, eval, evals, hb, Run.get, Run.ok_bind, hv]; rfl
  | _ => simp only [templateExpr, eval, evals, hb, Run.get, Run.ok_bind, hv, Method.apply]

theorem evals_tokenExprs : ∀ (ns : List Str) (ts : List ParamType) (as : RustArgs ts) (env : Env),
    Bound env ns (hostVals ts as) → evals w (tokenExprs ns ts) env = .ok ((toTokens ts as).map .tok, env)
  | [], [], _, _, _ => rfl
  | n :: ns, [], _, _, h => h.elim
  | [], t :: ts, (a, as), _, h => h.elim
  | n :: ns, t :: ts, (a, as), env, h => by
      have h' : (∃ b, find n env = .some b ∧ b.val = hostVal t a) ∧ Bound env ns (hostVals ts as) := h
      rw [tokenExprs, evals, eval_tokenExpr w t a _ env (eval_templateExpr w t a n env h'.1), Run.ok_bind,
        evals_tokenExprs ns ts as env h'.2]
      rfl

theorem hostVals_length : ∀ (ts : List ParamType) (as : RustArgs ts), (hostVals ts as).length = ts.length
  | [], _ => rfl
  | _ :: ts, (_, as) => by rw [hostVals, List.length_cons, hostVals_length ts as]; rfl

theorem inputNames_length (nm : Naming) : ∀ (i : Nat) (ps : List Param), (inputNames nm i ps).length = ps.length
  | _, [] => rfl
  | i, _ :: ps => by rw [inputNames, List.length_cons, inputNames_length nm (i + 1) ps]; rfl

end Ethabi.Spec

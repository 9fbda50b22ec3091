import Verif.Proofs.Reorder
import Verif.Props.Reader
/-!
# C56 and C58: undefined entries and the order of entries
-/
namespace Ethabi.Props
open Ethabi

/-! ## C56 -/

/-- **C56**: a contract loads to the same result (contract, error or panic) when every entry that the ABI format does not
define is removed from its operations, parameters and tuple members, at any depth. -/
theorem C56_contract (j : Json) : deContract (tidyContract j) = deContract j := deContract_tidy j

/-- **C56** for one operation -/
theorem C56_operation (j : Json) : deOperation (tidyOperation j) = deOperation j := deOperation_tidy j

/-- **C56** for one parameter, event parameter or tuple member inside a contract -/
theorem C56_parameters (j : Json) :
    deParam .buffered (tidyParam j) = deParam .buffered j ∧
    deEventParam .buffered (tidyEventParam j) = deEventParam .buffered j ∧
    deTupleParam .buffered (tidyMember j) = deTupleParam .buffered j :=
  ⟨deParam_tidy j, deEventParam_tidy j, deTupleParam_tidy j⟩

/-- **C56**, the other half: a parameter that is deserialised on its own is never accepted with an undefined key. -/
theorem C56_direct (fs : List (Str × Json)) (k : Str) (v : Json) (hm : (k, v) ∈ fs) :
    (k ∉ [lit "name", lit "type", lit "internalType", lit "components"] →
      (∀ p, deParam .direct (.obj fs) ≠ .ok p) ∧ (∀ p, deTupleParam .direct (.obj fs) ≠ .ok p)) ∧
    (k ∉ [lit "name", lit "type", lit "components", lit "indexed"] → ∀ p, deEventParam .direct (.obj fs) ≠ .ok p) := by
  refine ⟨fun hk => ⟨fun p h => ?_, fun p h => ?_⟩, fun hk p h => ?_⟩
  · rw [deParam, bind_ok_iff] at h
    obtain ⟨st, h, -⟩ := h
    rcases ((deParamFields_iff _ _ _ _).1 h).1 with h | h
    · cases h
    · exact hk (h _ hm)
  · rw [deTupleParam, bind_ok_iff] at h
    obtain ⟨st, h, -⟩ := h
    rcases ((deTupleFields_iff _ _ _ _).1 h).1 with h | h
    · cases h
    · exact hk (h _ hm)
  · rw [deEventParam, bind_ok_iff] at h
    obtain ⟨st, h, -⟩ := h
    rcases ((deEventFields_iff _ _ _ _).1 h).1 with h | h
    · cases h
    · exact hk (h _ hm)

/-- a contract with undefined entries at four levels -/
def untidy : Json := .arr [.obj [(lit "gas", .num 5), (lit "type", .str (lit "function")), (lit "name", .str (lit "f")),
  (lit "inputs", .arr [.obj [(lit "name", .str (lit "a")), (lit "doc", .null), (lit "type", .str (lit "tuple")),
    (lit "components", .arr [.obj [(lit "x", .bool true), (lit "type", .str (lit "bool"))]])]]),
  (lit "anonymous", .bool true), (lit "outputs", .arr [])]]

example : tidyContract untidy = .arr [.obj [(lit "type", .str (lit "function")), (lit "name", .str (lit "f")),
    (lit "inputs", .arr [.obj [(lit "name", .str (lit "a")), (lit "type", .str (lit "tuple")),
      (lit "components", .arr [.obj [(lit "type", .str (lit "bool"))]])]]), (lit "outputs", .arr [])]] := by
  rfl

example : deContract untidy = .ok { functions := [(lit "f",
    [⟨lit "f", [⟨lit "a", .tuple [.bool], none⟩], [], false, .nonPayable⟩])] } := by decide +kernel

example : tidyOperation (.arr [.str (lit "event"), .str (lit "E"), .arr [.obj [(lit "x", .null), (lit "name", .str [])]], .bool true]) =
    .arr [.str (lit "event"), .str (lit "E"), .arr [.obj [(lit "name", .str [])]], .bool true] := by rfl

example : deParam .buffered (.obj [(lit "name", .str (lit "a")), (lit "doc", .null), (lit "type", .str (lit "bool"))]) =
      .ok ⟨lit "a", .bool, none⟩ ∧
    deParam .direct (.obj [(lit "name", .str (lit "a")), (lit "doc", .null), (lit "type", .str (lit "bool"))]) =
      .err .serdeJson := by decide +kernel

/-! ## C58 -/

/-- **C58**: a contract document loads to the contract `c` exactly if the document with the entries of its objects, at any
depth, in another order does. -/
theorem C58_contract (j j' : Json) (h : Shuffled j j') (c : Contract) : deContract j = .ok c ↔ deContract j' = .ok c :=
  deContract_shuffled h c

/-- **C58** for one operation -/
theorem C58_operation (j j' : Json) (h : Shuffled j j') (op : Operation) : deOperation j = .ok op ↔ deOperation j' = .ok op :=
  deOperation_shuffled h op

/-- **C58** for parameters, event parameters and tuple members, inside a contract or on their own -/
theorem C58_parameters (mode : Mode) (j j' : Json) (h : Shuffled j j') :
    (∀ p, deParam mode j = .ok p ↔ deParam mode j' = .ok p) ∧
    (∀ p, deEventParam mode j = .ok p ↔ deEventParam mode j' = .ok p) ∧
    (∀ p, deTupleParam mode j = .ok p ↔ deTupleParam mode j' = .ok p) :=
  ⟨deParam_shuffled mode h, deEventParam_shuffled mode h, (member_shuffled h).1 mode⟩

/-- Which failure is reported can depend on the order: a malformed type text can panic (C26), and a malformed name before it
is reported first. -/
theorem C58_failures_differ :
    deParam .buffered (.obj [(lit "name", .null), (lit "type", .str (lit "]"))]) = .err .serdeJson ∧
    deParam .buffered (.obj [(lit "type", .str (lit "]")), (lit "name", .null)]) = .panic := by decide +kernel

/-- two orders of a function with a tuple parameter -/
example : Shuffled
    (.arr [.obj [(lit "type", .str (lit "constructor")), (lit "inputs", .arr [.obj [(lit "name", .str (lit "a")), (lit "type", .str (lit "bool"))]])]])
    (.arr [.obj [(lit "inputs", .arr [.obj [(lit "type", .str (lit "bool")), (lit "name", .str (lit "a"))]]), (lit "type", .str (lit "constructor"))]]) := by
  refine .arr (.cons (.obj (.cons (.refl _) (.cons (.arr (.cons (.obj (.cons (.refl _) (.cons (.refl _) .nil)) (.swap _ _ _)) .nil)) .nil))
    (.swap _ _ _)) .nil)

example : deContract
    (.arr [.obj [(lit "inputs", .arr [.obj [(lit "type", .str (lit "bool")), (lit "name", .str (lit "a"))]]), (lit "type", .str (lit "constructor"))]]) =
    .ok { constructor := some ⟨[⟨lit "a", .bool, none⟩]⟩ } := by decide +kernel

/-! ## C65 tuple components -/

theorem ascii_suffix (ds : List (Option Nat)) : ascii (suffixText ds) := by
  induction ds with
  | nil => intro c hc; cases hc
  | cons d ds ih =>
    cases d with
    | none =>
      intro c hc
      rcases List.mem_append.1 hc with h | h
      · clear hc; revert c; decide
      · exact ih c h
    | some k =>
      have e : (s!"[{k}]").toList = '[' :: (natText k ++ [']']) := by
        have hs : ∀ s : String, toString s = s := fun _ => rfl
        simp [natText, hs]
      intro c hc
      rw [suffixText, e] at hc
      simp only [List.cons_append, List.mem_cons, List.mem_append, List.append_assoc, List.not_mem_nil, or_false] at hc
      rcases hc with rfl | h | rfl | h | h
      · decide
      · exact ascii_natText k c h
      · decide
      · cases h
      · exact ih c h

theorem read_suffix (ds : List (Option Nat)) (hd : ∀ k, some k ∈ ds → k < 2 ^ 64) (s : Str) (hs : ascii s) (t : ParamType)
    (h : read s = .ok t) : read (s ++ suffixText ds) = .ok (wrap ds t) := by
  induction ds generalizing s t with
  | nil => rw [suffixText, List.append_nil, wrap]; exact h
  | cons d ds ih =>
    have hd' : ∀ k, some k ∈ ds → k < 2 ^ 64 := fun k hk => hd k (List.mem_cons_of_mem _ hk)
    cases d with
    | none =>
      rw [suffixText, wrap, ← List.append_assoc]
      refine ih hd' _ ?_ _ (by rw [read_array hs, h]; rfl)
      exact fun c hc => (List.mem_append.1 hc).elim (hs c) (fun h => by clear hc; revert c; decide)
    | some k =>
      have e : (s!"[{k}]").toList = '[' :: (natText k ++ [']']) := by
        have hs : ∀ s : String, toString s = s := fun _ => rfl
        simp [natText, hs]
      rw [suffixText, wrap, ← List.append_assoc]
      refine ih hd' _ ?_ _ (by rw [e, read_fixedArray_nat hs (hd k (List.mem_cons_self ..)), h]; rfl)
      have := ascii_suffix [some k]
      rw [suffixText, suffixText, List.append_nil] at this
      exact fun c hc => (List.mem_append.1 hc).elim (hs c) (this c)

theorem innerTuple_wrap (ds : List (Option Nat)) (t : ParamType) : innerTuple (wrap ds t) = innerTuple t := by
  induction ds generalizing t with
  | nil => rfl
  | cons d ds ih => cases d <;> rw [wrap, ih] <;> rfl

theorem extendInner_wrap (more : List ParamType) (ds : List (Option Nat)) (t : ParamType) :
    extendInner more (wrap ds t) = wrap ds (extendInner more t) := by
  induction ds generalizing t with
  | nil => rfl
  | cons d ds ih => cases d <;> rw [wrap, ih] <;> rfl

theorem deKind_tuple (ds : List (Option Nat)) (hd : ∀ k, some k ∈ ds → k < 2 ^ 64) :
    deKind (.str (lit "tuple" ++ suffixText ds)) = .ok (wrap ds (.tuple [])) := by
  rw [deKind, read_suffix ds hd (lit "tuple") (by intro c; revert c; decide) (.tuple []) (by decide +kernel)]

theorem deComponents_each (mode : Mode) (xs : List Json) (ms : List TupleParam)
    (h : List.Forall₂ (fun x m => deTupleParam mode x = .ok m) xs ms) : deComponents mode (.arr xs) = .ok ms := by
  rw [deComponents]
  induction h with
  | nil => rfl
  | cons h _ ih => rw [deTupleParams, h, Res.ok_bind, ih]; rfl

theorem setTuple_wrap (ds : List (Option Nat)) (ts : List ParamType) :
    setTupleComponents (wrap ds (.tuple [])) (some ts) = .ok (wrap ds (.tuple ts)) := by
  rw [setTupleComponents, innerTuple_wrap]
  show Res.ok (extendInner ts _) = _
  rw [extendInner_wrap]; rfl

theorem key_tn : (lit "type" = lit "name") = False := by decide
theorem key_cn : (lit "components" = lit "name") = False := by decide
theorem key_ct : (lit "components" = lit "type") = False := by decide
theorem key_ci : (lit "components" = lit "internalType") = False := by decide
theorem key_in : (lit "indexed" = lit "name") = False := by decide
theorem key_it : (lit "indexed" = lit "type") = False := by decide
theorem key_ic : (lit "indexed" = lit "components") = False := by decide
theorem key_nt : (lit "name" = lit "type") = False := by decide
theorem key_nc : (lit "name" = lit "components") = False := by decide
theorem key_ni : (lit "name" = lit "indexed") = False := by decide
theorem key_tc : (lit "type" = lit "components") = False := by decide
theorem key_ti : (lit "type" = lit "indexed") = False := by decide
theorem key_cx : (lit "components" = lit "indexed") = False := by decide

/-- **C65**: a parameter of type `tuple` with any array suffixes gets the types of its `components`, in order, as the members
of the innermost tuple.  (For entries in another order see C58, for further entries C56.) -/
theorem C65_components (mode : Mode) (n : Str) (ds : List (Option Nat)) (hd : ∀ k, some k ∈ ds → k < 2 ^ 64)
    (xs : List Json) (ms : List TupleParam) (h : List.Forall₂ (fun x m => deTupleParam mode x = .ok m) xs ms) :
    deParam mode (.obj [(lit "name", .str n), (lit "type", .str (lit "tuple" ++ suffixText ds)), (lit "components", .arr xs)]) =
      .ok ⟨n, wrap ds (.tuple (ms.map (·.kind))), none⟩ := by
  simp only [deParam, deParamFields, if_true, key_tn, key_cn, key_ct, key_ci, deKind_tuple ds hd, deComponents_each mode xs ms h,
    deString, Res.ok_bind, Option.isSome_none, Bool.false_eq_true, if_false, required, Option.map_some, setTuple_wrap]

/-- **C65** for tuple members -/
theorem C65_member_components (mode : Mode) (ds : List (Option Nat)) (hd : ∀ k, some k ∈ ds → k < 2 ^ 64)
    (xs : List Json) (ms : List TupleParam) (h : List.Forall₂ (fun x m => deTupleParam mode x = .ok m) xs ms) :
    deTupleParam mode (.obj [(lit "type", .str (lit "tuple" ++ suffixText ds)), (lit "components", .arr xs)]) =
      .ok ⟨none, wrap ds (.tuple (ms.map (·.kind))), none⟩ := by
  simp only [deTupleParam, finishTupleParam, deTupleFields, if_true, key_tn, key_cn, key_ct, key_ci, deKind_tuple ds hd,
    deComponents_each mode xs ms h, Res.ok_bind, Option.isSome_none, Bool.false_eq_true, if_false, required, Option.map_some,
    setTuple_wrap]

/-- **C65** for event parameters -/
theorem C65_event_components (mode : Mode) (n : Str) (i : Bool) (ds : List (Option Nat)) (hd : ∀ k, some k ∈ ds → k < 2 ^ 64)
    (xs : List Json) (ms : List TupleParam) (h : List.Forall₂ (fun x m => deTupleParam mode x = .ok m) xs ms) :
    deEventParam mode (.obj [(lit "name", .str n), (lit "type", .str (lit "tuple" ++ suffixText ds)),
        (lit "indexed", .bool i), (lit "components", .arr xs)]) = .ok ⟨n, wrap ds (.tuple (ms.map (·.kind))), i⟩ := by
  have hk := deKind_tuple ds hd
  have hc := deComponents_each mode xs ms h
  have hset := setTuple_wrap ds (ms.map (·.kind))
  generalize Json.str (lit "tuple" ++ suffixText ds) = v at *
  generalize Json.arr xs = w at *
  generalize wrap ds (.tuple []) = t at *
  have hf : deEventFields mode [(lit "name", .str n), (lit "type", v), (lit "indexed", .bool i), (lit "components", w)] {} =
      .ok { name := some n, kind := some t, components := some ms, indexed := some i } := by
    rw [deEventFields_iff]
    refine ⟨.inr (by simp [eventKeys]), ?_, ?_, ?_, ?_, rfl⟩
    · simp [field, key_tn, key_cn, key_in, deString]
    · simp [field, key_nt, key_ct, key_it, hk]
    · simp [field, key_nc, key_tc, key_ic, hc]
    · simp [field, key_ni, key_ti, key_cx, deBool]
  rw [deEventParam, hf, Res.ok_bind]
  exact congrArg (· >>= _) hset

/-- **C65**: without a `components` entry a parameter of type `tuple` (with any array suffixes) is not accepted. -/
theorem C65_missing (mode : Mode) (fs : List (Str × Json)) (ds : List (Option Nat)) (hd : ∀ k, some k ∈ ds → k < 2 ^ 64)
    (ht : (lit "type", .str (lit "tuple" ++ suffixText ds)) ∈ fs) (hc : ∀ e ∈ fs, e.1 ≠ lit "components") :
    (∀ p, deParam mode (.obj fs) ≠ .ok p) ∧ (∀ p, deTupleParam mode (.obj fs) ≠ .ok p) ∧
      (∀ p, deEventParam mode (.obj fs) ≠ .ok p) := by
  have hk := deKind_tuple ds hd
  have hf : ∀ o, field deKind (lit "type") fs none = .ok o → o = some (wrap ds (.tuple [])) := by
    clear hc
    intro o h
    induction fs with
    | nil => cases ht
    | cons e fs ih =>
      obtain ⟨k, v⟩ := e
      rw [field] at h
      by_cases hkey : k = lit "type"
      · rw [if_pos hkey, if_neg (by simp), bind_ok_iff] at h
        obtain ⟨a, h1, h2⟩ := h
        have ho := field_some _ _ _ _ _ h2
        rcases List.mem_cons.1 ht with he | he
        · cases he
          rw [hk] at h1; cases h1; exact ho
        · exfalso
          clear ih ho h1
          induction fs with
          | nil => cases he
          | cons e fs ih =>
            obtain ⟨k', v'⟩ := e
            rw [field] at h2
            split at h2
            · cases h2
            · rename_i hk'
              rcases List.mem_cons.1 he with he | he
              · cases he; exact hk' rfl
              · exact ih (List.mem_cons_of_mem _ he) h2 he
      · rw [if_neg hkey] at h
        rcases List.mem_cons.1 ht with he | he
        · cases he; exact absurd rfl hkey
        · exact ih he h
  have hn : ∀ (o : Option (List TupleParam)), field (deComponents mode) (lit "components") fs none = .ok o → o = none := by
    clear hf ht
    intro o h
    induction fs with
    | nil => cases h; rfl
    | cons e fs ih =>
      obtain ⟨k, v⟩ := e
      rw [field, if_neg (hc _ (List.mem_cons_self ..))] at h
      exact ih (fun e he => hc e (List.mem_cons_of_mem _ he)) h
  have hset : setTupleComponents (wrap ds (.tuple [])) none = .err .serdeJson := by
    rw [setTupleComponents, innerTuple_wrap]; rfl
  refine ⟨fun p h => ?_, fun p h => ?_, fun p h => ?_⟩
  · rw [deParam, bind_ok_iff] at h
    obtain ⟨st, h, h'⟩ := h
    obtain ⟨-, -, h1, -, h2, -⟩ := (deParamFields_iff _ _ _ _).1 h
    rw [hf _ h1, hn _ h2] at h'
    simp only [bind_ok_iff] at h'
    obtain ⟨_, -, _, h4, _, h5, -⟩ := h'
    cases h4
    have := h5.symm.trans hset
    cases this
  · rw [deTupleParam, bind_ok_iff] at h
    obtain ⟨st, h, h'⟩ := h
    obtain ⟨-, -, h1, -, h2, -⟩ := (deTupleFields_iff _ _ _ _).1 h
    rw [finishTupleParam, hf _ h1, hn _ h2] at h'
    simp only [bind_ok_iff] at h'
    obtain ⟨_, h4, _, h5, -⟩ := h'
    cases h4
    have := h5.symm.trans hset
    cases this
  · rw [deEventParam, bind_ok_iff] at h
    obtain ⟨st, h, h'⟩ := h
    obtain ⟨-, -, h1, h2, -⟩ := (deEventFields_iff _ _ _ _).1 h
    rw [hf _ h1, hn _ h2] at h'
    simp only [bind_ok_iff] at h'
    obtain ⟨_, -, _, h4, _, h5, -⟩ := h'
    cases h4
    have := h5.symm.trans hset
    cases this

example : lit "tuple" ++ suffixText [some 3, none] = lit "tuple[3][]" ∧
    wrap [some 3, none] (.tuple [.bool]) = .array (.fixedArray (.tuple [.bool]) 3) := by decide +kernel

/-- A type text that already lists members is extended: `(bool)` with a component `string` becomes a pair. -/
theorem C65_inline_members :
    deParam .direct (.obj [(lit "name", .str (lit "a")), (lit "type", .str (lit "(bool)")),
      (lit "components", .arr [.obj [(lit "type", .str (lit "string"))]])]) = .ok ⟨lit "a", .tuple [.bool, .string], none⟩ := by
  decide +kernel

end Ethabi.Props

import Verif.Proofs.Seq
import Verif.Model.Contract
import Verif.Proofs.Json
import Verif.Proofs.ReaderSizes
/-! Contracts: lookup, iteration and JSON round trip. -/
namespace Ethabi

/-! ### maps of lists -/

section Maps
variable {α : Type} (name : α → Str)

/-- distinct keys, no empty lists, every value under its own name -/
structure MapOk (m : List (Str × List α)) : Prop where
  keys : (m.map (·.1)).Nodup
  nonempty : ∀ e ∈ m, e.2 ≠ []
  named : ∀ e ∈ m, ∀ v ∈ e.2, name v = e.1

theorem mapOk_nil : MapOk name [] := ⟨List.nodup_nil, by simp, by simp⟩

theorem getEntry_none {k : Str} {m : List (Str × List α)} : getEntry k m = none ↔ k ∉ m.map (·.1) := by
  induction m with
  | nil => simp [getEntry]
  | cons e m ih =>
    obtain ⟨k', vs⟩ := e
    simp only [getEntry, List.map_cons, List.mem_cons]
    by_cases h : k' = k
    · simp [h]
    · rw [if_neg h, ih]
      constructor
      · rintro h1 (h2 | h2)
        · exact h h2.symm
        · exact h1 h2
      · intro h1 h2; exact h1 (Or.inr h2)

theorem getEntry_mem {k : Str} {m : List (Str × List α)} {vs : List α} (h : getEntry k m = some vs) : (k, vs) ∈ m := by
  induction m with
  | nil => cases h
  | cons e m ih =>
    obtain ⟨k', vs'⟩ := e
    simp only [getEntry] at h
    by_cases hk : k' = k
    · rw [if_pos hk] at h; cases h; subst hk; simp
    · rw [if_neg hk] at h; exact List.mem_cons_of_mem _ (ih h)

theorem getEntry_of_mem {k : Str} {m : List (Str × List α)} {vs : List α} (hk : (m.map (·.1)).Nodup) (h : (k, vs) ∈ m) :
    getEntry k m = some vs := by
  induction m with
  | nil => cases h
  | cons e m ih =>
    obtain ⟨k', vs'⟩ := e
    simp only [List.map_cons, List.nodup_cons] at hk
    simp only [getEntry]
    rcases List.mem_cons.1 h with h | h
    · cases h; rw [if_pos rfl]
    · have : k' ≠ k := by
        rintro rfl
        exact hk.1 (List.mem_map.2 ⟨_, h, rfl⟩)
      rw [if_neg this]; exact ih hk.2 h

theorem getEntry_perm {k : Str} {m m' : List (Str × List α)} (hk : (m.map (·.1)).Nodup) (hp : m.Perm m') :
    getEntry k m' = getEntry k m := by
  cases h : getEntry k m with
  | none =>
    rw [getEntry_none] at h ⊢
    intro h'; exact h ((hp.map _).mem_iff.2 h')
  | some vs =>
    exact getEntry_of_mem ((hp.map _).nodup_iff.1 hk) (hp.mem_iff.1 (getEntry_mem h))

theorem mapOk_perm {m m' : List (Str × List α)} (h : MapOk name m) (hp : m.Perm m') : MapOk name m' :=
  ⟨(hp.map _).nodup_iff.1 h.keys, fun e he => h.nonempty e (hp.mem_iff.2 he), fun e he => h.named e (hp.mem_iff.2 he)⟩

theorem getEntry_push (k n : Str) (v : α) (m : List (Str × List α)) :
    getEntry n (pushEntry k v m) = if n = k then some ((getEntry k m).getD [] ++ [v]) else getEntry n m := by
  induction m with
  | nil =>
    simp only [pushEntry, getEntry]
    by_cases h : n = k
    · simp [h]
    · rw [if_neg h, if_neg (fun h' => h h'.symm)]
  | cons e m ih =>
    obtain ⟨k', vs⟩ := e
    simp only [pushEntry]
    by_cases h : k' = k
    · subst h
      simp only [if_true, getEntry]
      by_cases h2 : n = k'
      · simp [h2]
      · rw [if_neg (fun h' => h2 h'.symm), if_neg h2, if_neg (fun h' => h2 h'.symm)]
    · rw [if_neg h]
      simp only [getEntry, if_neg h, ih]
      by_cases h2 : k' = n
      · subst h2; simp [h]
      · simp [h2]

theorem push_keys (k : Str) (v : α) (m : List (Str × List α)) :
    (pushEntry k v m).map (·.1) = m.map (·.1) ∨ (k ∉ m.map (·.1) ∧ (pushEntry k v m).map (·.1) = m.map (·.1) ++ [k]) := by
  induction m with
  | nil => right; simp [pushEntry]
  | cons e m ih =>
    obtain ⟨k', vs⟩ := e
    simp only [pushEntry]
    by_cases h : k' = k
    · left; simp [h]
    · rw [if_neg h]
      rcases ih with ih | ⟨h1, ih⟩
      · left; simp [ih]
      · right
        refine ⟨?_, by simp [ih]⟩
        simp only [List.map_cons, List.mem_cons, not_or]
        exact ⟨fun h' => h h'.symm, h1⟩

theorem push_mem {k : Str} {v : α} {m : List (Str × List α)} {e : Str × List α} (he : e ∈ pushEntry k v m) :
    e ∈ m ∨ (e.1 = k ∧ ∃ vs, e.2 = vs ++ [v] ∧ (vs = [] ∨ (k, vs) ∈ m)) := by
  induction m with
  | nil => right; simp only [pushEntry, List.mem_singleton] at he; subst he; exact ⟨rfl, [], rfl, Or.inl rfl⟩
  | cons e' m ih =>
    obtain ⟨k', vs⟩ := e'
    simp only [pushEntry] at he
    by_cases h : k' = k
    · rw [if_pos h] at he
      rcases List.mem_cons.1 he with he | he
      · right; subst he; subst h; exact ⟨rfl, vs, rfl, Or.inr (by simp)⟩
      · left; exact List.mem_cons_of_mem _ he
    · rw [if_neg h] at he
      rcases List.mem_cons.1 he with he | he
      · left; subst he; simp
      · rcases ih he with h1 | ⟨h1, vs', h2, h3⟩
        · left; exact List.mem_cons_of_mem _ h1
        · right; exact ⟨h1, vs', h2, h3.imp id (List.mem_cons_of_mem _)⟩

theorem mapOk_push {m : List (Str × List α)} (h : MapOk name m) (v : α) : MapOk name (pushEntry (name v) v m) := by
  refine ⟨?_, ?_, ?_⟩
  · rcases push_keys (name v) v m with h1 | ⟨h1, h2⟩
    · rw [h1]; exact h.keys
    · rw [h2, List.nodup_append]
      exact ⟨h.keys, by simp, fun a ha b hb => by rw [List.mem_singleton.1 hb]; rintro rfl; exact h1 ha⟩
  · intro e he
    rcases push_mem he with h1 | ⟨_, vs, h2, _⟩
    · exact h.nonempty e h1
    · rw [h2]; simp
  · intro e he w hw
    rcases push_mem he with h1 | ⟨h1, vs, h2, h3⟩
    · exact h.named e h1 w hw
    · rw [h2] at hw
      rw [h1]
      rcases List.mem_append.1 hw with hw | hw
      · rcases h3 with rfl | h3
        · cases hw
        · exact h.named _ h3 w hw
      · rw [List.mem_singleton.1 hw]

theorem push_flatten (k : Str) (v : α) (m : List (Str × List α)) :
    ((pushEntry k v m).flatMap (·.2)).Perm (m.flatMap (·.2) ++ [v]) := by
  induction m with
  | nil => simp [pushEntry]
  | cons e m ih =>
    obtain ⟨k', vs⟩ := e
    simp only [pushEntry]
    by_cases h : k' = k
    · rw [if_pos h]
      simp only [List.flatMap_cons, List.append_assoc]
      exact List.Perm.append_left _ List.perm_append_comm
    · rw [if_neg h]
      simp only [List.flatMap_cons, List.append_assoc]
      exact List.Perm.append_left _ ih

/-- all values pushed in order -/
def pushAll (m : List (Str × List α)) (vs : List α) : List (Str × List α) :=
  vs.foldl (fun m v => pushEntry (name v) v m) m

theorem mapOk_pushAll (vs : List α) : ∀ {m : List (Str × List α)}, MapOk name m → MapOk name (pushAll name m vs) := by
  induction vs with
  | nil => intro m h; exact h
  | cons v vs ih => intro m h; exact ih (mapOk_push name h v)

theorem pushAll_flatten (vs : List α) : ∀ (m : List (Str × List α)),
    ((pushAll name m vs).flatMap (·.2)).Perm (m.flatMap (·.2) ++ vs) := by
  induction vs with
  | nil => intro m; simp [pushAll]
  | cons v vs ih =>
    intro m
    refine (ih (pushEntry (name v) v m)).trans ?_
    refine (List.Perm.append_right _ (push_flatten (name v) v m)).trans ?_
    simp

/-- an entry for a nonempty list only -/
def nonEmpty : List α → Option (List α)
  | [] => none
  | vs => some vs

theorem nonEmpty_getD (l : List α) : (nonEmpty l).getD [] = l := by cases l <;> rfl

theorem nonEmpty_ne {l : List α} (h : l ≠ []) : nonEmpty l = some l := by cases l <;> simp_all [nonEmpty]

theorem getEntry_pushAll (n : Str) (vs : List α) : ∀ (m : List (Str × List α)), MapOk name m →
    getEntry n (pushAll name m vs) = nonEmpty ((getEntry n m).getD [] ++ vs.filter (fun v => decide (name v = n))) := by
  induction vs with
  | nil =>
    intro m h
    simp only [pushAll, List.foldl_nil, List.filter_nil, List.append_nil]
    cases hg : getEntry n m with
    | none => rfl
    | some l => rw [Option.getD_some, nonEmpty_ne (h.nonempty _ (getEntry_mem hg))]
  | cons v vs ih =>
    intro m h
    have := ih (pushEntry (name v) v m) (mapOk_push name h v)
    rw [getEntry_push] at this
    simp only [pushAll, List.foldl_cons] at this ⊢
    rw [this]
    by_cases hn : n = name v
    · subst hn; simp
    · rw [if_neg hn, List.filter_cons_of_neg (by simpa using fun h' => hn h'.symm)]

theorem flatten_filter {m : List (Str × List α)} (h : MapOk name m) (n : Str) :
    (m.flatMap (·.2)).filter (fun v => decide (name v = n)) = (getEntry n m).getD [] := by
  induction m with
  | nil => rfl
  | cons e m ih =>
    obtain ⟨k, vs⟩ := e
    have hm : MapOk name m := ⟨(List.nodup_cons.1 h.keys).2, fun e he => h.nonempty e (List.mem_cons_of_mem _ he),
      fun e he => h.named e (List.mem_cons_of_mem _ he)⟩
    have hk := h.named (k, vs) (by simp)
    rw [List.flatMap_cons, List.filter_append, ih hm]
    simp only [getEntry]
    by_cases hn : k = n
    · subst hn
      have h1 : getEntry k m = none := getEntry_none.2 (List.nodup_cons.1 h.keys).1
      rw [h1, if_pos rfl, List.filter_eq_self.2 (by simpa using hk)]
      simp
    · rw [if_neg hn, List.filter_eq_nil_iff.2 (fun v hv => by simpa [hk v hv] using hn)]
      rfl

theorem getEntry_of_flatten {m : List (Str × List α)} (h : MapOk name m) (n : Str) :
    getEntry n m = nonEmpty ((m.flatMap (·.2)).filter (fun v => decide (name v = n))) := by
  rw [flatten_filter name h]
  cases hg : getEntry n m with
  | none => rfl
  | some l => rw [Option.getD_some, nonEmpty_ne (h.nonempty _ (getEntry_mem hg))]

/-- rebuilding a map from its values, listed in any order of the entries -/
theorem getEntry_rebuild {m : List (Str × List α)} (h : MapOk name m) (n : Str) :
    getEntry n (pushAll name [] (m.flatMap (·.2))) = getEntry n m := by
  rw [getEntry_pushAll name n _ [] (mapOk_nil name), getEntry_of_flatten name h]; rfl

end Maps

/-! ### operations of a contract -/

/-- the declared functions, in order -/
def opFunctions : List Operation → List Function := List.filterMap fun | .function f => some f | _ => none
/-- the declared events, in order -/
def opEvents : List Operation → List Event := List.filterMap fun | .event e => some e | _ => none
/-- the declared constructors, in order -/
def opConstructors : List Operation → List Constructor := List.filterMap fun | .constructor c => some c | _ => none

theorem addAll_eq (ops : List Operation) : ∀ (c : Contract), ops.foldl Contract.add c =
    { constructor := (opConstructors ops).getLast?.or c.constructor
      functions := pushAll Function.name c.functions (opFunctions ops)
      events := pushAll Event.name c.events (opEvents ops)
      receive := c.receive || ops.any (fun | .receive => true | _ => false)
      fallback := c.fallback || ops.any (fun | .fallback => true | _ => false) } := by
  induction ops with
  | nil => intro c; simp [opConstructors, opFunctions, opEvents, pushAll]
  | cons op ops ih =>
    intro c
    rw [List.foldl_cons, ih]
    cases op <;> simp [Contract.add, opConstructors, opFunctions, opEvents, pushAll, List.getLast?_cons]

theorem deOperations_eq (js : List Json) : ∀ (c : Contract),
    deOperations js c = (do let ops ← deVec deOperation js; .ok (ops.foldl Contract.add c)) := by
  induction js with
  | nil => intro c; rfl
  | cons j js ih =>
    intro c
    rw [deOperations, deVec]
    cases deOperation j with
    | ok op => simp only [Res.ok_bind, ih]; cases deVec deOperation js <;> rfl
    | err e => rfl
    | panic => rfl

theorem deContract_eq (js : List Json) :
    deContract (.arr js) = (do let ops ← deVec deOperation js; .ok (ops.foldl Contract.add {})) := deOperations_eq js {}

theorem deVec_ok {α : Type} {de : Json → Res α} {js : List Json} {as : List α} :
    deVec de js = .ok as ↔ List.Forall₂ (fun j a => de j = .ok a) js as := by
  induction js generalizing as with
  | nil => simp only [deVec, Res.ok.injEq]; constructor
           · rintro rfl; exact .nil
           · intro h; cases h; rfl
  | cons j js ih =>
    simp only [deVec, Res.bind_eq_ok, Res.ok.injEq]
    constructor
    · rintro ⟨a, h1, as', h2, rfl⟩; exact .cons h1 (ih.1 h2)
    · intro h; cases h with
      | cons h1 h2 => exact ⟨_, h1, _, ih.2 h2, rfl⟩

theorem deVec_map {α : Type} {de : Json → Res α} {ser : α → Json} (l : List α) (h : ∀ a ∈ l, de (ser a) = .ok a) :
    deVec de (l.map ser) = .ok l := by
  induction l with
  | nil => rfl
  | cons a l ih =>
    rw [List.map_cons, deVec, h a (by simp), ih (fun b hb => h b (List.mem_cons_of_mem _ hb))]
    rfl

theorem deVec_mem {α : Type} {de : Json → Res α} {js : List Json} {as : List α} (h : deVec de js = .ok as) :
    ∀ a ∈ as, ∃ j ∈ js, de j = .ok a := by
  have := deVec_ok.1 h
  clear h
  induction this with
  | nil => simp
  | cons h1 _ ih =>
    intro a ha
    rcases List.mem_cons.1 ha with rfl | ha
    · exact ⟨_, by simp, h1⟩
    · obtain ⟨j, h2, h3⟩ := ih a ha; exact ⟨j, List.mem_cons_of_mem _ h2, h3⟩

/-! ### single operations -/

/-- parameters have machine-sized types, the name is sanitised -/
def FunctionOk (f : Function) : Prop :=
  '(' ∉ f.name ∧ (∀ p ∈ f.inputs, p.kind.usizeOk = true) ∧ ∀ p ∈ f.outputs, p.kind.usizeOk = true

/-- parameters have machine-sized types, the name is sanitised -/
def EventOk (e : Event) : Prop := '(' ∉ e.name ∧ ∀ p ∈ e.inputs, p.kind.usizeOk = true

/-- parameters have machine-sized types -/
def OperationOk : Operation → Prop
  | .constructor c => ∀ p ∈ c.inputs, p.kind.usizeOk = true
  | .function f => FunctionOk f
  | .event e => EventOk e
  | _ => True

theorem sanitize_id {s : Str} (h : '(' ∉ s) : sanitizeName s = s := by
  unfold sanitizeName
  induction s with
  | nil => rfl
  | cons c s ih =>
    simp only [List.mem_cons, not_or] at h
    rw [List.takeWhile_cons_of_pos (by simpa using fun h' => h.1 h'.symm), ih h.2]

theorem sanitize_no_paren (s : Str) : '(' ∉ sanitizeName s := by
  unfold sanitizeName
  induction s with
  | nil => simp
  | cons c s ih =>
    by_cases h : c = '('
    · simp [h]
    · rw [List.takeWhile_cons_of_pos (by simpa using h)]
      simp only [List.mem_cons, not_or]
      exact ⟨fun h' => h h'.symm, ih⟩

theorem deStateMutability_ser (m : StateMutability) : deStateMutability (serStateMutability m) = .ok m := by
  cases m <;> decide +kernel

theorem deArr_params (l : List Param) (h : ∀ p ∈ l, p.kind.usizeOk = true) (mode : Mode) :
    deArr (deParam mode) (.arr (l.map serParam)) = .ok l :=
  deVec_map l (fun p hp => deParam_serParam mode p (h p hp))

theorem deFunction_ser (mode : Mode) (f : Function) (h : FunctionOk f) : deFunction mode (functionFields f) = .ok f := by
  have h1 := deArr_params _ h.2.1 mode
  have h2 := deArr_params _ h.2.2 mode
  have h3 := deStateMutability_ser f.stateMutability
  have h4 := sanitize_id h.1
  simp [deFunction, functionFields, deFunctionFields, lit, deName, deString, h1, h2, h3, h4, deBool, required]

theorem deEvent_ser (mode : Mode) (e : Event) (h : EventOk e) : deEvent mode (eventFields e) = .ok e := by
  have h1 : deArr (deEventParam mode) (.arr (e.inputs.map serEventParam)) = .ok e.inputs :=
    deVec_map _ (fun p hp => deEventParam_ser mode p (h.2 p hp))
  have h4 := sanitize_id h.1
  simp [deEvent, eventFields, deEventOpFields, lit, deName, deString, h1, h4, deBool, required]

theorem deConstructor_ser (mode : Mode) (c : Constructor) (h : ∀ p ∈ c.inputs, p.kind.usizeOk = true) :
    deConstructor mode (constructorFields c) = .ok c := by
  have h1 := deArr_params _ h mode
  simp [deConstructor, constructorFields, deConstructorFields, lit, h1, required]

theorem splitTag_rest (fs : List (Str × Json)) : ∀ (tag : Json) (acc : List (Str × Json)),
    (∀ e ∈ fs, e.1 ≠ lit "type") → splitTag fs (some tag) acc = .ok (tag, acc ++ fs) := by
  induction fs with
  | nil => intro tag acc _; simp [splitTag]
  | cons e fs ih =>
    intro tag acc h
    obtain ⟨k, v⟩ := e
    rw [splitTag, if_neg (h (k, v) (by simp)), ih tag _ (fun e he => h e (List.mem_cons_of_mem _ he))]
    simp

theorem splitTag_first {fs : List (Str × Json)} (tag : Json) (h : ∀ e ∈ fs, e.1 ≠ lit "type") :
    splitTag ((lit "type", tag) :: fs) none [] = .ok (tag, fs) := by
  rw [splitTag, if_pos rfl]
  exact splitTag_rest fs tag [] h

theorem deOperation_ser (op : Operation) (h : OperationOk op) : deOperation (serOperation op) = .ok op := by
  cases op with
  | constructor c =>
    have h1 := deConstructor_ser .buffered c h
    have e := splitTag_first (fs := constructorFields c) (.str (lit "constructor")) (by
      intro e he
      simp only [constructorFields, List.mem_cons, List.not_mem_nil, or_false] at he
      subst he; simp only []; decide)
    simp only [serOperation, deOperation, e, Res.ok_bind, h1, if_true]
  | function f =>
    have h1 := deFunction_ser .buffered f h
    have e := splitTag_first (fs := functionFields f) (.str (lit "function")) (by
      intro e he
      simp only [functionFields, List.mem_cons, List.not_mem_nil, or_false] at he
      rcases he with rfl | rfl | rfl | rfl | rfl <;> (simp only []; decide))
    have n1 : lit "function" ≠ lit "constructor" := by decide
    simp only [serOperation, deOperation, e, Res.ok_bind, h1, if_true, if_neg n1]
  | event ev =>
    have h1 := deEvent_ser .buffered ev h
    have e := splitTag_first (fs := eventFields ev) (.str (lit "event")) (by
      intro e he
      simp only [eventFields, List.mem_cons, List.not_mem_nil, or_false] at he
      rcases he with rfl | rfl | rfl <;> (simp only []; decide))
    have n1 : lit "event" ≠ lit "constructor" := by decide
    have n2 : lit "event" ≠ lit "function" := by decide
    simp only [serOperation, deOperation, e, Res.ok_bind, h1, if_true, if_neg n1, if_neg n2]
  | fallback =>
    have e := splitTag_first (fs := []) (.str (lit "fallback")) (by simp)
    have n1 : lit "fallback" ≠ lit "constructor" := by decide
    have n2 : lit "fallback" ≠ lit "function" := by decide
    have n3 : lit "fallback" ≠ lit "event" := by decide
    simp only [serOperation, deOperation, e, Res.ok_bind, if_true, if_neg n1, if_neg n2, if_neg n3]
  | receive =>
    have e := splitTag_first (fs := []) (.str (lit "receive")) (by simp)
    have n1 : lit "receive" ≠ lit "constructor" := by decide
    have n2 : lit "receive" ≠ lit "function" := by decide
    have n3 : lit "receive" ≠ lit "event" := by decide
    have n4 : lit "receive" ≠ lit "fallback" := by decide
    simp only [serOperation, deOperation, e, Res.ok_bind, if_true, if_neg n1, if_neg n2, if_neg n3, if_neg n4]

/-! ### contracts -/

/-- what holds of every contract value built by deserialisation -/
structure ContractOk (c : Contract) : Prop where
  functions : MapOk Function.name c.functions
  events : MapOk Event.name c.events
  functionsOk : ∀ f ∈ c.allFunctions, FunctionOk f
  eventsOk : ∀ e ∈ c.allEvents, EventOk e
  constructorOk : ∀ k, c.constructor = some k → ∀ p ∈ k.inputs, p.kind.usizeOk = true

theorem opFunctions_operations (c : Contract) : opFunctions c.operations = c.allFunctions := by
  unfold Contract.operations Contract.allFunctions opFunctions
  have h1 : ∀ m : List (Str × List Function), (m.flatMap fun e => e.2.map Operation.function).filterMap
      (fun | .function f => some f | _ => none) = m.flatMap (·.2) := by
    intro m; induction m with
    | nil => rfl
    | cons e m ih =>
      rw [List.flatMap_cons, List.filterMap_append, ih, List.filterMap_map]
      simp [Function.comp_def]
  have h2 : ∀ m : List (Str × List Event), (m.flatMap fun e => e.2.map Operation.event).filterMap
      (fun | .function f => some f | _ => none) = ([] : List Function) := by
    intro m; rw [List.filterMap_eq_nil_iff]
    intro op hop
    simp only [List.mem_flatMap, List.mem_map] at hop
    obtain ⟨_, _, _, _, rfl⟩ := hop
    rfl
  simp only [List.filterMap_append, h1, h2]
  cases c.constructor <;> cases c.receive <;> cases c.fallback <;> simp

theorem opEvents_operations (c : Contract) : opEvents c.operations = c.allEvents := by
  unfold Contract.operations Contract.allEvents opEvents
  have h1 : ∀ m : List (Str × List Event), (m.flatMap fun e => e.2.map Operation.event).filterMap
      (fun | .event f => some f | _ => none) = m.flatMap (·.2) := by
    intro m; induction m with
    | nil => rfl
    | cons e m ih =>
      rw [List.flatMap_cons, List.filterMap_append, ih, List.filterMap_map]
      simp [Function.comp_def]
  have h2 : ∀ m : List (Str × List Function), (m.flatMap fun e => e.2.map Operation.function).filterMap
      (fun | .event f => some f | _ => none) = ([] : List Event) := by
    intro m; rw [List.filterMap_eq_nil_iff]
    intro op hop
    simp only [List.mem_flatMap, List.mem_map] at hop
    obtain ⟨_, _, _, _, rfl⟩ := hop
    rfl
  simp only [List.filterMap_append, h1, h2]
  cases c.constructor <;> cases c.receive <;> cases c.fallback <;> simp

theorem opConstructors_operations (c : Contract) : opConstructors c.operations = c.constructor.toList := by
  unfold Contract.operations opConstructors
  have h1 : ∀ m : List (Str × List Event), (m.flatMap fun e => e.2.map Operation.event).filterMap
      (fun | .constructor f => some f | _ => none) = ([] : List Constructor) := by
    intro m; rw [List.filterMap_eq_nil_iff]
    intro op hop
    simp only [List.mem_flatMap, List.mem_map] at hop
    obtain ⟨_, _, _, _, rfl⟩ := hop
    rfl
  have h2 : ∀ m : List (Str × List Function), (m.flatMap fun e => e.2.map Operation.function).filterMap
      (fun | .constructor f => some f | _ => none) = ([] : List Constructor) := by
    intro m; rw [List.filterMap_eq_nil_iff]
    intro op hop
    simp only [List.mem_flatMap, List.mem_map] at hop
    obtain ⟨_, _, _, _, rfl⟩ := hop
    rfl
  simp only [List.filterMap_append, h1, h2]
  cases c.constructor <;> cases c.receive <;> cases c.fallback <;> simp

theorem receive_operations (c : Contract) : c.operations.any (fun | .receive => true | _ => false) = c.receive := by
  unfold Contract.operations
  simp only [List.any_append, List.any_flatMap, List.any_map, Function.comp_def]
  cases c.constructor <;> cases c.receive <;> cases c.fallback <;> simp

theorem fallback_operations (c : Contract) : c.operations.any (fun | .fallback => true | _ => false) = c.fallback := by
  unfold Contract.operations
  simp only [List.any_append, List.any_flatMap, List.any_map, Function.comp_def]
  cases c.constructor <;> cases c.receive <;> cases c.fallback <;> simp

theorem operations_ok {c : Contract} (h : ContractOk c) : ∀ op ∈ c.operations, OperationOk op := by
  intro op hop
  cases op with
  | constructor k =>
    have : k ∈ opConstructors c.operations := List.mem_filterMap.2 ⟨_, hop, rfl⟩
    rw [opConstructors_operations, Option.mem_toList] at this
    exact h.constructorOk k this
  | function f =>
    have : f ∈ opFunctions c.operations := List.mem_filterMap.2 ⟨_, hop, rfl⟩
    rw [opFunctions_operations] at this
    exact h.functionsOk f this
  | event e =>
    have : e ∈ opEvents c.operations := List.mem_filterMap.2 ⟨_, hop, rfl⟩
    rw [opEvents_operations] at this
    exact h.eventsOk e this
  | fallback => trivial
  | receive => trivial

theorem deContract_ser {c : Contract} (h : ContractOk c) : ∃ c', deContract (serContract c) = .ok c' ∧
    c'.constructor = c.constructor ∧ c'.receive = c.receive ∧ c'.fallback = c.fallback ∧
    (∀ n, getEntry n c'.functions = getEntry n c.functions) ∧ (∀ n, getEntry n c'.events = getEntry n c.events) := by
  refine ⟨c.operations.foldl Contract.add {}, ?_, ?_, ?_, ?_, ?_, ?_⟩
  · rw [serContract, deContract_eq, deVec_map _ (fun op hop => deOperation_ser op (operations_ok h op hop))]; rfl
  · rw [addAll_eq, opConstructors_operations]; cases c.constructor <;> rfl
  · rw [addAll_eq]; simpa using receive_operations c
  · rw [addAll_eq]; simpa using fallback_operations c
  · intro n; rw [addAll_eq, opFunctions_operations]; exact getEntry_rebuild _ h.functions n
  · intro n; rw [addAll_eq, opEvents_operations]; exact getEntry_rebuild _ h.events n

theorem contractOk_perm {c : Contract} (h : ContractOk c) {fs : List (Str × List Function)} {es : List (Str × List Event)}
    (hf : c.functions.Perm fs) (he : c.events.Perm es) : ContractOk { c with functions := fs, events := es } :=
  ⟨mapOk_perm _ h.functions hf, mapOk_perm _ h.events he,
   fun f hm => h.functionsOk f ((hf.flatMap_right _).mem_iff.2 hm),
   fun e hm => h.eventsOk e ((he.flatMap_right _).mem_iff.2 hm), h.constructorOk⟩

/-! ### values produced by deserialisation -/

theorem extendInner_usizeOk {more : List ParamType} (hm : ∀ t ∈ more, t.usizeOk = true) :
    ∀ {t : ParamType}, t.usizeOk = true → (extendInner more t).usizeOk = true
  | .array t, h => by simp only [extendInner, ParamType.usizeOk] at h ⊢; exact extendInner_usizeOk hm h
  | .fixedArray t n, h => by
      simp only [extendInner, ParamType.usizeOk, Bool.and_eq_true] at h ⊢; exact ⟨h.1, extendInner_usizeOk hm h.2⟩
  | .tuple ts, h => by
      simp only [extendInner, ParamType.usizeOk, usizeOkAll_iff] at h ⊢
      intro t ht
      rcases List.mem_append.1 ht with ht | ht
      · exact h t ht
      · exact hm t ht
  | .address, h => h
  | .bytes, h => h
  | .bool, h => h
  | .string, h => h
  | .int _, h => h
  | .uint _, h => h
  | .fixedBytes _, h => h

theorem setTupleComponents_usizeOk {t u : ParamType} {comps : Option (List ParamType)} (ht : t.usizeOk = true)
    (hc : ∀ l, comps = some l → ∀ t ∈ l, t.usizeOk = true) (h : setTupleComponents t comps = .ok u) : u.usizeOk = true := by
  unfold setTupleComponents at h
  split at h
  · split at h
    · cases h; exact extendInner_usizeOk (hc _ rfl) ht
    · cases h
  · cases h; exact ht

theorem deKind_usizeOk {j : Json} {t : ParamType} (h : deKind j = .ok t) : t.usizeOk = true := by
  unfold deKind at h
  split at h
  · split at h
    · cases h; exact read_fits (by assumption)
    · cases h
    · cases h
  · cases h

/-- collected fields are machine-sized -/
def FieldsFit (st : FieldSt) : Prop :=
  (∀ t, st.kind = some t → t.usizeOk = true) ∧ ∀ l, st.components = some l → ∀ p ∈ l, p.kind.usizeOk = true

theorem fieldsFit_empty : FieldsFit {} := ⟨by simp, by simp⟩

theorem fields_kind {st : FieldSt} (h : FieldsFit st) {t u : ParamType} (h1 : required st.kind = .ok t)
    (h2 : setTupleComponents t (st.components.map (·.map (·.kind))) = .ok u) : u.usizeOk = true := by
  refine setTupleComponents_usizeOk (h.1 t ?_) ?_ h2
  · cases hk : st.kind with
    | none => rw [hk] at h1; cases h1
    | some t' => rw [hk] at h1; cases h1; rfl
  · intro l hl t ht
    cases hc : st.components with
    | none => rw [hc] at hl; cases hl
    | some ps =>
      rw [hc] at hl; cases hl
      obtain ⟨p, hp, rfl⟩ := List.mem_map.1 ht
      exact h.2 ps hc p hp

mutual
theorem deTupleParam_fits (mode : Mode) : ∀ (j : Json) (p : TupleParam), deTupleParam mode j = .ok p → p.kind.usizeOk = true
  | .obj fs, p, h => by
      simp only [deTupleParam, finishTupleParam, Res.bind_eq_ok, Res.ok.injEq] at h
      obtain ⟨st, h1, t, h2, u, h3, rfl⟩ := h
      exact fields_kind (deTupleFields_fits mode fs {} st fieldsFit_empty h1) h2 h3
  | .null, _, h => by simp [deTupleParam] at h
  | .bool _, _, h => by simp [deTupleParam] at h
  | .num _, _, h => by simp [deTupleParam] at h
  | .str _, _, h => by simp [deTupleParam] at h
  | .arr _, _, h => by simp [deTupleParam] at h
theorem deTupleFields_fits (mode : Mode) : ∀ (fs : List (Str × Json)) (st st' : FieldSt), FieldsFit st →
    deTupleFields mode fs st = .ok st' → FieldsFit st'
  | [], st, st', h, he => by simp only [deTupleFields, Res.ok.injEq] at he; exact he ▸ h
  | (k, v) :: fs, st, st', h, he => by
      have ih := deTupleFields_fits mode fs
      have ihc := deComponents_fits mode v
      simp only [deTupleFields] at he
      split at he
      · split at he
        · cases he
        · simp only [Res.bind_eq_ok] at he
          obtain ⟨x, hx, he⟩ := he
          (refine ih _ _ ?_ he; exact h)
      · split at he
        · split at he
          · cases he
          · simp only [Res.bind_eq_ok] at he
            obtain ⟨x, hx, he⟩ := he
            (refine ih _ _ ?_ he; exact ⟨fun t ht => by cases ht; exact deKind_usizeOk hx, h.2⟩)
        · split at he
          · split at he
            · cases he
            · simp only [Res.bind_eq_ok] at he
              obtain ⟨x, hx, he⟩ := he
              (refine ih _ _ ?_ he; exact h)
          · split at he
            · split at he
              · cases he
              · simp only [Res.bind_eq_ok] at he
                obtain ⟨x, hx, he⟩ := he
                (refine ih _ _ ?_ he; exact ⟨h.1, fun l hl => by cases hl; exact ihc x hx⟩)
            · cases mode with
              | direct => cases he
              | buffered => (refine ih _ _ ?_ he; exact h)
theorem deComponents_fits (mode : Mode) : ∀ (j : Json) (ps : List TupleParam), deComponents mode j = .ok ps →
    ∀ p ∈ ps, p.kind.usizeOk = true
  | .arr xs, ps, h => by simp only [deComponents] at h; exact deTupleParams_fits mode xs ps h
  | .null, _, h => by simp [deComponents] at h
  | .bool _, _, h => by simp [deComponents] at h
  | .num _, _, h => by simp [deComponents] at h
  | .str _, _, h => by simp [deComponents] at h
  | .obj _, _, h => by simp [deComponents] at h
theorem deTupleParams_fits (mode : Mode) : ∀ (js : List Json) (ps : List TupleParam), deTupleParams mode js = .ok ps →
    ∀ p ∈ ps, p.kind.usizeOk = true
  | [], ps, h => by simp only [deTupleParams, Res.ok.injEq] at h; subst h; simp
  | x :: xs, ps, h => by
      have h1 := deTupleParam_fits mode x
      have h2 := deTupleParams_fits mode xs
      simp only [deTupleParams, Res.bind_eq_ok, Res.ok.injEq] at h
      obtain ⟨p, hp, qs, hq, rfl⟩ := h
      intro q hq'
      rcases List.mem_cons.1 hq' with rfl | hq'
      · exact h1 _ hp
      · exact h2 _ hq q hq'
end

theorem deParamFields_fits (mode : Mode) : ∀ (fs : List (Str × Json)) (st st' : FieldSt), FieldsFit st →
    deParamFields mode fs st = .ok st' → FieldsFit st'
  | [], st, st', h, he => by simp only [deParamFields, Res.ok.injEq] at he; exact he ▸ h
  | (k, v) :: fs, st, st', h, he => by
      have ih := deParamFields_fits mode fs
      have ihc := deComponents_fits mode v
      simp only [deParamFields] at he
      split at he
      · split at he
        · cases he
        · simp only [Res.bind_eq_ok] at he
          obtain ⟨x, hx, he⟩ := he
          (refine ih _ _ ?_ he; exact h)
      · split at he
        · split at he
          · cases he
          · simp only [Res.bind_eq_ok] at he
            obtain ⟨x, hx, he⟩ := he
            (refine ih _ _ ?_ he; exact ⟨fun t ht => by cases ht; exact deKind_usizeOk hx, h.2⟩)
        · split at he
          · split at he
            · cases he
            · simp only [Res.bind_eq_ok] at he
              obtain ⟨x, hx, he⟩ := he
              (refine ih _ _ ?_ he; exact h)
          · split at he
            · split at he
              · cases he
              · simp only [Res.bind_eq_ok] at he
                obtain ⟨x, hx, he⟩ := he
                (refine ih _ _ ?_ he; exact ⟨h.1, fun l hl => by cases hl; exact ihc x hx⟩)
            · cases mode with
              | direct => cases he
              | buffered => (refine ih _ _ ?_ he; exact h)

theorem deParam_fits {mode : Mode} {j : Json} {p : Param} (h : deParam mode j = .ok p) : p.kind.usizeOk = true := by
  unfold deParam at h
  split at h
  · simp only [Res.bind_eq_ok, Res.ok.injEq] at h
    obtain ⟨st, h1, n, _, t, h2, u, h3, rfl⟩ := h
    exact fields_kind (deParamFields_fits mode _ {} st fieldsFit_empty h1) h2 h3
  · cases h

theorem deEventFields_fits (mode : Mode) : ∀ (fs : List (Str × Json)) (st st' : FieldSt), FieldsFit st →
    deEventFields mode fs st = .ok st' → FieldsFit st'
  | [], st, st', h, he => by simp only [deEventFields, Res.ok.injEq] at he; exact he ▸ h
  | (k, v) :: fs, st, st', h, he => by
      have ih := deEventFields_fits mode fs
      have ihc := deComponents_fits mode v
      simp only [deEventFields] at he
      split at he
      · split at he
        · cases he
        · simp only [Res.bind_eq_ok] at he
          obtain ⟨x, hx, he⟩ := he
          (refine ih _ _ ?_ he; exact h)
      · split at he
        · split at he
          · cases he
          · simp only [Res.bind_eq_ok] at he
            obtain ⟨x, hx, he⟩ := he
            (refine ih _ _ ?_ he; exact ⟨fun t ht => by cases ht; exact deKind_usizeOk hx, h.2⟩)
        · split at he
          · split at he
            · cases he
            · simp only [Res.bind_eq_ok] at he
              obtain ⟨x, hx, he⟩ := he
              (refine ih _ _ ?_ he; exact ⟨h.1, fun l hl => by cases hl; exact ihc x hx⟩)
          · split at he
            · split at he
              · cases he
              · simp only [Res.bind_eq_ok] at he
                obtain ⟨x, hx, he⟩ := he
                (refine ih _ _ ?_ he; exact h)
            · cases mode with
              | direct => cases he
              | buffered => (refine ih _ _ ?_ he; exact h)

theorem deEventParam_fits {mode : Mode} {j : Json} {p : EventParam} (h : deEventParam mode j = .ok p) : p.kind.usizeOk = true := by
  unfold deEventParam at h
  split at h
  · simp only [Res.bind_eq_ok, Res.ok.injEq] at h
    obtain ⟨st, h1, n, _, t, h2, u, h3, rfl⟩ := h
    exact fields_kind (deEventFields_fits mode _ {} st fieldsFit_empty h1) h2 h3
  · cases h

theorem deArr_mem {α : Type} {de : Json → Res α} {j : Json} {as : List α} (h : deArr de j = .ok as) :
    ∀ a ∈ as, ∃ j, de j = .ok a := by
  unfold deArr at h
  split at h
  · intro a ha; obtain ⟨j, _, hj⟩ := deVec_mem h a ha; exact ⟨j, hj⟩
  · cases h

theorem deName_no_paren {j : Json} {s : Str} (h : deName j = .ok s) : '(' ∉ s := by
  simp only [deName, Res.bind_eq_ok, Res.ok.injEq] at h
  obtain ⟨t, _, rfl⟩ := h
  exact sanitize_no_paren t

/-- collected operation fields are as required of operations -/
def OpStOk (st : OpSt) : Prop :=
  (∀ s, st.name = some s → '(' ∉ s) ∧ (∀ l, st.inputs = some l → ∀ p ∈ l, p.kind.usizeOk = true) ∧
  (∀ l, st.outputs = some l → ∀ p ∈ l, p.kind.usizeOk = true) ∧
  (∀ l, st.eventInputs = some l → ∀ p ∈ l, p.kind.usizeOk = true)

theorem opStOk_empty : OpStOk {} := ⟨by simp, by simp, by simp, by simp⟩

theorem params_fit {mode : Mode} {j : Json} {ps : List Param} (h : deArr (deParam mode) j = .ok ps) :
    ∀ p ∈ ps, p.kind.usizeOk = true := by
  intro p hp; obtain ⟨j, hj⟩ := deArr_mem h p hp; exact deParam_fits hj

theorem eventParams_fit {mode : Mode} {j : Json} {ps : List EventParam} (h : deArr (deEventParam mode) j = .ok ps) :
    ∀ p ∈ ps, p.kind.usizeOk = true := by
  intro p hp; obtain ⟨j, hj⟩ := deArr_mem h p hp; exact deEventParam_fits hj

theorem deFunctionFields_ok (mode : Mode) : ∀ (fs : List (Str × Json)) (st st' : OpSt), OpStOk st →
    deFunctionFields mode fs st = .ok st' → OpStOk st'
  | [], st, st', h, he => by simp only [deFunctionFields, Res.ok.injEq] at he; exact he ▸ h
  | (k, v) :: fs, st, st', h, he => by
      have ih := deFunctionFields_ok mode fs
      obtain ⟨h1, h2, h3, h4⟩ := h
      simp only [deFunctionFields] at he
      repeat' split at he
      all_goals first
        | cases he
        | (simp only [Res.bind_eq_ok] at he
           obtain ⟨x, hx, he⟩ := he
           first
             | (refine ih _ _ ?_ he; exact ⟨fun s hs => by cases hs; exact deName_no_paren hx, h2, h3, h4⟩)
             | (refine ih _ _ ?_ he; exact ⟨h1, fun l hl => by cases hl; exact params_fit hx, h3, h4⟩)
             | (refine ih _ _ ?_ he; exact ⟨h1, h2, fun l hl => by cases hl; exact params_fit hx, h4⟩)
             | (refine ih _ _ ?_ he; exact ⟨h1, h2, h3, h4⟩))
        | (refine ih _ _ ?_ he; exact ⟨h1, h2, h3, h4⟩)

theorem deEventOpFields_ok (mode : Mode) : ∀ (fs : List (Str × Json)) (st st' : OpSt), OpStOk st →
    deEventOpFields mode fs st = .ok st' → OpStOk st'
  | [], st, st', h, he => by simp only [deEventOpFields, Res.ok.injEq] at he; exact he ▸ h
  | (k, v) :: fs, st, st', h, he => by
      have ih := deEventOpFields_ok mode fs
      obtain ⟨h1, h2, h3, h4⟩ := h
      simp only [deEventOpFields] at he
      repeat' split at he
      all_goals first
        | cases he
        | (simp only [Res.bind_eq_ok] at he
           obtain ⟨x, hx, he⟩ := he
           first
             | (refine ih _ _ ?_ he; exact ⟨fun s hs => by cases hs; exact deName_no_paren hx, h2, h3, h4⟩)
             | (refine ih _ _ ?_ he; exact ⟨h1, h2, h3, fun l hl => by cases hl; exact eventParams_fit hx⟩)
             | (refine ih _ _ ?_ he; exact ⟨h1, h2, h3, h4⟩))
        | (refine ih _ _ ?_ he; exact ⟨h1, h2, h3, h4⟩)

theorem deConstructorFields_ok (mode : Mode) : ∀ (fs : List (Str × Json)) (st st' : OpSt), OpStOk st →
    deConstructorFields mode fs st = .ok st' → OpStOk st'
  | [], st, st', h, he => by simp only [deConstructorFields, Res.ok.injEq] at he; exact he ▸ h
  | (k, v) :: fs, st, st', h, he => by
      have ih := deConstructorFields_ok mode fs
      obtain ⟨h1, h2, h3, h4⟩ := h
      simp only [deConstructorFields] at he
      repeat' split at he
      all_goals first
        | cases he
        | (simp only [Res.bind_eq_ok] at he
           obtain ⟨x, hx, he⟩ := he
           (refine ih _ _ ?_ he; exact ⟨h1, fun l hl => by cases hl; exact params_fit hx, h3, h4⟩))
        | (refine ih _ _ ?_ he; exact ⟨h1, h2, h3, h4⟩)

theorem required_ok {α : Type} {o : Option α} {a : α} (h : required o = .ok a) : o = some a := by
  cases o with
  | none => cases h
  | some b => cases h; rfl

theorem functionSeq_ok {mode : Mode} {xs : List Json} {f : Function} : deFunctionSeq mode xs = .ok f ↔
    ∃ a b c tail, xs = a :: b :: c :: tail ∧ deName a = .ok f.name ∧ deArr (deParam mode) b = .ok f.inputs ∧
      deArr (deParam mode) c = .ok f.outputs ∧
      ((tail = [] ∧ f.constant = false ∧ f.stateMutability = .nonPayable) ∨
       (∃ d, tail = [d] ∧ deBool d = .ok f.constant ∧ f.stateMutability = .nonPayable) ∨
       ∃ d e, tail = [d, e] ∧ deBool d = .ok f.constant ∧ deStateMutability e = .ok f.stateMutability) := by
  obtain ⟨n, i, o, k, m⟩ := f
  constructor
  · intro h
    rcases xs with _ | ⟨a, _ | ⟨b, _ | ⟨c, _ | ⟨d, _ | ⟨e, _ | ⟨g, xs⟩⟩⟩⟩⟩⟩ <;>
      simp only [deFunctionSeq, next_cons, next_nil, required, Res.ok_bind, endOfSeq, Res.bind_eq_ok, Res.ok.injEq,
        Function.mk.injEq, Option.getD_none, Option.getD_some] at h
    · obtain ⟨_, h, _⟩ := h; cases h
    · obtain ⟨_, _, _, h, _⟩ := h; cases h
    · obtain ⟨_, _, _, _, _, h, _⟩ := h; cases h
    · obtain ⟨n, h1, i, h2, o, h3, rfl, rfl, rfl, rfl, rfl⟩ := h
      exact ⟨_, _, _, _, rfl, h1, h2, h3, Or.inl ⟨rfl, rfl, rfl⟩⟩
    · obtain ⟨n, h1, i, h2, o, h3, k, h4, rfl, rfl, rfl, rfl, rfl⟩ := h
      exact ⟨_, _, _, _, rfl, h1, h2, h3, Or.inr (Or.inl ⟨_, rfl, h4, rfl⟩)⟩
    · obtain ⟨n, h1, i, h2, o, h3, k, h4, m, h5, rfl, rfl, rfl, rfl, rfl⟩ := h
      exact ⟨_, _, _, _, rfl, h1, h2, h3, Or.inr (Or.inr ⟨_, _, rfl, h4, h5⟩)⟩
    · obtain ⟨_, _, _, _, _, _, _, _, _, _, _, h, _⟩ := h; cases h
  · rintro ⟨a, b, c, tail, rfl, h1, h2, h3, ⟨rfl, h4, h5⟩ | ⟨d, rfl, h4, h5⟩ | ⟨d, e, rfl, h4, h5⟩⟩ <;>
      simp only at h1 h2 h3 h4 h5 <;>
      simp only [deFunctionSeq, next_cons, next_nil, required, Res.ok_bind, endOfSeq, h1, h2, h3, h4, h5,
        Option.getD_none, Option.getD_some]

theorem eventSeq_ok {mode : Mode} {xs : List Json} {e : Event} : deEventSeq mode xs = .ok e ↔
    ∃ a b c, xs = [a, b, c] ∧ deName a = .ok e.name ∧ deArr (deEventParam mode) b = .ok e.inputs ∧
      deBool c = .ok e.anonymous := by
  obtain ⟨n, i, k⟩ := e
  constructor
  · intro h
    rcases xs with _ | ⟨a, _ | ⟨b, _ | ⟨c, _ | ⟨d, xs⟩⟩⟩⟩ <;>
      simp only [deEventSeq, next_cons, next_nil, required, Res.ok_bind, endOfSeq, Res.bind_eq_ok, Res.ok.injEq,
        Event.mk.injEq] at h
    · obtain ⟨_, h, _⟩ := h; cases h
    · obtain ⟨_, _, _, h, _⟩ := h; cases h
    · obtain ⟨_, _, _, _, _, h, _⟩ := h; cases h
    · obtain ⟨n, h1, i, h2, o, h3, rfl, rfl, rfl⟩ := h
      exact ⟨_, _, _, rfl, h1, h2, h3⟩
    · obtain ⟨_, _, _, _, _, _, _, h, _⟩ := h; cases h
  · rintro ⟨a, b, c, rfl, h1, h2, h3⟩
    simp only at h1 h2 h3
    simp only [deEventSeq, next_cons, required, Res.ok_bind, endOfSeq, h1, h2, h3]

theorem constructorSeq_ok {mode : Mode} {xs : List Json} {k : Constructor} : deConstructorSeq mode xs = .ok k ↔
    ∃ a, xs = [a] ∧ deArr (deParam mode) a = .ok k.inputs := by
  obtain ⟨i⟩ := k
  constructor
  · intro h
    rcases xs with _ | ⟨a, _ | ⟨b, xs⟩⟩ <;>
      simp only [deConstructorSeq, next_cons, next_nil, required, Res.ok_bind, endOfSeq, Res.bind_eq_ok, Res.ok.injEq,
        Constructor.mk.injEq] at h
    · obtain ⟨_, h, _⟩ := h; cases h
    · obtain ⟨n, h1, rfl⟩ := h
      exact ⟨_, rfl, h1⟩
    · obtain ⟨_, _, _, h, _⟩ := h; cases h
  · rintro ⟨a, rfl, h1⟩
    simp only at h1
    simp only [deConstructorSeq, next_cons, required, Res.ok_bind, endOfSeq, h1]

theorem endOfSeq_ok {xs : List Json} {u : Unit} : endOfSeq xs = .ok u ↔ xs = [] := by
  cases xs <;> simp [endOfSeq]

theorem deOperationSeq_ok {xs : List Json} {op : Operation} (h : deOperationSeq xs = .ok op) : OperationOk op := by
  unfold deOperationSeq at h
  split at h
  · repeat' split at h
    · simp only [Res.bind_eq_ok, Res.ok.injEq] at h
      obtain ⟨c, h, rfl⟩ := h
      obtain ⟨a, _, h⟩ := constructorSeq_ok.1 h
      exact params_fit h
    · simp only [Res.bind_eq_ok, Res.ok.injEq] at h
      obtain ⟨c, h, rfl⟩ := h
      obtain ⟨_, _, _, _, _, h1, h2, h3, _⟩ := functionSeq_ok.1 h
      exact ⟨deName_no_paren h1, params_fit h2, params_fit h3⟩
    · simp only [Res.bind_eq_ok, Res.ok.injEq] at h
      obtain ⟨c, h, rfl⟩ := h
      obtain ⟨_, _, _, _, h1, h2, h3⟩ := eventSeq_ok.1 h
      exact ⟨deName_no_paren h1, eventParams_fit h2⟩
    · simp only [Res.bind_eq_ok, Res.ok.injEq] at h
      obtain ⟨_, _, rfl⟩ := h; trivial
    · simp only [Res.bind_eq_ok, Res.ok.injEq] at h
      obtain ⟨_, _, rfl⟩ := h; trivial
    · cases h
  · cases h

theorem deOperation_ok {j : Json} {op : Operation} (h : deOperation j = .ok op) : OperationOk op := by
  unfold deOperation at h
  split at h
  · simp only [Res.bind_eq_ok, Prod.exists] at h
    obtain ⟨tag, rest, _, h⟩ := h
    split at h
    · repeat' split at h
      · simp only [deConstructor, Res.bind_eq_ok, Res.ok.injEq] at h
        obtain ⟨c, ⟨st, h1, l, h2, rfl⟩, rfl⟩ := h
        exact (deConstructorFields_ok _ _ _ _ opStOk_empty h1).2.1 l (required_ok h2)
      · simp only [deFunction, Res.bind_eq_ok, Res.ok.injEq] at h
        obtain ⟨f, ⟨st, h1, n, h2, i, h3, o, h4, rfl⟩, rfl⟩ := h
        have := deFunctionFields_ok _ _ _ _ opStOk_empty h1
        exact ⟨this.1 n (required_ok h2), this.2.1 i (required_ok h3), this.2.2.1 o (required_ok h4)⟩
      · simp only [deEvent, Res.bind_eq_ok, Res.ok.injEq] at h
        obtain ⟨e, ⟨st, h1, n, h2, i, h3, o, h4, rfl⟩, rfl⟩ := h
        have := deEventOpFields_ok _ _ _ _ opStOk_empty h1
        exact ⟨this.1 n (required_ok h2), this.2.2.2 i (required_ok h3)⟩
      · cases h; trivial
      · cases h; trivial
      · cases h
    · cases h
  · exact deOperationSeq_ok h
  · cases h

theorem deContract_ok {j : Json} {c : Contract} (h : deContract j = .ok c) : ContractOk c := by
  unfold deContract at h
  split at h
  · rw [deOperations_eq] at h
    simp only [Res.bind_eq_ok, Res.ok.injEq] at h
    obtain ⟨ops, h1, rfl⟩ := h
    have hops : ∀ op ∈ ops, OperationOk op := fun op hop => by
      obtain ⟨j, _, hj⟩ := deVec_mem h1 op hop; exact deOperation_ok hj
    rw [addAll_eq]
    refine ⟨mapOk_pushAll _ _ (mapOk_nil _), mapOk_pushAll _ _ (mapOk_nil _), ?_, ?_, ?_⟩
    · intro f hf
      have := (pushAll_flatten Function.name (opFunctions ops) []).mem_iff.1 hf
      rw [List.flatMap_nil, List.nil_append] at this
      obtain ⟨op, hop, he⟩ := List.mem_filterMap.1 this
      cases op <;> cases he
      exact hops _ hop
    · intro f hf
      have := (pushAll_flatten Event.name (opEvents ops) []).mem_iff.1 hf
      rw [List.flatMap_nil, List.nil_append] at this
      obtain ⟨op, hop, he⟩ := List.mem_filterMap.1 this
      cases op <;> cases he
      exact hops _ hop
    · intro k hk
      have hk : (opConstructors ops).getLast? = some k := by simpa using hk
      obtain ⟨op, hop, he⟩ := List.mem_filterMap.1 (List.mem_of_getLast? hk)
      cases op <;> cases he
      exact hops _ hop
  · cases h

end Ethabi

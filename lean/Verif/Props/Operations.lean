import Verif.Proofs.Operations
import Verif.Props.Crash
import Verif.Props.Errors
import Verif.Model.Cli
/-! # The order of the operations of an ABI -/
namespace Ethabi.Props
open Spec Schema Crash

/-- **C108.** Two loaded ABIs give equal contracts exactly if they declare the same functions of each name, in the same
order, the same events of each name, in the same order, the same last constructor, and both or neither a receive and a
fallback function. -/
theorem C108_same (j j' : Json) (c c' : Contract) (ops ops' : List Operation) (h : DenotesEach DenotesOperation j ops)
    (h' : DenotesEach DenotesOperation j' ops') (hc : deContract j = .ok c) (hc' : deContract j' = .ok c') :
    SameContract c c' ↔
      (∀ n, declaredFunctions n ops = declaredFunctions n ops') ∧ (∀ n, declaredEvents n ops = declaredEvents n ops') ∧
      lastConstructor ops = lastConstructor ops' ∧ (Operation.receive ∈ ops ↔ Operation.receive ∈ ops') ∧
      (Operation.fallback ∈ ops ↔ Operation.fallback ∈ ops') := by
  obtain ⟨a1, a2, a3, a4, a5⟩ := Ops.loaded h hc
  obtain ⟨b1, b2, b3, b4, b5⟩ := Ops.loaded h' hc'
  unfold SameContract
  rw [← a1, ← b1, ← a2, ← b2, ← a3, ← b3]
  constructor
  · rintro ⟨e1, e2, e3, e4, e5⟩
    exact ⟨fun n => Ops.answer_inj (n := n) (by rw [← a4, ← b4, e4]),
      fun n => Ops.answer_inj (n := n) (by rw [← a5, ← b5, e5]), e1, by rw [e2], by rw [e3]⟩
  · rintro ⟨e1, e2, e3, e4, e5⟩
    exact ⟨e3, Bool.eq_iff_iff.2 e4, Bool.eq_iff_iff.2 e5, fun n => by rw [a4, b4, e1], fun n => by rw [a5, b5, e2]⟩

/-- **C108.** If no two operations compete, the order of the array does not matter. -/
theorem C108_any_order (js js' : List Json) (c : Contract) (ops : List Operation)
    (h : DenotesEach DenotesOperation (.arr js) ops) (hc : deContract (.arr js) = .ok c)
    (hp : ops.Pairwise fun a b => ¬ Competes a b) (p : js.Perm js') :
    ∃ c', deContract (.arr js') = .ok c' ∧ SameContract c c' := by
  obtain ⟨ops', q, h'⟩ := Ops.each_perm p h
  obtain ⟨c', hc'⟩ := (C77_contract _).1.2 ⟨_, h'⟩
  refine ⟨c', hc', (C108_same _ _ _ _ _ _ h h' hc hc').2 ⟨fun n => ?_, fun n => ?_, Ops.last_perm q hp, q.mem_iff, q.mem_iff⟩⟩
  · exact Ops.perm_short (by unfold declaredFunctions; exact q.filterMap _) (Ops.short_functions hp n)
  · exact Ops.perm_short (by unfold declaredEvents; exact q.filterMap _) (Ops.short_events hp n)

/-- **C108.** Exchanging two neighbours gives an equal contract exactly if they are equal or do not compete, or are
constructors that a later constructor replaces. -/
theorem C108_neighbours (pre post : List Json) (x y : Json) (a b : Operation) (before after : List Operation) (c c' : Contract)
    (hpre : DenotesEach DenotesOperation (.arr pre) before) (hx : DenotesOperation x a) (hy : DenotesOperation y b)
    (hpost : DenotesEach DenotesOperation (.arr post) after)
    (hc : deContract (.arr (pre ++ x :: y :: post)) = .ok c) (hc' : deContract (.arr (pre ++ y :: x :: post)) = .ok c') :
    SameContract c c' ↔ a = b ∨ ¬ Competes a b ∨
      (∃ k l m, a = .constructor k ∧ b = .constructor l ∧ Operation.constructor m ∈ after) := by
  have h := Ops.each_append hpre (.cons hx (.cons hy hpost))
  have h' := Ops.each_append hpre (.cons hy (.cons hx hpost))
  rw [C108_same _ _ _ _ _ _ h h' hc hc']
  have hm : ∀ op, op ∈ before ++ a :: b :: after ↔ op ∈ before ++ b :: a :: after := fun op =>
    ((List.Perm.swap b a after).append_left before).mem_iff
  rw [iff_true_intro (hm .receive), iff_true_intro (hm .fallback)]
  simp only [and_true, Ops.functions_append, Ops.events_append, Ops.last_append, List.append_cancel_left_eq,
    List.append_cancel_right_eq,
    show a :: b :: after = [a, b] ++ after from rfl, show b :: a :: after = [b, a] ++ after from rfl]
  constructor
  · rintro ⟨h1, h2, h3⟩
    by_cases hab : Competes a b
    · cases a <;> cases b <;> simp only [Competes] at hab <;> try exact hab.elim
      case constructor.constructor k l =>
        cases e : lastConstructor after with
        | some m =>
          obtain ⟨_, _, rfl, _⟩ := (Ops.some_iff _ _).1 e
          exact .inr (.inr ⟨k, l, m, rfl, rfl, by simp⟩)
        | none => rw [e] at h3; left; simp [lastConstructor] at h3; rw [h3]
      case function.function f g =>
        have := h1 g.name
        simp [declaredFunctions, hab] at this
        exact .inl (by rw [this.1])
      case event.event f g =>
        have := h2 g.name
        simp [declaredEvents, hab] at this
        exact .inl (by rw [this.1])
    · exact .inr (.inl hab)
  · rintro (rfl | h | ⟨k, l, m, rfl, rfl, hk⟩)
    · exact ⟨fun _ => rfl, fun _ => rfl, rfl⟩
    · exact ⟨fun n => Ops.swap_functions h n, fun n => Ops.swap_events h n, by rw [Ops.swap_last h]⟩
    · refine ⟨fun _ => rfl, fun _ => rfl, ?_⟩
      cases e : lastConstructor after with
      | some m => rfl
      | none => exact absurd hk ((Ops.none_iff _).1 e m)

/-- **C108.** An ABI put together from two loads exactly if both load; each name then answers with the functions, and the
events, of the first followed by those of the second, and the constructor of the second, if it has one, replaces that of
the first. -/
theorem C108_joined (js js' : List Json) :
    ((∃ c, deContract (.arr (js ++ js')) = .ok c) ↔
      (∃ c, deContract (.arr js) = .ok c) ∧ ∃ c, deContract (.arr js') = .ok c) ∧
    ∀ c c' d, deContract (.arr js) = .ok c → deContract (.arr js') = .ok c' → deContract (.arr (js ++ js')) = .ok d →
      (∀ n l, d.functionsByName n = .ok l ↔ ∃ a b, l = a ++ b ∧ l ≠ [] ∧
        (c.functionsByName n = .ok a ∨ a = [] ∧ c.functionsByName n = .err (.invalidName n)) ∧
        (c'.functionsByName n = .ok b ∨ b = [] ∧ c'.functionsByName n = .err (.invalidName n))) ∧
      (∀ n l, d.eventsByName n = .ok l ↔ ∃ a b, l = a ++ b ∧ l ≠ [] ∧
        (c.eventsByName n = .ok a ∨ a = [] ∧ c.eventsByName n = .err (.invalidName n)) ∧
        (c'.eventsByName n = .ok b ∨ b = [] ∧ c'.eventsByName n = .err (.invalidName n))) ∧
      (d.constructor = match c'.constructor with | some k => some k | none => c.constructor) ∧
      d.receive = (c.receive || c'.receive) ∧ d.fallback = (c.fallback || c'.fallback) := by
  have key : ∀ {α : Type} (n : Str) (u v l : List α), Ops.answer n (u ++ v) = .ok l ↔ ∃ a b, l = a ++ b ∧ l ≠ [] ∧
      (Ops.answer n u = .ok a ∨ a = [] ∧ Ops.answer n u = .err (.invalidName n)) ∧
      (Ops.answer n v = .ok b ∨ b = [] ∧ Ops.answer n v = .err (.invalidName n)) := by
    intro α n u v l
    have one : ∀ u a : List α, (Ops.answer n u = .ok a ∨ a = [] ∧ Ops.answer n u = .err (.invalidName n)) ↔ u = a := by
      intro u a
      cases u <;> simp [Ops.answer, eq_comm]
    simp only [one]
    constructor
    · intro h
      refine ⟨u, v, ?_, ?_, rfl, rfl⟩ <;> (cases e : u ++ v <;> rw [e] at h <;> simp [Ops.answer] at h)
      · exact h.symm
      · rw [← h]; simp
    · rintro ⟨a, b, rfl, h, rfl, rfl⟩
      cases e : u ++ v with
      | nil => exact absurd e h
      | cons _ _ => rfl
  constructor
  · rw [(C77_contract _).1, (C77_contract _).1, (C77_contract _).1]
    constructor
    · rintro ⟨ops, h⟩
      obtain ⟨as, bs, _, h1, h2⟩ := Ops.each_split h
      exact ⟨⟨as, h1⟩, bs, h2⟩
    · rintro ⟨⟨as, h1⟩, bs, h2⟩
      exact ⟨_, Ops.each_append h1 h2⟩
  · intro c c' d hc hc' hd
    obtain ⟨as, h1⟩ := (C77_contract _).1.1 ⟨c, hc⟩
    obtain ⟨bs, h2⟩ := (C77_contract _).1.1 ⟨c', hc'⟩
    obtain ⟨a1, a2, a3, a4, a5⟩ := Ops.loaded h1 hc
    obtain ⟨b1, b2, b3, b4, b5⟩ := Ops.loaded h2 hc'
    obtain ⟨d1, d2, d3, d4, d5⟩ := Ops.loaded (Ops.each_append h1 h2) hd
    refine ⟨fun n l => ?_, fun n l => ?_, ?_, ?_, ?_⟩
    · rw [d4, a4, b4, Ops.functions_append]; exact key ..
    · rw [d5, a5, b5, Ops.events_append]; exact key ..
    · rw [d1, a1, b1, Ops.last_append]; cases lastConstructor bs <;> rfl
    · rw [Bool.eq_iff_iff, d2, Bool.or_eq_true, a2, b2, List.mem_append]
    · rw [Bool.eq_iff_iff, d3, Bool.or_eq_true, a3, b3, List.mem_append]

/-- **C108.** Whether an ABI loads does not depend on the order; without an element that crashes, neither does the
outcome of an ABI that does not load. -/
theorem C108_refused (js js' : List Json) (p : js.Perm js') :
    ((∃ c, deContract (.arr js) = .ok c) ↔ ∃ c, deContract (.arr js') = .ok c) ∧
    ((∀ x ∈ js, ¬ CrashesOperation x) →
      ((∃ c, deContract (.arr js) = .ok c) ∨ deContract (.arr js) = .err .serdeJson) ∧
      (deContract (.arr js) = .err .serdeJson ↔ deContract (.arr js') = .err .serdeJson)) := by
  have first : (∃ c, deContract (.arr js) = .ok c) ↔ ∃ c, deContract (.arr js') = .ok c := by
    rw [(C77_contract _).1, (C77_contract _).1]
    constructor
    · rintro ⟨ops, h⟩; obtain ⟨ops', _, h'⟩ := Ops.each_perm p h; exact ⟨ops', h'⟩
    · rintro ⟨ops, h⟩; obtain ⟨ops', _, h'⟩ := Ops.each_perm p.symm h; exact ⟨ops', h'⟩
  have safe : ∀ js : List Json, (∀ x ∈ js, ¬ CrashesOperation x) →
      (∃ c, deContract (.arr js) = .ok c) ∨ deContract (.arr js) = .err .serdeJson := by
    intro js hs
    cases e : deContract (.arr js) with
    | ok c => exact .inl ⟨c, rfl⟩
    | err k => rw [(C93_loading _ k).1 e]; exact .inr rfl
    | panic =>
      obtain ⟨ys, _, x, zs, e, _, hx⟩ := (C90_contract _).1 e
      cases e
      exact absurd hx (hs x (by simp))
  refine ⟨first, fun hs => ⟨safe js hs, ?_⟩⟩
  have hs' : ∀ x ∈ js', ¬ CrashesOperation x := fun x hx => hs x (p.mem_iff.2 hx)
  rcases safe js hs with ⟨c, h⟩ | h <;> rcases safe js' hs' with ⟨c', h'⟩ | h'
  · simp [h, h']
  · obtain ⟨d, hd⟩ := first.1 ⟨c, h⟩; rw [h'] at hd; cases hd
  · obtain ⟨d, hd⟩ := first.2 ⟨c', h'⟩; rw [h] at hd; cases hd
  · simp [h, h']

/-- **C108.** The commands of the tool do not tell ABIs with equal contracts apart. -/
theorem C108_commands (hash : Bytes → Word) (parseHash : Str → Res Word) (prof : Profile) (j j' : Json) (c c' : Contract)
    (hc : deContract j = .ok c) (hc' : deContract j' = .ok c') (h : SameContract c c') (name data : Str)
    (values : List Str) (lenient : Bool) :
    cliEncodeInput hash prof j name values lenient = cliEncodeInput hash prof j' name values lenient ∧
    cliDecodeOutput prof j name data = cliDecodeOutput prof j' name data ∧
    cliDecodeLog hash parseHash prof j name values data = cliDecodeLog hash parseHash prof j' name values data := by
  obtain ⟨_, _, _, h4, h5⟩ := h
  have hf : loadFunction j name = loadFunction j' name := by
    unfold loadFunction; rw [hc, hc']
    show selectFunction c name = selectFunction c' name
    unfold selectFunction; simp only [h4]
  have he : loadEvent hash j name = loadEvent hash j' name := by
    unfold loadEvent; rw [hc, hc']
    show selectEvent hash c name = selectEvent hash c' name
    unfold selectEvent; simp only [h5]
  unfold cliEncodeInput cliDecodeOutput cliDecodeLog
  rw [hf, he]
  exact ⟨rfl, rfl, rfl⟩

/-! ## Cases -/

/-- the function `name` with one parameter -/
private def fn (name type : String) : Json :=
  .obj [(lit "type", .str (lit "function")), (lit "name", .str (lit name)), (lit "outputs", .arr []),
    (lit "inputs", .arr [.obj [(lit "name", .str (lit "x")), (lit "type", .str (lit type))]])]

/-- a constructor with one parameter -/
private def con (type : String) : Json :=
  .obj [(lit "type", .str (lit "constructor")),
    (lit "inputs", .arr [.obj [(lit "name", .str (lit "x")), (lit "type", .str (lit type))]])]

/-- an event -/
private def ev (name : String) : Json :=
  .obj [(lit "type", .str (lit "event")), (lit "name", .str (lit name)), (lit "anonymous", .bool false),
    (lit "inputs", .arr [])]

/-- an array whose elements do not compete: a function and an event of one name, another function, a constructor -/
example : ∃ ops, DenotesEach DenotesOperation (.arr [fn "f" "bool", ev "f", con "bool", fn "g" "bool"]) ops ∧
    (∃ c, deContract (.arr [fn "f" "bool", ev "f", con "bool", fn "g" "bool"]) = .ok c) ∧
    ops.Pairwise fun a b => ¬ Competes a b := by
  have h : ∃ ops, deVec deOperation [fn "f" "bool", ev "f", con "bool", fn "g" "bool"] = .ok ops ∧
      ops = [.function ⟨lit "f", [⟨lit "x", .bool, none⟩], [], false, .nonPayable⟩, .event ⟨lit "f", [], false⟩,
        .constructor ⟨[⟨lit "x", .bool, none⟩]⟩, .function ⟨lit "g", [⟨lit "x", .bool, none⟩], [], false, .nonPayable⟩] :=
    ⟨_, by decide +kernel, rfl⟩
  obtain ⟨ops, h, e⟩ := h
  have hd : DenotesEach DenotesOperation (.arr [fn "f" "bool", ev "f", con "bool", fn "g" "bool"]) ops :=
    (each_iff (de := deOperation) (fun j op => operation_iff)).1 h
  refine ⟨ops, hd, (C77_contract _).1.2 ⟨_, hd⟩, ?_⟩
  rw [e]
  simp [Competes, lit]

/-- overloads, and constructors, do compete: the first overload changes, the last constructor changes; a third
constructor makes the order of the first two irrelevant -/
example :
    let first (js : List Json) : Res Function := do let c ← deContract (.arr js); c.function (lit "f")
    let built (js : List Json) : Res (Option Constructor) := do let c ← deContract (.arr js); .ok c.constructor
    first [fn "f" "bool", fn "f" "string"] ≠ first [fn "f" "string", fn "f" "bool"] ∧
    built [con "bool", con "string"] ≠ built [con "string", con "bool"] ∧
    built [con "bool", con "string", con "bytes"] = built [con "string", con "bool", con "bytes"] := by
  decide +kernel

/-- with an element that crashes the order does matter: what is wrong first decides -/
example : deContract (.arr [.null, crashing]) = .err .serdeJson ∧ deContract (.arr [crashing, .null]) = .panic := by
  decide +kernel

end Ethabi.Props

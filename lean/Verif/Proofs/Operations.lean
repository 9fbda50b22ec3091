import Verif.Spec.Operations
import Verif.Props.AbiJson
/-!
# Lemmas for C108
-/
namespace Ethabi.Ops
open Ethabi.Props Spec Schema

theorem none_iff (ops : List Operation) : lastConstructor ops = none ↔ ∀ k, Operation.constructor k ∉ ops := by
  induction ops with
  | nil => simp [lastConstructor]
  | cons op ops ih =>
    unfold lastConstructor
    cases h : lastConstructor ops with
    | some k =>
      have : ¬ ∀ k, Operation.constructor k ∉ ops := fun h' => by rw [ih.2 h'] at h; cases h
      simp only [reduceCtorEq, false_iff]
      intro h'
      exact this fun k hk => h' k (List.mem_cons_of_mem _ hk)
    | none =>
      have := ih.1 h
      cases op with
      | constructor k => simp only [reduceCtorEq, false_iff]; intro h'; exact h' k (List.mem_cons_self ..)
      | _ => simpa using this

theorem last_append (a b : List Operation) :
    lastConstructor (a ++ b) = (lastConstructor b).or (lastConstructor a) := by
  induction a with
  | nil => simp [lastConstructor]
  | cons op a ih =>
    have e : ∀ ops, lastConstructor (op :: ops) = (lastConstructor ops).or (lastConstructor [op]) := by
      intro ops
      cases h : lastConstructor ops <;> cases op <;> simp [lastConstructor, h]
    rw [List.cons_append, e, e a, ih, Option.or_assoc]

theorem some_iff (ops : List Operation) (k : Constructor) : lastConstructor ops = some k ↔
    ∃ before after, ops = before ++ .constructor k :: after ∧ ∀ k', Operation.constructor k' ∉ after := by
  constructor
  · induction ops with
    | nil => intro h; cases h
    | cons op ops ih =>
      intro h
      unfold lastConstructor at h
      cases h0 : lastConstructor ops with
      | some k' =>
        rw [h0] at h
        cases h
        obtain ⟨b, a, e, h1⟩ := ih h0
        exact ⟨op :: b, a, by rw [e]; rfl, h1⟩
      | none =>
        rw [h0] at h
        cases op with
        | constructor k' => cases h; exact ⟨[], ops, rfl, (none_iff ops).1 h0⟩
        | _ => cases h
  · rintro ⟨b, a, rfl, h⟩
    rw [last_append]
    have : lastConstructor (.constructor k :: a) = some k := by
      unfold lastConstructor
      rw [(none_iff a).2 h]
    rw [this]; rfl

theorem functions_append (n : Str) (a b : List Operation) :
    declaredFunctions n (a ++ b) = declaredFunctions n a ++ declaredFunctions n b := by
  unfold declaredFunctions; rw [List.filterMap_append]

theorem events_append (n : Str) (a b : List Operation) :
    declaredEvents n (a ++ b) = declaredEvents n a ++ declaredEvents n b := by
  unfold declaredEvents; rw [List.filterMap_append]

/-- the answer of a lookup -/
def answer {α : Type} (n : Str) (l : List α) : Res (List α) := match l with | [] => .err (.invalidName n) | l => .ok l

theorem answer_inj {α : Type} {n : Str} {a b : List α} (h : answer n a = answer n b) : a = b := by
  cases a <;> cases b <;> simp [answer] at h ⊢
  exact h

/-- a loaded contract, in terms of its operations -/
theorem loaded {j : Json} {ops : List Operation} {c : Contract} (h : DenotesEach DenotesOperation j ops)
    (hc : deContract j = .ok c) :
    c.constructor = lastConstructor ops ∧ (c.receive = true ↔ Operation.receive ∈ ops) ∧
    (c.fallback = true ↔ Operation.fallback ∈ ops) ∧ (∀ n, c.functionsByName n = answer n (declaredFunctions n ops)) ∧
    ∀ n, c.eventsByName n = answer n (declaredEvents n ops) := by
  obtain ⟨h1, h2, h3, h4, h5⟩ := (C77_contract j).2 c ops hc h
  refine ⟨?_, h3, h4, fun n => ?_, fun n => ?_⟩
  rotate_left
  · rw [h1]; cases declaredFunctions n ops <;> rfl
  · rw [h2]; cases declaredEvents n ops <;> rfl
  refine Option.ext fun k => ?_
  rw [h5, some_iff]

theorem each_append {a b : List Json} {as bs : List Operation} (ha : DenotesEach DenotesOperation (.arr a) as)
    (hb : DenotesEach DenotesOperation (.arr b) bs) : DenotesEach DenotesOperation (.arr (a ++ b)) (as ++ bs) := by
  induction a generalizing as with
  | nil => cases ha; exact hb
  | cons x a ih => cases ha with | cons h1 h2 => exact .cons h1 (ih h2)

theorem each_split {a b : List Json} {ops : List Operation} (h : DenotesEach DenotesOperation (.arr (a ++ b)) ops) :
    ∃ as bs, ops = as ++ bs ∧ DenotesEach DenotesOperation (.arr a) as ∧ DenotesEach DenotesOperation (.arr b) bs := by
  induction a generalizing ops with
  | nil => exact ⟨[], ops, rfl, .nil, h⟩
  | cons x a ih =>
    cases h with
    | cons h1 h2 =>
      obtain ⟨as, bs, e, h3, h4⟩ := ih h2
      exact ⟨_ :: as, bs, by rw [e]; rfl, .cons h1 h3, h4⟩

theorem each_unique {a : List Json} {as bs : List Operation} (ha : DenotesEach DenotesOperation (.arr a) as)
    (hb : DenotesEach DenotesOperation (.arr a) bs) : as = bs := by
  induction a generalizing as bs with
  | nil => cases ha; cases hb; rfl
  | cons x a ih =>
    cases ha with
    | cons h1 h2 => cases hb with
      | cons h3 h4 =>
        rw [← operation_iff] at h1 h3
        rw [h1] at h3
        cases h3
        rw [ih h2 h4]

theorem each_perm {a b : List Json} {as : List Operation} (p : a.Perm b) (h : DenotesEach DenotesOperation (.arr a) as) :
    ∃ bs, as.Perm bs ∧ DenotesEach DenotesOperation (.arr b) bs := by
  induction p generalizing as with
  | nil => exact ⟨as, .refl _, h⟩
  | cons x _ ih =>
    cases h with
    | cons h1 h2 => obtain ⟨bs, p, h3⟩ := ih h2; exact ⟨_ :: bs, p.cons _, .cons h1 h3⟩
  | swap x y l =>
    cases h with
    | cons h1 h2 => cases h2 with
      | cons h3 h4 => exact ⟨_, .swap .., .cons h3 (.cons h1 h4)⟩
  | trans _ _ ih1 ih2 =>
    obtain ⟨bs, p1, h1⟩ := ih1 h
    obtain ⟨cs, p2, h2⟩ := ih2 h1
    exact ⟨cs, p1.trans p2, h2⟩

theorem each_mem {a : List Json} {as : List Operation} (h : DenotesEach DenotesOperation (.arr a) as) {x : Json} (hx : x ∈ a) :
    ∃ op, DenotesOperation x op := by
  induction a generalizing as with
  | nil => cases hx
  | cons y a ih =>
    cases h with
    | cons h1 h2 =>
      rcases List.mem_cons.1 hx with rfl | hx
      · exact ⟨_, h1⟩
      · exact ih h2 hx

theorem perm_short {α : Type} {a b : List α} (p : a.Perm b) (h : a.length ≤ 1) : a = b := by
  match a, h with
  | [], _ => rw [List.nil_perm.1 p]
  | [x], _ => rw [List.singleton_perm.1 p]

/-- at most one operation of each kind and name -/
theorem short_functions {ops : List Operation} (h : ops.Pairwise fun a b => ¬ Competes a b) (n : Str) :
    (declaredFunctions n ops).length ≤ 1 := by
  induction ops with
  | nil => exact Nat.zero_le _
  | cons op ops ih =>
    rw [List.pairwise_cons] at h
    have ih := ih h.2
    cases op with
    | function f =>
      by_cases e : f.name = n
      · have : declaredFunctions n ops = [] := by
          unfold declaredFunctions
          rw [List.filterMap_eq_nil_iff]
          intro o ho
          cases o with
          | function g =>
            have := h.1 _ ho
            simp only [Competes] at this
            simp only [ite_eq_right_iff, reduceCtorEq, imp_false]
            intro e'; exact this (e.trans e'.symm)
          | _ => rfl
        have e2 : declaredFunctions n (.function f :: ops) = f :: declaredFunctions n ops := by
          unfold declaredFunctions; simp [e]
        rw [e2, this]; exact Nat.le_refl _
      · have e2 : declaredFunctions n (.function f :: ops) = declaredFunctions n ops := by
          unfold declaredFunctions; simp [e]
        rw [e2]; exact ih
    | _ => exact ih

theorem short_events {ops : List Operation} (h : ops.Pairwise fun a b => ¬ Competes a b) (n : Str) :
    (declaredEvents n ops).length ≤ 1 := by
  induction ops with
  | nil => exact Nat.zero_le _
  | cons op ops ih =>
    rw [List.pairwise_cons] at h
    have ih := ih h.2
    cases op with
    | event f =>
      by_cases e : f.name = n
      · have : declaredEvents n ops = [] := by
          unfold declaredEvents
          rw [List.filterMap_eq_nil_iff]
          intro o ho
          cases o with
          | event g =>
            have := h.1 _ ho
            simp only [Competes] at this
            simp only [ite_eq_right_iff, reduceCtorEq, imp_false]
            intro e'; exact this (e.trans e'.symm)
          | _ => rfl
        have e2 : declaredEvents n (.event f :: ops) = f :: declaredEvents n ops := by
          unfold declaredEvents; simp [e]
        rw [e2, this]; exact Nat.le_refl _
      · have e2 : declaredEvents n (.event f :: ops) = declaredEvents n ops := by
          unfold declaredEvents; simp [e]
        rw [e2]; exact ih
    | _ => exact ih

theorem last_perm {ops ops' : List Operation} (p : ops.Perm ops') (h : ops.Pairwise fun a b => ¬ Competes a b) :
    lastConstructor ops = lastConstructor ops' := by
  have unique : ∀ {ops : List Operation}, (ops.Pairwise fun a b => ¬ Competes a b) → ∀ k, Operation.constructor k ∈ ops →
      lastConstructor ops = some k := by
    intro ops h k hk
    obtain ⟨b, a, rfl⟩ := List.append_of_mem hk
    refine (some_iff _ _).2 ⟨b, a, rfl, fun k' hk' => ?_⟩
    have := (List.pairwise_append.1 h).2.1
    exact (List.pairwise_cons.1 this).1 _ hk' trivial
  cases e : lastConstructor ops with
  | none => exact ((none_iff _).2 fun k hk => (none_iff _).1 e k (p.mem_iff.2 hk)).symm
  | some k =>
    obtain ⟨b, a, rfl, _⟩ := (some_iff _ _).1 e
    have h' : ops'.Pairwise fun a b => ¬ Competes a b := by
      refine (p.pairwise_iff ?_).1 h
      intro x y hxy hyx
      exact hxy (by cases x <;> cases y <;> first | exact hyx | exact Eq.symm hyx)
    exact (unique h' k (p.mem_iff.1 (List.mem_append_right _ (List.mem_cons_self ..)))).symm

theorem swap_functions {a b : Operation} (h : ¬ Competes a b) (n : Str) :
    declaredFunctions n [a, b] = declaredFunctions n [b, a] := by
  cases a <;> cases b <;> try rfl
  case function.function f g =>
    simp only [Competes] at h
    by_cases e1 : f.name = n <;> by_cases e2 : g.name = n <;> simp [declaredFunctions, e1, e2]
    exact absurd (e1.trans e2.symm) h

theorem swap_events {a b : Operation} (h : ¬ Competes a b) (n : Str) :
    declaredEvents n [a, b] = declaredEvents n [b, a] := by
  cases a <;> cases b <;> try rfl
  case event.event f g =>
    simp only [Competes] at h
    by_cases e1 : f.name = n <;> by_cases e2 : g.name = n <;> simp [declaredEvents, e1, e2]
    exact absurd (e1.trans e2.symm) h

theorem swap_last {a b : Operation} (h : ¬ Competes a b) : lastConstructor [a, b] = lastConstructor [b, a] := by
  cases a <;> cases b <;> first | rfl | simp [Competes] at h

end Ethabi.Ops

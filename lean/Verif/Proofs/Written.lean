import Verif.Spec.Written
/-! What the serialisers write. -/
namespace Ethabi.Written
open Spec

theorem numeral_eq (n : Nat) : inDecimal n = natText n := by
  rw [inDecimal, natText]
  exact String.toList_ofList

/-- entries that are always there and entries that may be there -/
theorem entries_obj (fs : List (Str × Json)) (es : List (String × Option Json)) (hn : (fs.map (·.1)).Nodup)
    (h : ∀ k v, (k, v) ∈ fs ↔ ∃ e ∈ es, e.1.toList = k ∧ e.2 = some v) : Entries (.obj fs) es := ⟨fs, rfl, hn, h⟩

theorem members_component (c : Option Json) : ∀ k v, (k, v) ∈ componentsField c ↔ "components".toList = k ∧ c = some v := by
  intro k v
  cases c with
  | none => simp [componentsField]
  | some c =>
    simp only [componentsField, List.mem_singleton, Prod.mk.injEq, Option.some.injEq]
    exact ⟨fun h => ⟨h.1.symm, h.2.symm⟩, fun h => ⟨h.1.symm, h.2.symm⟩⟩

theorem members_opt (key : String) (o : Option Str) :
    ∀ k v, (k, v) ∈ optEntry key.toList o ↔ key.toList = k ∧ o.map Json.str = some v := by
  intro k v
  cases o with
  | none => simp [optEntry]
  | some c =>
    simp only [optEntry, List.mem_singleton, Prod.mk.injEq, Option.map_some, Option.some.injEq]
    exact ⟨fun h => ⟨h.1.symm, h.2.symm⟩, fun h => ⟨h.1.symm, h.2.symm⟩⟩

theorem pair_eq {k k' : Str} {v v' : Json} : (k, v) = (k', v') ↔ k' = k ∧ some v' = some v := by
  simp only [Prod.mk.injEq, Option.some.injEq]
  exact ⟨fun h => ⟨h.1.symm, h.2.symm⟩, fun h => ⟨h.1.symm, h.2.symm⟩⟩

theorem member_entries (s : Str) (c : Option Json) :
    Entries (.obj ((lit "type", .str s) :: componentsField c)) [("type", some (.str s)), ("components", c)] := by
  refine entries_obj _ _ ?_ fun k v => ?_
  · cases c with
    | none => simp [componentsField]
    | some c => simp [componentsField, lit]
  · simp only [List.mem_cons, pair_eq, members_component, List.not_mem_nil, or_false, exists_eq_or_imp, exists_eq_left]

mutual
theorem describes : ∀ t, Describes t (writeForAbi false t) (serComponents t)
  | .address => .address
  | .bytes => .bytes
  | .bool => .bool
  | .string => .string
  | .int n => by rw [writeForAbi, ← numeral_eq]; exact .int n
  | .uint n => by rw [writeForAbi, ← numeral_eq]; exact .uint n
  | .fixedBytes n => by rw [writeForAbi, ← numeral_eq]; exact .fixedBytes n
  | .array t => by rw [writeForAbi, serComponents]; exact .array (describes t)
  | .fixedArray t k => by
      rw [writeForAbi, serComponents, ← numeral_eq, List.append_assoc, List.append_assoc]
      have := Describes.fixedArray k (describes t)
      rw [List.append_assoc] at this
      exact this
  | .tuple ts => by
      rw [writeForAbi, serComponents]
      exact .tuple (describesAll ts)
theorem describesAll : ∀ ts, DescribesAll ts (serMembers ts)
  | [] => .nil
  | t :: ts => .cons (describes t) (member_entries _ _) (describesAll ts)
end

theorem param (p : Param) : WrittenParam p (serParam p) := by
  refine ⟨_, _, describes p.kind, entries_obj _ _ ?_ fun k v => ?_⟩
  · rw [componentsEntry]
    cases p.internalType <;> cases serComponents p.kind <;> simp [componentsField, optEntry, lit]
  · simp only [componentsEntry, List.mem_append, List.mem_cons, pair_eq, members_component, members_opt, List.not_mem_nil,
      or_false, exists_eq_or_imp, exists_eq_left]
    constructor
    · rintro ((h | h | h) | h) <;> simp only [h, true_or, or_true, and_self]
    · rintro (h | h | h | h) <;> simp only [h, true_or, or_true, and_self]

theorem member (p : TupleParam) : WrittenMember p (serTupleParam p) := by
  refine ⟨_, _, describes p.kind, entries_obj _ _ ?_ fun k v => ?_⟩
  · rw [componentsEntry]
    cases p.internalType <;> cases p.name <;> cases serComponents p.kind <;> simp [componentsField, optEntry, lit]
  · simp only [componentsEntry, List.mem_append, List.mem_cons, pair_eq, members_component, members_opt, List.not_mem_nil,
      or_false, exists_eq_or_imp, exists_eq_left]
    constructor
    · rintro (((h | h) | h) | h) <;> simp only [h, true_or, or_true, and_self]
    · rintro (h | h | h | h) <;> simp only [h, true_or, or_true, and_self]

theorem eventParam (p : EventParam) : WrittenEventParam p (serEventParam p) := by
  refine ⟨_, _, describes p.kind, entries_obj _ _ ?_ fun k v => ?_⟩
  · rw [componentsEntry]
    cases serComponents p.kind <;> simp [componentsField, lit]
  · simp only [componentsEntry, List.mem_append, List.mem_cons, pair_eq, members_component, List.not_mem_nil,
      or_false, exists_eq_or_imp, exists_eq_left]
    constructor
    · rintro ((h | h | h) | h) <;> simp only [h, true_or, or_true, and_self]
    · rintro (h | h | h | h) <;> simp only [h, true_or, or_true, and_self]

theorem list {α : Type} {w : α → Json → Prop} {f : α → Json} (h : ∀ x, w x (f x)) (xs : List α) :
    WrittenList w xs (.arr (xs.map f)) := by
  refine ⟨_, rfl, by simp, fun i x y h1 h2 => ?_⟩
  rw [List.getElem?_map, h1] at h2
  cases h2
  exact h x

theorem operation (op : Operation) : WrittenOperation op (serOperation op) := by
  cases op with
  | constructor c =>
    refine ⟨_, list param c.inputs, entries_obj _ _ (by simp [constructorFields, lit]) fun k v => ?_⟩
    simp only [constructorFields, List.mem_cons, pair_eq, List.not_mem_nil, or_false, exists_eq_or_imp, exists_eq_left]
  | function f =>
    refine ⟨_, _, list param f.inputs, list param f.outputs,
      entries_obj _ _ (by simp [functionFields, lit]) fun k v => ?_⟩
    have : serStateMutability f.stateMutability = .str (mutabilityName f.stateMutability).toList := by
      cases f.stateMutability <;> rfl
    simp only [functionFields, List.mem_cons, pair_eq, List.not_mem_nil, or_false, exists_eq_or_imp, exists_eq_left, this]
  | event e =>
    refine ⟨_, list eventParam e.inputs, entries_obj _ _ (by simp [eventFields, lit]) fun k v => ?_⟩
    simp only [eventFields, List.mem_cons, pair_eq, List.not_mem_nil, or_false, exists_eq_or_imp, exists_eq_left]
  | fallback =>
    refine entries_obj _ _ (by simp) fun k v => ?_
    simp only [List.mem_cons, pair_eq, List.not_mem_nil, or_false, exists_eq_left]
  | receive =>
    refine entries_obj _ _ (by simp) fun k v => ?_
    simp only [List.mem_cons, pair_eq, List.not_mem_nil, or_false, exists_eq_left]

end Ethabi.Written

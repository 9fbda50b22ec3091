import Verif.Spec.Crash
import Verif.Proofs.AbiJson
import Verif.Proofs.Reading
/-! When the deserialisers panic: the loops stop at the first entry that is refused. -/
namespace Ethabi.Crash
open Ethabi Spec Schema

/-- a loop over entries panics at an entry after entries that it takes -/
theorem loop_panic {σ ε : Type} (L : List ε → σ → Res σ) (h0 : ∀ st, L [] st = .ok st)
    (hc : ∀ e es st, L (e :: es) st = (L [e] st >>= fun st => L es st)) : ∀ (fs : List ε) (st : σ),
    L fs st = .panic ↔ ∃ before e after st', fs = before ++ e :: after ∧ L before st = .ok st' ∧ L [e] st' = .panic
  | [], st => by
    rw [h0]
    simp only [reduceCtorEq, false_iff]
    rintro ⟨b, e, a, st', h, -⟩
    simp at h
  | e :: es, st => by
    rw [hc, bind_eq_panic]
    simp only [loop_panic L h0 hc es]
    constructor
    · rintro (h | ⟨st1, h1, b, x, a, st2, rfl, h2, h3⟩)
      · exact ⟨[], e, es, st, rfl, h0 st, h⟩
      · exact ⟨e :: b, x, a, st2, rfl, by rw [hc, h1, Res.ok_bind, h2], h3⟩
    · rintro ⟨b, x, a, st2, h1, h2, h3⟩
      cases b with
      | nil =>
        simp only [List.nil_append, List.cons.injEq] at h1
        obtain ⟨rfl, rfl⟩ := h1
        rw [h0] at h2
        cases h2
        exact .inl h3
      | cons y b =>
        simp only [List.cons_append, List.cons.injEq] at h1
        obtain ⟨rfl, rfl⟩ := h1
        rw [hc, Res.bind_eq_ok] at h2
        obtain ⟨st1, h4, h5⟩ := h2
        exact .inr ⟨st1, h4, b, x, a, st2, rfl, h5, h3⟩

/-- one entry of a loop -/
theorem guard_bind {α σ τ : Type} {o : Option α} {x : Res α} {f : α → σ} {g : σ → Res τ} :
    (if o.isSome = true then (.err .serdeJson : Res τ) else x >>= fun a => g (f a)) =
      ((if o.isSome = true then (.err .serdeJson : Res σ) else x >>= fun a => .ok (f a)) >>= g) := by
  split
  · rfl
  · cases x <;> rfl

theorem guard_panic {α σ : Type} {o : Option α} {x : Res α} {f : α → σ} :
    (if o.isSome = true then (.err .serdeJson : Res σ) else x >>= fun a => .ok (f a)) = .panic ↔ o = none ∧ x = .panic := by
  cases o <;> cases x <;> simp

theorem tupleFields_cons (mode : Mode) (e : Str × Json) (es : List (Str × Json)) (st : FieldSt) :
    deTupleFields mode (e :: es) st = (deTupleFields mode [e] st >>= fun st => deTupleFields mode es st) := by
  obtain ⟨k, v⟩ := e
  have h0 : ∀ st, deTupleFields mode [] st = .ok st := fun st => by rw [deTupleFields.eq_def]
  rw [deTupleFields.eq_def, deTupleFields.eq_def mode [(k, v)]]
  simp only [h0]
  iterate 4 (split; · exact guard_bind)
  cases mode <;> simp [h0]

theorem paramFields_cons (mode : Mode) (e : Str × Json) (es : List (Str × Json)) (st : FieldSt) :
    deParamFields mode (e :: es) st = (deParamFields mode [e] st >>= fun st => deParamFields mode es st) := by
  obtain ⟨k, v⟩ := e
  have h0 : ∀ st, deParamFields mode [] st = .ok st := fun st => by rw [deParamFields.eq_def]
  rw [deParamFields.eq_def, deParamFields.eq_def mode [(k, v)]]
  simp only [h0]
  iterate 4 (split; · exact guard_bind)
  cases mode <;> simp [h0]

theorem eventFields_cons (mode : Mode) (e : Str × Json) (es : List (Str × Json)) (st : FieldSt) :
    deEventFields mode (e :: es) st = (deEventFields mode [e] st >>= fun st => deEventFields mode es st) := by
  obtain ⟨k, v⟩ := e
  have h0 : ∀ st, deEventFields mode [] st = .ok st := fun st => by rw [deEventFields.eq_def]
  rw [deEventFields.eq_def, deEventFields.eq_def mode [(k, v)]]
  simp only [h0]
  iterate 4 (split; · exact guard_bind)
  cases mode <;> simp [h0]

theorem functionFields_cons (mode : Mode) (e : Str × Json) (es : List (Str × Json)) (st : OpSt) :
    deFunctionFields mode (e :: es) st = (deFunctionFields mode [e] st >>= fun st => deFunctionFields mode es st) := by
  obtain ⟨k, v⟩ := e
  have h0 : ∀ st, deFunctionFields mode [] st = .ok st := fun st => by rw [deFunctionFields.eq_def]
  rw [deFunctionFields.eq_def, deFunctionFields.eq_def mode [(k, v)]]
  simp only [h0]
  iterate 5 (split; · exact guard_bind)
  simp [h0]

theorem eventOpFields_cons (mode : Mode) (e : Str × Json) (es : List (Str × Json)) (st : OpSt) :
    deEventOpFields mode (e :: es) st = (deEventOpFields mode [e] st >>= fun st => deEventOpFields mode es st) := by
  obtain ⟨k, v⟩ := e
  have h0 : ∀ st, deEventOpFields mode [] st = .ok st := fun st => by rw [deEventOpFields.eq_def]
  rw [deEventOpFields.eq_def, deEventOpFields.eq_def mode [(k, v)]]
  simp only [h0]
  iterate 3 (split; · exact guard_bind)
  simp [h0]

theorem constructorFields_cons (mode : Mode) (e : Str × Json) (es : List (Str × Json)) (st : OpSt) :
    deConstructorFields mode (e :: es) st =
      (deConstructorFields mode [e] st >>= fun st => deConstructorFields mode es st) := by
  obtain ⟨k, v⟩ := e
  have h0 : ∀ st, deConstructorFields mode [] st = .ok st := fun st => by rw [deConstructorFields.eq_def]
  rw [deConstructorFields.eq_def, deConstructorFields.eq_def mode [(k, v)]]
  simp only [h0]
  iterate 1 (split; · exact guard_bind)
  simp [h0]

theorem string_noPanic (v : Json) : deString v ≠ .panic := by cases v <;> simp [deString]
theorem bool_noPanic (v : Json) : deBool v ≠ .panic := by cases v <;> simp [deBool]
theorem name_noPanic (v : Json) : deName v ≠ .panic := by cases v <;> simp [deName, deString]
theorem mutability_noPanic (v : Json) : deStateMutability v ≠ .panic := by
  have hv : ∀ s, mutabilityVariant s ≠ .panic := fun s => by
    unfold mutabilityVariant; repeat' split
    all_goals simp
  unfold deStateMutability
  split
  · exact hv _
  · exact hv _
  · simp

theorem kind_panic (v : Json) : deKind v = .panic ↔ ∃ s, v = .str s ∧ read s = .panic := by
  cases v with
  | str s =>
    simp only [deKind, Json.str.injEq, exists_eq_left']
    cases read s <;> simp
  | _ => simp [deKind]

theorem required_noPanic {α : Type} (o : Option α) : required o ≠ .panic := by cases o <;> simp [required]
theorem set_noPanic (t : ParamType) (o : Option (List ParamType)) : setTupleComponents t o ≠ .panic := by
  unfold setTupleComponents; repeat' split
  all_goals simp

/-- entries at which the loop of a tuple member panics -/
theorem tupleFields_one (mode : Mode) (k : Str) (v : Json) (st : FieldSt) : deTupleFields mode [(k, v)] st = .panic ↔
    (k = lit "type" ∧ st.kind = none ∧ deKind v = .panic) ∨
    (k = lit "components" ∧ st.components = none ∧ deComponents mode v = .panic) := by
  have h0 : ∀ st, deTupleFields mode [] st = .ok st := fun st => by rw [deTupleFields.eq_def]
  rw [deTupleFields.eq_def]
  simp only [h0]
  by_cases e0 : k = lit "name"
  · subst e0
    rw [if_pos rfl, guard_panic]
    simp [string_noPanic, show lit "name" ≠ lit "type" by decide, show lit "name" ≠ lit "components" by decide]
  rw [if_neg e0]
  by_cases e1 : k = lit "type"
  · subst e1
    rw [if_pos rfl, guard_panic]
    simp [show lit "type" ≠ lit "components" by decide]
  rw [if_neg e1]
  by_cases e2 : k = lit "internalType"
  · subst e2
    rw [if_pos rfl, guard_panic]
    simp [string_noPanic, show lit "internalType" ≠ lit "type" by decide, show lit "internalType" ≠ lit "components" by decide]
  rw [if_neg e2]
  by_cases e3 : k = lit "components"
  · subst e3
    rw [if_pos rfl, guard_panic]
    simp [show lit "components" ≠ lit "type" by decide]
  rw [if_neg e3]
  cases mode <;> simp [e1, e3]

theorem paramFields_one (mode : Mode) (k : Str) (v : Json) (st : FieldSt) : deParamFields mode [(k, v)] st = .panic ↔
    (k = lit "type" ∧ st.kind = none ∧ deKind v = .panic) ∨
    (k = lit "components" ∧ st.components = none ∧ deComponents mode v = .panic) := by
  have h0 : ∀ st, deParamFields mode [] st = .ok st := fun st => by rw [deParamFields.eq_def]
  rw [deParamFields.eq_def]
  simp only [h0]
  by_cases e0 : k = lit "name"
  · subst e0
    rw [if_pos rfl, guard_panic]
    simp [string_noPanic, show lit "name" ≠ lit "type" by decide, show lit "name" ≠ lit "components" by decide]
  rw [if_neg e0]
  by_cases e1 : k = lit "type"
  · subst e1
    rw [if_pos rfl, guard_panic]
    simp [show lit "type" ≠ lit "components" by decide]
  rw [if_neg e1]
  by_cases e2 : k = lit "internalType"
  · subst e2
    rw [if_pos rfl, guard_panic]
    simp [string_noPanic, show lit "internalType" ≠ lit "type" by decide, show lit "internalType" ≠ lit "components" by decide]
  rw [if_neg e2]
  by_cases e3 : k = lit "components"
  · subst e3
    rw [if_pos rfl, guard_panic]
    simp [show lit "components" ≠ lit "type" by decide]
  rw [if_neg e3]
  cases mode <;> simp [e1, e3]

theorem eventFields_one (mode : Mode) (k : Str) (v : Json) (st : FieldSt) : deEventFields mode [(k, v)] st = .panic ↔
    (k = lit "type" ∧ st.kind = none ∧ deKind v = .panic) ∨
    (k = lit "components" ∧ st.components = none ∧ deComponents mode v = .panic) := by
  have h0 : ∀ st, deEventFields mode [] st = .ok st := fun st => by rw [deEventFields.eq_def]
  rw [deEventFields.eq_def]
  simp only [h0]
  by_cases e0 : k = lit "name"
  · subst e0
    rw [if_pos rfl, guard_panic]
    simp [string_noPanic, show lit "name" ≠ lit "type" by decide, show lit "name" ≠ lit "components" by decide]
  rw [if_neg e0]
  by_cases e1 : k = lit "type"
  · subst e1
    rw [if_pos rfl, guard_panic]
    simp [show lit "type" ≠ lit "components" by decide]
  rw [if_neg e1]
  by_cases e3 : k = lit "components"
  · subst e3
    rw [if_pos rfl, guard_panic]
    simp [show lit "components" ≠ lit "type" by decide]
  rw [if_neg e3]
  by_cases e2 : k = lit "indexed"
  · subst e2
    rw [if_pos rfl, guard_panic]
    simp [bool_noPanic, show lit "indexed" ≠ lit "type" by decide, show lit "indexed" ≠ lit "components" by decide]
  rw [if_neg e2]
  cases mode <;> simp [e1, e3]

theorem functionFields_one (mode : Mode) (k : Str) (v : Json) (st : OpSt) : deFunctionFields mode [(k, v)] st = .panic ↔
    (k = lit "inputs" ∧ st.inputs = none ∧ deArr (deParam mode) v = .panic) ∨
    (k = lit "outputs" ∧ st.outputs = none ∧ deArr (deParam mode) v = .panic) := by
  have h0 : ∀ st, deFunctionFields mode [] st = .ok st := fun st => by rw [deFunctionFields.eq_def]
  rw [deFunctionFields.eq_def]
  simp only [h0]
  by_cases e0 : k = lit "name"
  · subst e0
    rw [if_pos rfl, guard_panic]
    simp [name_noPanic, show lit "name" ≠ lit "inputs" by decide, show lit "name" ≠ lit "outputs" by decide]
  rw [if_neg e0]
  by_cases e1 : k = lit "inputs"
  · subst e1
    rw [if_pos rfl, guard_panic]
    simp [show lit "inputs" ≠ lit "outputs" by decide]
  rw [if_neg e1]
  by_cases e2 : k = lit "outputs"
  · subst e2
    rw [if_pos rfl, guard_panic]
    simp [show lit "outputs" ≠ lit "inputs" by decide]
  rw [if_neg e2]
  by_cases e3 : k = lit "constant"
  · subst e3
    rw [if_pos rfl, guard_panic]
    simp [bool_noPanic, show lit "constant" ≠ lit "inputs" by decide, show lit "constant" ≠ lit "outputs" by decide]
  rw [if_neg e3]
  by_cases e4 : k = lit "stateMutability"
  · subst e4
    rw [if_pos rfl, guard_panic]
    simp [mutability_noPanic, show lit "stateMutability" ≠ lit "inputs" by decide, show lit "stateMutability" ≠ lit "outputs" by decide]
  rw [if_neg e4]
  simp [e1, e2]

theorem eventOpFields_one (mode : Mode) (k : Str) (v : Json) (st : OpSt) : deEventOpFields mode [(k, v)] st = .panic ↔
    k = lit "inputs" ∧ st.eventInputs = none ∧ deArr (deEventParam mode) v = .panic := by
  have h0 : ∀ st, deEventOpFields mode [] st = .ok st := fun st => by rw [deEventOpFields.eq_def]
  rw [deEventOpFields.eq_def]
  simp only [h0]
  by_cases e0 : k = lit "name"
  · subst e0
    rw [if_pos rfl, guard_panic]
    simp [name_noPanic, show lit "name" ≠ lit "inputs" by decide]
  rw [if_neg e0]
  by_cases e1 : k = lit "inputs"
  · subst e1
    rw [if_pos rfl, guard_panic]
    simp
  rw [if_neg e1]
  by_cases e3 : k = lit "anonymous"
  · subst e3
    rw [if_pos rfl, guard_panic]
    simp [bool_noPanic, show lit "anonymous" ≠ lit "inputs" by decide]
  rw [if_neg e3]
  simp [e1]

theorem constructorFields_one (mode : Mode) (k : Str) (v : Json) (st : OpSt) : deConstructorFields mode [(k, v)] st = .panic ↔
    k = lit "inputs" ∧ st.inputs = none ∧ deArr (deParam mode) v = .panic := by
  have h0 : ∀ st, deConstructorFields mode [] st = .ok st := fun st => by rw [deConstructorFields.eq_def]
  rw [deConstructorFields.eq_def]
  simp only [h0]
  by_cases e1 : k = lit "inputs"
  · subst e1
    rw [if_pos rfl, guard_panic]
    simp
  rw [if_neg e1]
  simp [e1]

/-! ### what has been read before -/

theorem slot_exists {α : Type} {de : Json → Res α} {k : String} {fs : List (Str × Json)} :
    (∃ o, Slot de none (entriesOf k fs) o) ↔ Absent k fs ∨ ∃ v a, Once k fs v ∧ de v = .ok a := by
  simp only [slot_none, Absent, Once]
  constructor
  · rintro ⟨o, ⟨h, -⟩ | ⟨v, a, h1, h2, -⟩⟩
    · exact .inl h
    · exact .inr ⟨v, a, h1, h2⟩
  · rintro (h | ⟨v, a, h1, h2⟩)
    · exact ⟨none, .inl ⟨h, rfl⟩⟩
    · exact ⟨some a, .inr ⟨v, a, h1, h2, rfl⟩⟩

theorem slot_none_iff {α : Type} {de : Json → Res α} {k : String} {fs : List (Str × Json)} {o : Option α}
    (h : Slot de none (entriesOf k fs) o) : o = none ↔ Absent k fs := by
  rcases slot_none.1 h with ⟨h1, rfl⟩ | ⟨v, a, h1, h2, rfl⟩
  · simp [Absent, h1]
  · simp [Absent, h1]

theorem typeFine_iff {fs : List (Str × Json)} : (∃ o, Slot deKind none (entriesOf "type" fs) o) ↔ TypeFine fs := by
  rw [slot_exists, TypeFine]
  simp only [deKind_iff]
  constructor
  · rintro (h | ⟨_, t, h, s, rfl, h2⟩)
    · exact .inl h
    · exact .inr ⟨s, t, h, h2⟩
  · rintro (h | ⟨s, t, h, h2⟩)
    · exact .inl h
    · exact .inr ⟨_, t, h, s, rfl, h2⟩

theorem componentsFine_iff {mode : Mode} {fs : List (Str × Json)} :
    (∃ o, Slot (deComponents mode) none (entriesOf "components" fs) o) ↔ ComponentsFine mode fs := by
  rw [slot_exists, ComponentsFine]
  constructor
  · rintro (h | ⟨v, ps, h, h2⟩)
    · exact .inl h
    · obtain ⟨xs, rfl, h3⟩ := (components_iff v ps).1 h2
      exact .inr ⟨xs, ps, h, h3⟩
  · rintro (h | ⟨xs, ps, h, h2⟩)
    · exact .inl h
    · exact .inr ⟨_, ps, h, (components_iff _ ps).2 ⟨xs, rfl, h2⟩⟩

theorem arrayFine_iff {α : Type} {de : Json → Res α} {R : Json → α → Prop} (hR : ∀ j a, de j = .ok a ↔ R j a) {k : String}
    {fs : List (Str × Json)} : (∃ o, Slot (deArr de) none (entriesOf k fs) o) ↔ ArrayFine k R fs := by
  rw [slot_exists, ArrayFine]
  simp only [each_iff hR]

theorem boolFine_iff {k : String} {fs : List (Str × Json)} :
    (∃ o, Slot deBool none (entriesOf k fs) o) ↔ ∃ b, DefaultBool k fs false b := by
  constructor
  · rintro ⟨o, h⟩; exact ⟨o.getD false, defaultBool_iff.1 ⟨o, h, rfl⟩⟩
  · rintro ⟨b, h⟩
    obtain ⟨o, h1, -⟩ := defaultBool_iff.2 h
    exact ⟨o, h1⟩

theorem mutabilityFine_iff {fs : List (Str × Json)} :
    (∃ o, Slot deStateMutability none (entriesOf "stateMutability" fs) o) ↔ ∃ m, DenotesMutability fs m := by
  constructor
  · rintro ⟨o, h⟩; exact ⟨_, mutability_iff.1 ⟨o, h, rfl⟩⟩
  · rintro ⟨b, h⟩
    obtain ⟨o, h1, -⟩ := mutability_iff.2 h
    exact ⟨o, h1⟩

theorem nameFine_iff {fs : List (Str × Json)} :
    (∃ o, Slot deName none (entriesOf "name" fs) o) ↔ ∃ o, OptionalString "name" fs o := by
  simp only [← optionalString_iff]
  rw [slot_exists, slot_exists]
  simp only [deName_iff, deString_iff]
  constructor
  · rintro (h | ⟨v, n, h, s, h1, -⟩)
    · exact .inl h
    · exact .inr ⟨v, s, h, h1⟩
  · rintro (h | ⟨v, s, h, h1⟩)
    · exact .inl h
    · exact .inr ⟨v, _, h, s, h1, cutAtParen_sanitize s⟩

theorem tupleFine_iff {mode : Mode} {fs : List (Str × Json)} (P : Option ParamType → Option (List TupleParam) → Prop) :
    (∃ st, deTupleFields mode fs {} = .ok st ∧ P st.kind st.components) ↔
      KnownKeys mode ["name", "type", "internalType", "components"] fs ∧ (∃ o, OptionalString "name" fs o) ∧
      (∃ o, OptionalString "internalType" fs o) ∧ ∃ a b, Slot deKind none (entriesOf "type" fs) a ∧
        Slot (deComponents mode) none (entriesOf "components" fs) b ∧ P a b := by
  simp only [tupleFields_iff, optionalString_iff]
  constructor
  · rintro ⟨st, ⟨h1, h2, h3, h4, h5, -⟩, hP⟩
    exact ⟨h1, ⟨_, h2⟩, ⟨_, h4⟩, _, _, h3, h5, hP⟩
  · rintro ⟨h1, ⟨o, h2⟩, ⟨o', h3⟩, a, b, h4, h5, hP⟩
    exact ⟨⟨o, a, b, o', none⟩, ⟨h1, h2, h4, h3, h5, rfl⟩, hP⟩

theorem paramFineSt_iff {mode : Mode} {fs : List (Str × Json)} (P : Option ParamType → Option (List TupleParam) → Prop) :
    (∃ st, deParamFields mode fs {} = .ok st ∧ P st.kind st.components) ↔
      KnownKeys mode ["name", "type", "internalType", "components"] fs ∧ (∃ o, OptionalString "name" fs o) ∧
      (∃ o, OptionalString "internalType" fs o) ∧ ∃ a b, Slot deKind none (entriesOf "type" fs) a ∧
        Slot (deComponents mode) none (entriesOf "components" fs) b ∧ P a b := by
  simp only [paramFields_iff, optionalString_iff]
  constructor
  · rintro ⟨st, ⟨h1, h2, h3, h4, h5, -⟩, hP⟩
    exact ⟨h1, ⟨_, h2⟩, ⟨_, h4⟩, _, _, h3, h5, hP⟩
  · rintro ⟨h1, ⟨o, h2⟩, ⟨o', h3⟩, a, b, h4, h5, hP⟩
    exact ⟨⟨o, a, b, o', none⟩, ⟨h1, h2, h4, h3, h5, rfl⟩, hP⟩

theorem eventFineSt_iff {mode : Mode} {fs : List (Str × Json)} (P : Option ParamType → Option (List TupleParam) → Prop) :
    (∃ st, deEventFields mode fs {} = .ok st ∧ P st.kind st.components) ↔
      KnownKeys mode ["name", "type", "components", "indexed"] fs ∧ (∃ o, OptionalString "name" fs o) ∧
      (∃ b, DefaultBool "indexed" fs false b) ∧ ∃ a b, Slot deKind none (entriesOf "type" fs) a ∧
        Slot (deComponents mode) none (entriesOf "components" fs) b ∧ P a b := by
  simp only [eventFields_iff, ← optionalString_iff, ← boolFine_iff]
  constructor
  · rintro ⟨st, ⟨h1, h2, h3, h4, h5, -⟩, hP⟩
    exact ⟨h1, ⟨_, h2⟩, ⟨_, h5⟩, _, _, h3, h4, hP⟩
  · rintro ⟨h1, ⟨o, h2⟩, ⟨o', h3⟩, a, b, h4, h5, hP⟩
    exact ⟨⟨o, a, b, none, o'⟩, ⟨h1, h2, h4, h5, h3, rfl⟩, hP⟩

/-- the two slots that matter -/
theorem slots_type {mode : Mode} {fs : List (Str × Json)} :
    (∃ a b, Slot deKind none (entriesOf "type" fs) a ∧ Slot (deComponents mode) none (entriesOf "components" fs) b ∧ a = none) ↔
      (TypeFine fs ∧ ComponentsFine mode fs) ∧ Absent "type" fs := by
  rw [← typeFine_iff, ← componentsFine_iff]
  constructor
  · rintro ⟨a, b, h1, h2, h3⟩; exact ⟨⟨⟨a, h1⟩, ⟨b, h2⟩⟩, (slot_none_iff h1).1 h3⟩
  · rintro ⟨⟨⟨a, h1⟩, ⟨b, h2⟩⟩, h3⟩; exact ⟨a, b, h1, h2, (slot_none_iff h1).2 h3⟩

theorem slots_components {mode : Mode} {fs : List (Str × Json)} :
    (∃ a b, Slot deKind none (entriesOf "type" fs) a ∧ Slot (deComponents mode) none (entriesOf "components" fs) b ∧ b = none) ↔
      (TypeFine fs ∧ ComponentsFine mode fs) ∧ Absent "components" fs := by
  rw [← typeFine_iff, ← componentsFine_iff]
  constructor
  · rintro ⟨a, b, h1, h2, h3⟩; exact ⟨⟨⟨a, h1⟩, ⟨b, h2⟩⟩, (slot_none_iff h2).1 h3⟩
  · rintro ⟨⟨⟨a, h1⟩, ⟨b, h2⟩⟩, h3⟩; exact ⟨a, b, h1, h2, (slot_none_iff h2).2 h3⟩

theorem before_type {mode : Mode} {fs : List (Str × Json)} :
    ((∃ st, deTupleFields mode fs {} = .ok st ∧ st.kind = none) ↔ ParamFine mode fs ∧ Absent "type" fs) ∧
    ((∃ st, deParamFields mode fs {} = .ok st ∧ st.kind = none) ↔ ParamFine mode fs ∧ Absent "type" fs) ∧
    ((∃ st, deEventFields mode fs {} = .ok st ∧ st.kind = none) ↔ EventParamFine mode fs ∧ Absent "type" fs) := by
  refine ⟨?_, ?_, ?_⟩
  · rw [tupleFine_iff (fun a _ => a = none), slots_type, ParamFine]; tauto
  · rw [paramFineSt_iff (fun a _ => a = none), slots_type, ParamFine]; tauto
  · rw [eventFineSt_iff (fun a _ => a = none), slots_type, EventParamFine]; tauto

theorem before_components {mode : Mode} {fs : List (Str × Json)} :
    ((∃ st, deTupleFields mode fs {} = .ok st ∧ st.components = none) ↔ ParamFine mode fs ∧ Absent "components" fs) ∧
    ((∃ st, deParamFields mode fs {} = .ok st ∧ st.components = none) ↔ ParamFine mode fs ∧ Absent "components" fs) ∧
    ((∃ st, deEventFields mode fs {} = .ok st ∧ st.components = none) ↔ EventParamFine mode fs ∧ Absent "components" fs) := by
  refine ⟨?_, ?_, ?_⟩
  · rw [tupleFine_iff (fun _ b => b = none), slots_components, ParamFine]; tauto
  · rw [paramFineSt_iff (fun _ b => b = none), slots_components, ParamFine]; tauto
  · rw [eventFineSt_iff (fun _ b => b = none), slots_components, EventParamFine]; tauto

/-! ### parameters -/

theorem members_panic {mode : Mode} : ∀ (xs : List Json), deTupleParams mode xs = .panic ↔
    ∃ ys x zs ps, xs = ys ++ x :: zs ∧ DenotesMembers mode ys ps ∧ deTupleParam mode x = .panic
  | [] => by
    rw [deTupleParams.eq_def]
    simp only [reduceCtorEq, false_iff]
    rintro ⟨ys, x, zs, ps, h, -⟩
    simp at h
  | x :: xs => by
    rw [deTupleParams.eq_def]
    simp only [bind_eq_panic, members_panic xs, reduceCtorEq, and_false, exists_false, or_false, member_iff]
    constructor
    · rintro (h | ⟨p, h1, ys, y, zs, ps, rfl, h2, h3⟩)
      · exact ⟨[], x, xs, [], rfl, .nil, h⟩
      · exact ⟨x :: ys, y, zs, p :: ps, rfl, .cons h1 h2, h3⟩
    · rintro ⟨ys, y, zs, ps, h1, h2, h3⟩
      cases h2 with
      | nil =>
        simp only [List.nil_append, List.cons.injEq] at h1
        obtain ⟨rfl, rfl⟩ := h1
        exact .inl h3
      | cons h4 h5 =>
        simp only [List.cons_append, List.cons.injEq] at h1
        obtain ⟨rfl, rfl⟩ := h1
        exact .inr ⟨_, h4, _, y, zs, _, rfl, h5, h3⟩

theorem components_panic {mode : Mode} (v : Json) : deComponents mode v = .panic ↔
    ∃ ys x zs ps, v = .arr (ys ++ x :: zs) ∧ DenotesMembers mode ys ps ∧ deTupleParam mode x = .panic := by
  cases v with
  | arr xs => rw [deComponents.eq_def]; simp only [members_panic, Json.arr.injEq]
  | _ => rw [deComponents.eq_def]; simp

/-- an entry of a parameter at which reading stops with a panic -/
def StopsAt (mode : Mode) (Fine : List (Str × Json) → Prop) (fs : List (Str × Json)) : Prop :=
  (∃ before after s, fs = before ++ ("type".toList, .str s) :: after ∧ Fine before ∧ Absent "type" before ∧
    read s = .panic) ∨
  ∃ before after ys x zs ps, fs = before ++ ("components".toList, .arr (ys ++ x :: zs)) :: after ∧ Fine before ∧
    Absent "components" before ∧ DenotesMembers mode ys ps ∧ deTupleParam mode x = .panic

/-- a parameter-like loop panics at its type or at its components -/
theorem fields_panic {mode : Mode} {L : List (Str × Json) → FieldSt → Res FieldSt} {Fine : List (Str × Json) → Prop}
    (h0 : ∀ st, L [] st = .ok st) (hc : ∀ e es st, L (e :: es) st = (L [e] st >>= fun st => L es st))
    (h1 : ∀ k v st, L [(k, v)] st = .panic ↔ (k = lit "type" ∧ st.kind = none ∧ deKind v = .panic) ∨
      (k = lit "components" ∧ st.components = none ∧ deComponents mode v = .panic))
    (ht : ∀ fs, (∃ st, L fs {} = .ok st ∧ st.kind = none) ↔ Fine fs ∧ Absent "type" fs)
    (hk : ∀ fs, (∃ st, L fs {} = .ok st ∧ st.components = none) ↔ Fine fs ∧ Absent "components" fs)
    (fs : List (Str × Json)) : L fs {} = .panic ↔ StopsAt mode Fine fs := by
  rw [loop_panic L h0 hc, StopsAt]
  constructor
  · rintro ⟨b, ⟨k, v⟩, a, st, rfl, h2, h3⟩
    rcases (h1 k v st).1 h3 with ⟨rfl, h4, h5⟩ | ⟨rfl, h4, h5⟩
    · obtain ⟨s, rfl, h6⟩ := (kind_panic v).1 h5
      obtain ⟨h7, h8⟩ := (ht b).1 ⟨st, h2, h4⟩
      exact .inl ⟨b, a, s, rfl, h7, h8, h6⟩
    · obtain ⟨ys, x, zs, ps, rfl, h6, h7⟩ := (components_panic v).1 h5
      obtain ⟨h8, h9⟩ := (hk b).1 ⟨st, h2, h4⟩
      exact .inr ⟨b, a, ys, x, zs, ps, rfl, h8, h9, h6, h7⟩
  · rintro (⟨b, a, s, rfl, h2, h3, h4⟩ | ⟨b, a, ys, x, zs, ps, rfl, h2, h3, h4, h5⟩)
    · obtain ⟨st, h5, h6⟩ := (ht b).2 ⟨h2, h3⟩
      exact ⟨b, _, a, st, rfl, h5, (h1 _ _ _).2 (.inl ⟨rfl, h6, (kind_panic _).2 ⟨s, rfl, h4⟩⟩)⟩
    · obtain ⟨st, h6, h7⟩ := (hk b).2 ⟨h2, h3⟩
      exact ⟨b, _, a, st, rfl, h6, (h1 _ _ _).2 (.inr ⟨rfl, h7, (components_panic _).2 ⟨ys, x, zs, ps, rfl, h4, h5⟩⟩)⟩

theorem tupleFields_panic {mode : Mode} (fs : List (Str × Json)) : deTupleFields mode fs {} = .panic ↔ StopsAt mode (ParamFine mode) fs :=
  fields_panic (mode := mode) (L := deTupleFields mode)
  (Fine := ParamFine mode) (fun st => by rw [deTupleFields.eq_def]) (tupleFields_cons mode) (tupleFields_one mode)
  (fun _ => before_type.1) (fun _ => before_components.1) fs

theorem paramFields_panic {mode : Mode} (fs : List (Str × Json)) : deParamFields mode fs {} = .panic ↔ StopsAt mode (ParamFine mode) fs :=
  fields_panic (mode := mode) (L := deParamFields mode)
  (Fine := ParamFine mode) (fun st => by rw [deParamFields.eq_def]) (paramFields_cons mode) (paramFields_one mode)
  (fun _ => before_type.2.1) (fun _ => before_components.2.1) fs

theorem eventFields_panic {mode : Mode} (fs : List (Str × Json)) : deEventFields mode fs {} = .panic ↔ StopsAt mode (EventParamFine mode) fs :=
  fields_panic (mode := mode) (L := deEventFields mode)
  (Fine := EventParamFine mode) (fun st => by rw [deEventFields.eq_def]) (eventFields_cons mode) (eventFields_one mode)
  (fun _ => before_type.2.2) (fun _ => before_components.2.2) fs

theorem finish_noPanic (st : FieldSt) : finishTupleParam st ≠ .panic := by
  rw [finishTupleParam]
  simp [bind_eq_panic, required_noPanic, set_noPanic]

theorem tupleParam_obj {mode : Mode} (fs : List (Str × Json)) :
    deTupleParam mode (.obj fs) = .panic ↔ deTupleFields mode fs {} = .panic := by
  rw [deTupleParam.eq_def]
  simp only [bind_eq_panic, finish_noPanic, and_false, exists_false, or_false]

theorem member_panic_aux {mode : Mode} : ∀ (n : Nat) (j : Json), sizeOf j = n →
    (deTupleParam mode j = .panic ↔ CrashesParam mode j) := by
  intro n
  induction n using Nat.strongRecOn with
  | _ n ih =>
    intro j hj
    cases j with
    | obj fs =>
      rw [tupleParam_obj, tupleFields_panic, StopsAt]
      constructor
      · rintro (⟨b, a, s, rfl, h2, h3, h4⟩ | ⟨b, a, ys, x, zs, ps, rfl, h2, h3, h4, h5⟩)
        · exact .type h2 h3 h4
        · refine .components h2 h3 h4 ((ih (sizeOf x) ?_ x rfl).1 h5)
          have e1 : sizeOf x < sizeOf (Json.arr (ys ++ x :: zs)) := size_element (by simp)
          have e2 := size_field (k := "components".toList) (v := .arr (ys ++ x :: zs))
            (fs := b ++ ("components".toList, .arr (ys ++ x :: zs)) :: a) (by simp)
          omega
      · intro h
        cases h with
        | type h2 h3 h4 => exact .inl ⟨_, _, _, rfl, h2, h3, h4⟩
        | @components b a ys zs ps x h2 h3 h4 h5 =>
          refine .inr ⟨_, _, _, _, _, _, rfl, h2, h3, h4, (ih (sizeOf x) ?_ x rfl).2 h5⟩
          have e1 : sizeOf x < sizeOf (Json.arr (ys ++ x :: zs)) := size_element (by simp)
          have e2 := size_field (k := "components".toList) (v := .arr (ys ++ x :: zs))
            (fs := b ++ ("components".toList, .arr (ys ++ x :: zs)) :: a) (by simp)
          omega
    | _ =>
      rw [deTupleParam.eq_def]
      exact ⟨nofun, nofun⟩

theorem member_panic {mode : Mode} (j : Json) : deTupleParam mode j = .panic ↔ CrashesParam mode j :=
  member_panic_aux _ j rfl

theorem param_panic {mode : Mode} (j : Json) : deParam mode j = .panic ↔ CrashesParam mode j := by
  cases j with
  | obj fs =>
    rw [← member_panic, tupleParam_obj, tupleFields_panic, deParam.eq_def]
    simp only [bind_eq_panic, required_noPanic, set_noPanic, reduceCtorEq, and_false, exists_false, or_false, paramFields_panic]
  | _ =>
    rw [deParam.eq_def]
    exact ⟨nofun, nofun⟩

theorem eventParam_panic {mode : Mode} (j : Json) : deEventParam mode j = .panic ↔ CrashesEventParam mode j := by
  cases j with
  | obj fs =>
    rw [deEventParam.eq_def]
    simp only [bind_eq_panic, required_noPanic, set_noPanic, reduceCtorEq, and_false, exists_false, or_false, eventFields_panic,
      StopsAt, member_panic]
    constructor
    · rintro (⟨b, a, s, rfl, h2, h3, h4⟩ | ⟨b, a, ys, x, zs, ps, rfl, h2, h3, h4, h5⟩)
      · exact .type h2 h3 h4
      · exact .components h2 h3 h4 h5
    · intro h
      cases h with
      | type h2 h3 h4 => exact .inl ⟨_, _, _, rfl, h2, h3, h4⟩
      | components h2 h3 h4 h5 => exact .inr ⟨_, _, _, _, _, _, rfl, h2, h3, h4, h5⟩
  | _ =>
    rw [deEventParam.eq_def]
    exact ⟨nofun, nofun⟩

/-! ### operations -/

theorem vec_panic {α : Type} {de : Json → Res α} {R : Json → α → Prop} {C : Json → Prop} (hR : ∀ j a, de j = .ok a ↔ R j a)
    (hC : ∀ j, de j = .panic ↔ C j) : ∀ xs : List Json, deVec de xs = .panic ↔
      ∃ ys as x zs, xs = ys ++ x :: zs ∧ DenotesEach R (.arr ys) as ∧ C x
  | [] => by
    rw [deVec]
    simp only [reduceCtorEq, false_iff]
    rintro ⟨ys, as, x, zs, h, -⟩
    simp at h
  | x :: xs => by
    rw [deVec]
    simp only [bind_eq_panic, vec_panic hR hC xs, reduceCtorEq, and_false, exists_false, or_false, hR, hC]
    constructor
    · rintro (h | ⟨p, h1, ys, ps, y, zs, rfl, h2, h3⟩)
      · exact ⟨[], [], x, xs, rfl, .nil, h⟩
      · exact ⟨x :: ys, p :: ps, y, zs, rfl, .cons h1 h2, h3⟩
    · rintro ⟨ys, ps, y, zs, h1, h2, h3⟩
      cases h2 with
      | nil =>
        simp only [List.nil_append, List.cons.injEq] at h1
        obtain ⟨rfl, rfl⟩ := h1
        exact .inl h3
      | cons h4 h5 =>
        simp only [List.cons_append, List.cons.injEq] at h1
        obtain ⟨rfl, rfl⟩ := h1
        exact .inr ⟨_, h4, _, _, y, zs, rfl, h5, h3⟩

theorem arr_panic {α : Type} {de : Json → Res α} {R : Json → α → Prop} {C : Json → Prop} (hR : ∀ j a, de j = .ok a ↔ R j a)
    (hC : ∀ j, de j = .panic ↔ C j) (v : Json) : deArr de v = .panic ↔ CrashesAt R C v := by
  cases v with
  | arr xs => rw [deArr, vec_panic hR hC]; simp only [CrashesAt, Json.arr.injEq]
  | _ => rw [deArr.eq_def]; simp [CrashesAt]

theorem params_panic {mode : Mode} (v : Json) :
    deArr (deParam mode) v = .panic ↔ CrashesAt (DenotesParam mode) (CrashesParam mode) v :=
  arr_panic (fun _ _ => param_iff) param_panic v

theorem eventParams_panic {mode : Mode} (v : Json) :
    deArr (deEventParam mode) v = .panic ↔ CrashesAt (DenotesEventParam mode) (CrashesEventParam mode) v :=
  arr_panic (fun _ _ => eventParam_iff) eventParam_panic v

theorem functionFine_iff {fs : List (Str × Json)} (P : Option (List Param) → Option (List Param) → Prop) :
    (∃ st, deFunctionFields .buffered fs {} = .ok st ∧ P st.inputs st.outputs) ↔ (∃ o, OptionalString "name" fs o) ∧
      (∃ a b, Slot (deArr (deParam .buffered)) none (entriesOf "inputs" fs) a ∧
        Slot (deArr (deParam .buffered)) none (entriesOf "outputs" fs) b ∧ P a b) ∧
      (∃ b, DefaultBool "constant" fs false b) ∧ ∃ m, DenotesMutability fs m := by
  simp only [functionFields_iff, ← nameFine_iff, ← boolFine_iff, ← mutabilityFine_iff]
  constructor
  · rintro ⟨st, ⟨h1, h2, h3, h4, h5, -⟩, hP⟩
    exact ⟨⟨_, h1⟩, ⟨_, _, h2, h3, hP⟩, ⟨_, h4⟩, ⟨_, h5⟩⟩
  · rintro ⟨⟨o1, h1⟩, ⟨o2, o3, h2, h3, hP⟩, ⟨o4, h4⟩, ⟨o5, h5⟩⟩
    exact ⟨⟨o1, o2, o3, o4, o5, none, none⟩, ⟨h1, h2, h3, h4, h5, rfl, rfl⟩, hP⟩

theorem before_function {fs : List (Str × Json)} :
    ((∃ st, deFunctionFields .buffered fs {} = .ok st ∧ st.inputs = none) ↔ FunctionFine fs ∧ Absent "inputs" fs) ∧
    ((∃ st, deFunctionFields .buffered fs {} = .ok st ∧ st.outputs = none) ↔ FunctionFine fs ∧ Absent "outputs" fs) := by
  have hp : ∀ k, (∃ o, Slot (deArr (deParam .buffered)) none (entriesOf k fs) o) ↔ ArrayFine k (DenotesParam .buffered) fs :=
    fun k => arrayFine_iff (fun _ _ => param_iff)
  constructor
  · rw [functionFine_iff (fun a _ => a = none), FunctionFine, ← hp, ← hp]
    constructor
    · rintro ⟨h1, ⟨a, b, h2, h3, h4⟩, h5, h6⟩; exact ⟨⟨h1, ⟨a, h2⟩, ⟨b, h3⟩, h5, h6⟩, (slot_none_iff h2).1 h4⟩
    · rintro ⟨⟨h1, ⟨a, h2⟩, ⟨b, h3⟩, h5, h6⟩, h4⟩; exact ⟨h1, ⟨a, b, h2, h3, (slot_none_iff h2).2 h4⟩, h5, h6⟩
  · rw [functionFine_iff (fun _ b => b = none), FunctionFine, ← hp, ← hp]
    constructor
    · rintro ⟨h1, ⟨a, b, h2, h3, h4⟩, h5, h6⟩; exact ⟨⟨h1, ⟨a, h2⟩, ⟨b, h3⟩, h5, h6⟩, (slot_none_iff h3).1 h4⟩
    · rintro ⟨⟨h1, ⟨a, h2⟩, ⟨b, h3⟩, h5, h6⟩, h4⟩; exact ⟨h1, ⟨a, b, h2, h3, (slot_none_iff h3).2 h4⟩, h5, h6⟩

theorem before_event {fs : List (Str × Json)} :
    (∃ st, deEventOpFields .buffered fs {} = .ok st ∧ st.eventInputs = none) ↔ EventFine fs ∧ Absent "inputs" fs := by
  simp only [eventOpFields_iff, EventFine, ← nameFine_iff, ← boolFine_iff,
    ← arrayFine_iff (k := "inputs") (fs := fs) (de := deEventParam .buffered) (fun _ _ => eventParam_iff)]
  constructor
  · rintro ⟨st, ⟨h1, h2, h3, -⟩, h4⟩
    exact ⟨⟨⟨_, h1⟩, ⟨_, h2⟩, ⟨_, h3⟩⟩, (slot_none_iff h2).1 h4⟩
  · rintro ⟨⟨⟨o1, h1⟩, ⟨o2, h2⟩, ⟨o3, h3⟩⟩, h4⟩
    exact ⟨⟨o1, none, none, none, none, o2, o3⟩, ⟨h1, h2, h3, rfl, rfl, rfl, rfl⟩, (slot_none_iff h2).2 h4⟩

theorem before_constructor {fs : List (Str × Json)} :
    (∃ st, deConstructorFields .buffered fs {} = .ok st ∧ st.inputs = none) ↔ Absent "inputs" fs := by
  simp only [constructorFields_iff]
  constructor
  · rintro ⟨st, ⟨h1, -⟩, h4⟩
    exact (slot_none_iff h1).1 h4
  · intro h
    exact ⟨{}, ⟨slot_none.2 (.inl ⟨h, rfl⟩), rfl, rfl, rfl, rfl, rfl, rfl⟩, rfl⟩

/-- the tag does not matter to a loop that does not know it -/
theorem loop_withoutTag {σ : Type} {L : List (Str × Json) → σ → Res σ} (h0 : ∀ st, L [] st = .ok st)
    (hc : ∀ e es st, L (e :: es) st = (L [e] st >>= fun st => L es st))
    (ht : ∀ v st, L [(lit "type", v)] st = .ok st) : ∀ fs st, L (withoutTag fs) st = L fs st
  | [], _ => rfl
  | (k, v) :: fs, st => by
    by_cases hk : k = lit "type"
    · subst hk
      rw [hc, ht, Res.ok_bind, ← loop_withoutTag h0 hc ht fs, withoutTag, List.filter_cons_of_neg (by simp)]
      rfl
    · rw [hc, withoutTag, List.filter_cons_of_pos (by simpa using hk), hc]
      have := fun st => loop_withoutTag h0 hc ht fs st
      simp only [withoutTag] at this
      simp only [this]

theorem functionFields_withoutTag (fs : List (Str × Json)) (st : OpSt) :
    deFunctionFields .buffered (withoutTag fs) st = deFunctionFields .buffered fs st :=
  loop_withoutTag (fun st => by rw [deFunctionFields.eq_def]) (functionFields_cons _)
    (fun v st => by rw [deFunctionFields.eq_def]; simp only []; rw [if_neg (by decide), if_neg (by decide), if_neg (by decide),
      if_neg (by decide), if_neg (by decide), deFunctionFields.eq_def]) fs st

theorem eventOpFields_withoutTag (fs : List (Str × Json)) (st : OpSt) :
    deEventOpFields .buffered (withoutTag fs) st = deEventOpFields .buffered fs st :=
  loop_withoutTag (fun st => by rw [deEventOpFields.eq_def]) (eventOpFields_cons _)
    (fun v st => by rw [deEventOpFields.eq_def]; simp only []; rw [if_neg (by decide), if_neg (by decide), if_neg (by decide),
      deEventOpFields.eq_def]) fs st

theorem constructorFields_withoutTag (fs : List (Str × Json)) (st : OpSt) :
    deConstructorFields .buffered (withoutTag fs) st = deConstructorFields .buffered fs st :=
  loop_withoutTag (fun st => by rw [deConstructorFields.eq_def]) (constructorFields_cons _)
    (fun v st => by rw [deConstructorFields.eq_def]; simp only []; rw [if_neg (by decide), deConstructorFields.eq_def]) fs st

theorem function_panic (fs : List (Str × Json)) : deFunction .buffered (withoutTag fs) = .panic ↔
    ∃ before after k v, fs = before ++ (String.toList k, v) :: after ∧ (k = "inputs" ∨ k = "outputs") ∧ FunctionFine before ∧
      Absent k before ∧ CrashesAt (DenotesParam .buffered) (CrashesParam .buffered) v := by
  rw [deFunction]
  simp only [bind_eq_panic, required_noPanic, reduceCtorEq, and_false, exists_false, or_false, functionFields_withoutTag]
  rw [loop_panic _ (fun st => by rw [deFunctionFields.eq_def]) (functionFields_cons _)]
  constructor
  · rintro ⟨b, ⟨k, v⟩, a, st, rfl, h2, h3⟩
    rcases (functionFields_one _ k v st).1 h3 with ⟨rfl, h4, h5⟩ | ⟨rfl, h4, h5⟩
    · obtain ⟨h6, h7⟩ := before_function.1.1 ⟨st, h2, h4⟩
      exact ⟨b, a, "inputs", v, rfl, .inl rfl, h6, h7, (params_panic v).1 h5⟩
    · obtain ⟨h6, h7⟩ := before_function.2.1 ⟨st, h2, h4⟩
      exact ⟨b, a, "outputs", v, rfl, .inr rfl, h6, h7, (params_panic v).1 h5⟩
  · rintro ⟨b, a, k, v, rfl, rfl | rfl, h2, h3, h4⟩
    · obtain ⟨st, h5, h6⟩ := before_function.1.2 ⟨h2, h3⟩
      exact ⟨b, _, a, st, rfl, h5, (functionFields_one _ _ _ _).2 (.inl ⟨rfl, h6, (params_panic v).2 h4⟩)⟩
    · obtain ⟨st, h5, h6⟩ := before_function.2.2 ⟨h2, h3⟩
      exact ⟨b, _, a, st, rfl, h5, (functionFields_one _ _ _ _).2 (.inr ⟨rfl, h6, (params_panic v).2 h4⟩)⟩

theorem event_panic (fs : List (Str × Json)) : deEvent .buffered (withoutTag fs) = .panic ↔
    ∃ before after v, fs = before ++ ("inputs".toList, v) :: after ∧ EventFine before ∧
      Absent "inputs" before ∧ CrashesAt (DenotesEventParam .buffered) (CrashesEventParam .buffered) v := by
  rw [deEvent]
  simp only [bind_eq_panic, required_noPanic, reduceCtorEq, and_false, exists_false, or_false, eventOpFields_withoutTag]
  rw [loop_panic _ (fun st => by rw [deEventOpFields.eq_def]) (eventOpFields_cons _)]
  constructor
  · rintro ⟨b, ⟨k, v⟩, a, st, rfl, h2, h3⟩
    obtain ⟨rfl, h4, h5⟩ := (eventOpFields_one _ k v st).1 h3
    obtain ⟨h6, h7⟩ := before_event.1 ⟨st, h2, h4⟩
    exact ⟨b, a, v, rfl, h6, h7, (eventParams_panic v).1 h5⟩
  · rintro ⟨b, a, v, rfl, h2, h3, h4⟩
    obtain ⟨st, h5, h6⟩ := before_event.2 ⟨h2, h3⟩
    exact ⟨b, _, a, st, rfl, h5, (eventOpFields_one _ _ _ _).2 ⟨rfl, h6, (eventParams_panic v).2 h4⟩⟩

theorem constructor_panic (fs : List (Str × Json)) : deConstructor .buffered (withoutTag fs) = .panic ↔
    ∃ before after v, fs = before ++ ("inputs".toList, v) :: after ∧ Absent "inputs" before ∧
      CrashesAt (DenotesParam .buffered) (CrashesParam .buffered) v := by
  rw [deConstructor]
  simp only [bind_eq_panic, required_noPanic, reduceCtorEq, and_false, exists_false, or_false, constructorFields_withoutTag]
  rw [loop_panic _ (fun st => by rw [deConstructorFields.eq_def]) (constructorFields_cons _)]
  constructor
  · rintro ⟨b, ⟨k, v⟩, a, st, rfl, h2, h3⟩
    obtain ⟨rfl, h4, h5⟩ := (constructorFields_one _ k v st).1 h3
    exact ⟨b, a, v, rfl, before_constructor.1 ⟨st, h2, h4⟩, (params_panic v).1 h5⟩
  · rintro ⟨b, a, v, rfl, h3, h4⟩
    obtain ⟨st, h5, h6⟩ := before_constructor.2 h3
    exact ⟨b, _, a, st, rfl, h5, (constructorFields_one _ _ _ _).2 ⟨rfl, h6, (params_panic v).2 h4⟩⟩

theorem splitTag_noPanic : ∀ (fs : List (Str × Json)) tag acc, splitTag fs tag acc ≠ .panic
  | [], some _, _ => by simp [splitTag]
  | [], none, _ => by simp [splitTag]
  | (k, v) :: fs, tag, acc => by
    rw [splitTag.eq_def]
    simp only []
    split
    · split
      · simp
      · exact splitTag_noPanic fs _ _
    · exact splitTag_noPanic fs _ _

/-! ### elements written as arrays -/

theorem endOfSeq_noPanic (xs : List Json) : endOfSeq xs ≠ .panic := by cases xs <;> simp [endOfSeq]

theorem next_panic {α β : Type} {de : Json → Res α} {F : Option α × List Json → Res β} (xs : List Json) :
    (nextElement de xs >>= F) = .panic ↔ (xs = [] ∧ F (none, []) = .panic) ∨
      ∃ v rest, xs = v :: rest ∧ (de v = .panic ∨ ∃ a, de v = .ok a ∧ F (some a, rest) = .panic) := by
  cases xs with
  | nil => simp [nextElement, Bind.bind, Res.bind]
  | cons v rest =>
    rw [nextElement]
    cases h : de v <;> simp [h, Bind.bind, Res.bind]

theorem required_none {α β : Type} {F : α → Res β} : (required (none : Option α) >>= F) = .err .serdeJson := rfl

theorem required_some {α β : Type} {F : α → Res β} {a : α} : (required (some a) >>= F) = F a := rfl

theorem constructorSeq_panic (xs : List Json) : deConstructorSeq .buffered xs = .panic ↔
    ∃ v rest, xs = v :: rest ∧ CrashesAt (DenotesParam .buffered) (CrashesParam .buffered) v := by
  rw [deConstructorSeq, next_panic]
  simp only [required_none, required_some, bind_eq_panic, endOfSeq_noPanic, reduceCtorEq, and_false, exists_false, or_false, false_or,
    params_panic]

theorem eventSeq_panic (xs : List Json) : deEventSeq .buffered xs = .panic ↔
    ∃ s v rest, xs = .str s :: v :: rest ∧ CrashesAt (DenotesEventParam .buffered) (CrashesEventParam .buffered) v := by
  rw [deEventSeq, next_panic]
  simp only [next_panic, required_none, required_some]
  simp only [bool_noPanic, bind_eq_panic, endOfSeq_noPanic, reduceCtorEq, and_false, exists_false, or_false, false_or,
    name_noPanic, eventParams_panic, deName_iff]
  constructor
  · rintro ⟨_, _, rfl, n, ⟨s, rfl, -⟩, v, rest, rfl, h⟩
    exact ⟨s, v, rest, rfl, h⟩
  · rintro ⟨s, v, rest, rfl, h⟩
    exact ⟨_, _, rfl, _, ⟨s, rfl, cutAtParen_sanitize s⟩, v, rest, rfl, h⟩

theorem functionSeq_panic (xs : List Json) : deFunctionSeq .buffered xs = .panic ↔
    (∃ s v rest, xs = .str s :: v :: rest ∧ CrashesAt (DenotesParam .buffered) (CrashesParam .buffered) v) ∨
    ∃ s v w rest as, xs = .str s :: v :: w :: rest ∧ DenotesEach (DenotesParam .buffered) v as ∧
      CrashesAt (DenotesParam .buffered) (CrashesParam .buffered) w := by
  rw [deFunctionSeq, next_panic]
  simp only [required_none, required_some, next_panic]
  simp only [bool_noPanic, mutability_noPanic, bind_eq_panic, endOfSeq_noPanic,
    reduceCtorEq, and_false, exists_false, or_false, false_or, name_noPanic, params_panic, deName_iff,
    each_iff (fun _ _ => param_iff (mode := .buffered))]
  constructor
  · rintro ⟨_, _, rfl, n, ⟨s, rfl, -⟩, v, rest, rfl, h | ⟨as, h1, w, rest', rfl, h2⟩⟩
    · exact .inl ⟨s, v, rest, rfl, h⟩
    · exact .inr ⟨s, v, w, rest', as, rfl, h1, h2⟩
  · rintro (⟨s, v, rest, rfl, h⟩ | ⟨s, v, w, rest, as, rfl, h1, h2⟩)
    · exact ⟨_, _, rfl, _, ⟨s, rfl, cutAtParen_sanitize s⟩, v, rest, rfl, .inl h⟩
    · exact ⟨_, _, rfl, _, ⟨s, rfl, cutAtParen_sanitize s⟩, v, _, rfl, .inr ⟨as, h1, w, rest, rfl, h2⟩⟩

theorem operationSeq_panic (xs : List Json) : deOperationSeq xs = .panic ↔ CrashesOperation (.arr xs) := by
  constructor
  · intro h
    rw [deOperationSeq.eq_def] at h
    split at h
    · rename_i s rest
      split at h
      · rename_i e; subst e
        simp only [bind_eq_panic, reduceCtorEq, and_false, exists_false, or_false, constructorSeq_panic] at h
        obtain ⟨v, rest, rfl, h⟩ := h
        exact .constructorArray h
      split at h
      · rename_i e; subst e
        simp only [bind_eq_panic, reduceCtorEq, and_false, exists_false, or_false, functionSeq_panic] at h
        rcases h with ⟨s, v, rest, rfl, h⟩ | ⟨s, v, w, rest, as, rfl, h1, h2⟩
        · exact .functionArrayInputs h
        · exact .functionArrayOutputs h1 h2
      split at h
      · rename_i e; subst e
        simp only [bind_eq_panic, reduceCtorEq, and_false, exists_false, or_false, eventSeq_panic] at h
        obtain ⟨s, v, rest, rfl, h⟩ := h
        exact .eventArray h
      split at h
      · simp [bind_eq_panic, endOfSeq_noPanic] at h
      split at h
      · simp [bind_eq_panic, endOfSeq_noPanic] at h
      · cases h
    · cases h
  · intro h
    cases h with
    | constructorArray h =>
      rw [deOperationSeq, if_pos rfl, bind_eq_panic, constructorSeq_panic]
      exact .inl ⟨_, _, rfl, h⟩
    | functionArrayInputs h =>
      rw [deOperationSeq, if_neg (by decide), if_pos rfl, bind_eq_panic, functionSeq_panic]
      exact .inl (.inl ⟨_, _, _, rfl, h⟩)
    | functionArrayOutputs h1 h2 =>
      rw [deOperationSeq, if_neg (by decide), if_pos rfl, bind_eq_panic, functionSeq_panic]
      exact .inl (.inr ⟨_, _, _, _, _, rfl, h1, h2⟩)
    | eventArray h =>
      rw [deOperationSeq, if_neg (by decide), if_neg (by decide), if_pos rfl, bind_eq_panic, eventSeq_panic]
      exact .inl ⟨_, _, _, rfl, h⟩

theorem operation_panic (j : Json) : deOperation j = .panic ↔ CrashesOperation j := by
  cases j with
  | arr xs => rw [deOperation, operationSeq_panic]
  | obj fs =>
    rw [deOperation]
    simp only [bind_eq_panic, splitTag_noPanic, false_or, Prod.exists, splitTag_iff, Option.toList_none, List.nil_append]
    constructor
    · rintro ⟨tag, rest, ⟨ht, rfl⟩, h⟩
      cases tag with
      | str s =>
        simp only at h
        split at h
        · rename_i e; subst e
          simp only [bind_eq_panic, reduceCtorEq, and_false, exists_false, or_false, constructor_panic] at h
          obtain ⟨b, a, v, rfl, h1, h2⟩ := h
          exact .constructor ht h1 h2
        split at h
        · rename_i e; subst e
          simp only [bind_eq_panic, reduceCtorEq, and_false, exists_false, or_false, function_panic] at h
          obtain ⟨b, a, k, v, rfl, hk, h1, h2, h3⟩ := h
          exact .function hk ht h1 h2 h3
        split at h
        · rename_i e; subst e
          simp only [bind_eq_panic, reduceCtorEq, and_false, exists_false, or_false, event_panic] at h
          obtain ⟨b, a, v, rfl, h1, h2, h3⟩ := h
          exact .event ht h1 h2 h3
        split at h
        · cases h
        split at h
        · cases h
        · cases h
      | _ => cases h
    · intro h
      cases h with
      | constructor ht h1 h2 =>
        refine ⟨_, _, ⟨ht, rfl⟩, ?_⟩
        simp only
        rw [if_pos trivial, bind_eq_panic, constructor_panic]
        exact .inl ⟨_, _, _, rfl, h1, h2⟩
      | function hk ht h1 h2 h3 =>
        refine ⟨_, _, ⟨ht, rfl⟩, ?_⟩
        simp only
        rw [if_neg (by decide), if_pos trivial, bind_eq_panic, function_panic]
        exact .inl ⟨_, _, _, _, rfl, hk, h1, h2, h3⟩
      | event ht h1 h2 h3 =>
        refine ⟨_, _, ⟨ht, rfl⟩, ?_⟩
        simp only
        rw [if_neg (by decide), if_neg (by decide), if_pos trivial, bind_eq_panic, event_panic]
        exact .inl ⟨_, _, _, rfl, h1, h2, h3⟩
  | _ => exact ⟨nofun, nofun⟩

theorem operations_vec : ∀ (xs : List Json) (c : Contract), deOperations xs c = .panic ↔ deVec deOperation xs = .panic
  | [], c => by simp [deOperations, deVec]
  | x :: xs, c => by
    rw [deOperations, deVec]
    simp only [bind_eq_panic, operations_vec xs, reduceCtorEq, and_false, exists_false, or_false]

theorem contract_panic (j : Json) : deContract j = .panic ↔ CrashesAt DenotesOperation CrashesOperation j := by
  cases j with
  | arr xs =>
    rw [deContract, operations_vec, vec_panic (fun _ _ => operation_iff) operation_panic]
    simp only [CrashesAt, Json.arr.injEq]
  | _ => rw [deContract.eq_def]; simp [CrashesAt]

end Ethabi.Crash

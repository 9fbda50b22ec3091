import Verif.Spec.AbiJson
import Verif.Proofs.Contract
/-! The field loops of the deserialisers, exactly. -/
namespace Ethabi.Schema
open Ethabi Spec

/-- what happens to one local variable of a field loop -/
def Slot {α : Type} (de : Json → Res α) (old : Option α) (vs : List Json) (new : Option α) : Prop :=
  (vs = [] ∧ new = old) ∨ (∃ v a, vs = [v] ∧ old = none ∧ de v = .ok a ∧ new = some a)

theorem slot_nil {α : Type} {de : Json → Res α} {old new : Option α} : Slot de old [] new ↔ new = old := by
  simp [Slot]

theorem slot_cons {α : Type} {de : Json → Res α} {old new : Option α} {v : Json} {vs : List Json} :
    Slot de old (v :: vs) new ↔ old = none ∧ ∃ a, de v = .ok a ∧ Slot de (some a) vs new := by
  constructor
  · rintro (⟨h, _⟩ | ⟨w, a, h, h1, h2, h3⟩)
    · cases h
    · obtain ⟨rfl, rfl⟩ := List.cons.inj h
      exact ⟨h1, a, h2, Or.inl ⟨rfl, h3⟩⟩
  · rintro ⟨h1, a, h2, (⟨rfl, h3⟩ | ⟨_, _, _, h, _⟩)⟩
    · exact Or.inr ⟨v, a, rfl, h1, h2, h3⟩
    · cases h

theorem field_step {α β : Type} {o : Option α} {x : Res α} {f : α → Res β} {r : β} :
    (if o.isSome = true then Res.err .serdeJson else x >>= f) = .ok r ↔ o = none ∧ ∃ a, x = .ok a ∧ f a = .ok r := by
  cases o with
  | none => simp [Res.bind_eq_ok]
  | some a => simp

theorem entriesOf_same {k : String} {v : Json} {fs : List (Str × Json)} :
    entriesOf k ((k.toList, v) :: fs) = v :: entriesOf k fs := by simp [entriesOf]

theorem entriesOf_other {k : String} {k' : Str} {v : Json} {fs : List (Str × Json)} (h : k' ≠ k.toList) :
    entriesOf k ((k', v) :: fs) = entriesOf k fs := by simp [entriesOf, h]

theorem entriesOf_nil {k : String} : entriesOf k [] = [] := rfl

theorem knownKeys_nil {mode : Mode} {keys : List String} : KnownKeys mode keys [] := by simp [KnownKeys]

theorem knownKeys_cons {mode : Mode} {keys : List String} {k : Str} {v : Json} {fs : List (Str × Json)} :
    KnownKeys mode keys ((k, v) :: fs) ↔ (mode = .direct → ∃ n ∈ keys, k = n.toList) ∧ KnownKeys mode keys fs := by
  simp only [KnownKeys, List.mem_cons]
  constructor
  · intro h
    exact ⟨fun hm => h hm _ (Or.inl rfl), fun hm e he => h hm e (Or.inr he)⟩
  · rintro ⟨h1, h2⟩ hm e (rfl | he)
    · exact h1 hm
    · exact h2 hm e he

theorem knownKeys_known {mode : Mode} {keys : List String} {k : String} {v : Json} {fs : List (Str × Json)} (h : k ∈ keys) :
    KnownKeys mode keys ((k.toList, v) :: fs) ↔ KnownKeys mode keys fs := by
  rw [knownKeys_cons]
  exact ⟨fun h => h.2, fun h2 => ⟨fun _ => ⟨k, h, rfl⟩, h2⟩⟩

theorem knownKeys_unknown {mode : Mode} {keys : List String} {k : Str} {v : Json} {fs : List (Str × Json)}
    (h : ∀ n ∈ keys, k ≠ n.toList) :
    KnownKeys mode keys ((k, v) :: fs) ↔ mode = .buffered ∧ KnownKeys mode keys fs := by
  rw [knownKeys_cons]
  constructor
  · rintro ⟨h1, h2⟩
    refine ⟨?_, h2⟩
    cases mode with
    | buffered => rfl
    | direct => obtain ⟨n, hn, e⟩ := h1 rfl; exact absurd e (h n hn)
  · rintro ⟨rfl, h2⟩
    exact ⟨nofun, h2⟩

theorem tupleFields_iff (mode : Mode) : ∀ (fs : List (Str × Json)) (st st' : FieldSt),
    deTupleFields mode fs st = .ok st' ↔ KnownKeys mode ["name", "type", "internalType", "components"] fs ∧
      Slot deString st.name (entriesOf "name" fs) st'.name ∧
      Slot deKind st.kind (entriesOf "type" fs) st'.kind ∧
      Slot deString st.internalType (entriesOf "internalType" fs) st'.internalType ∧
      Slot (deComponents mode) st.components (entriesOf "components" fs) st'.components ∧
      st'.indexed = st.indexed
  | [], st, st' => by
    rw [deTupleFields.eq_def]
    simp only [entriesOf_nil, slot_nil, knownKeys_nil, true_and]
    constructor
    · intro h; cases h; exact ⟨rfl, rfl, rfl, rfl, rfl⟩
    · rintro ⟨h1, h2, h3, h4, h5⟩
      cases st; cases st'
      simp only at h1 h2 h3 h4 h5
      subst h1 h2 h3 h4 h5; rfl
  | (k, v) :: fs, st, st' => by
    rw [deTupleFields.eq_def]
    simp only []
    by_cases e0 : k = lit "name"
    · subst e0
      rw [if_pos rfl, field_step]
      simp only [tupleFields_iff mode fs]
      rw [show lit "name" = "name".toList from rfl, entriesOf_same, knownKeys_known (by decide), slot_cons, entriesOf_other (k := "type") (by decide), entriesOf_other (k := "internalType") (by decide), entriesOf_other (k := "components") (by decide)]
      constructor
      · rintro ⟨h, a, ha, k0, c0, c1, c2, c3, c4⟩; exact ⟨k0, ⟨h, a, ha, c0⟩, c1, c2, c3, c4⟩
      · rintro ⟨k0, ⟨h, a, ha, c0⟩, c1, c2, c3, c4⟩; exact ⟨h, a, ha, k0, c0, c1, c2, c3, c4⟩
    rw [if_neg e0]
    by_cases e1 : k = lit "type"
    · subst e1
      rw [if_pos rfl, field_step]
      simp only [tupleFields_iff mode fs]
      rw [show lit "type" = "type".toList from rfl, entriesOf_same, knownKeys_known (by decide), slot_cons, entriesOf_other (k := "name") (by decide), entriesOf_other (k := "internalType") (by decide), entriesOf_other (k := "components") (by decide)]
      constructor
      · rintro ⟨h, a, ha, k0, c0, c1, c2, c3, c4⟩; exact ⟨k0, c0, ⟨h, a, ha, c1⟩, c2, c3, c4⟩
      · rintro ⟨k0, c0, ⟨h, a, ha, c1⟩, c2, c3, c4⟩; exact ⟨h, a, ha, k0, c0, c1, c2, c3, c4⟩
    rw [if_neg e1]
    by_cases e2 : k = lit "internalType"
    · subst e2
      rw [if_pos rfl, field_step]
      simp only [tupleFields_iff mode fs]
      rw [show lit "internalType" = "internalType".toList from rfl, entriesOf_same, knownKeys_known (by decide), slot_cons, entriesOf_other (k := "name") (by decide), entriesOf_other (k := "type") (by decide), entriesOf_other (k := "components") (by decide)]
      constructor
      · rintro ⟨h, a, ha, k0, c0, c1, c2, c3, c4⟩; exact ⟨k0, c0, c1, ⟨h, a, ha, c2⟩, c3, c4⟩
      · rintro ⟨k0, c0, c1, ⟨h, a, ha, c2⟩, c3, c4⟩; exact ⟨h, a, ha, k0, c0, c1, c2, c3, c4⟩
    rw [if_neg e2]
    by_cases e3 : k = lit "components"
    · subst e3
      rw [if_pos rfl, field_step]
      simp only [tupleFields_iff mode fs]
      rw [show lit "components" = "components".toList from rfl, entriesOf_same, knownKeys_known (by decide), slot_cons, entriesOf_other (k := "name") (by decide), entriesOf_other (k := "type") (by decide), entriesOf_other (k := "internalType") (by decide)]
      constructor
      · rintro ⟨h, a, ha, k0, c0, c1, c2, c3, c4⟩; exact ⟨k0, c0, c1, c2, ⟨h, a, ha, c3⟩, c4⟩
      · rintro ⟨k0, c0, c1, c2, ⟨h, a, ha, c3⟩, c4⟩; exact ⟨h, a, ha, k0, c0, c1, c2, c3, c4⟩
    rw [if_neg e3]
    rw [knownKeys_unknown (by simp; exact ⟨e0, e1, e2, e3⟩), entriesOf_other e0, entriesOf_other e1, entriesOf_other e2, entriesOf_other e3]
    cases mode with
    | direct => simp
    | buffered =>
      simp only [true_and]
      exact tupleFields_iff .buffered fs st st'

theorem paramFields_iff (mode : Mode) : ∀ (fs : List (Str × Json)) (st st' : FieldSt),
    deParamFields mode fs st = .ok st' ↔ KnownKeys mode ["name", "type", "internalType", "components"] fs ∧
      Slot deString st.name (entriesOf "name" fs) st'.name ∧
      Slot deKind st.kind (entriesOf "type" fs) st'.kind ∧
      Slot deString st.internalType (entriesOf "internalType" fs) st'.internalType ∧
      Slot (deComponents mode) st.components (entriesOf "components" fs) st'.components ∧
      st'.indexed = st.indexed
  | [], st, st' => by
    rw [deParamFields.eq_def]
    simp only [entriesOf_nil, slot_nil, knownKeys_nil, true_and]
    constructor
    · intro h; cases h; exact ⟨rfl, rfl, rfl, rfl, rfl⟩
    · rintro ⟨h1, h2, h3, h4, h5⟩
      cases st; cases st'
      simp only at h1 h2 h3 h4 h5
      subst h1 h2 h3 h4 h5; rfl
  | (k, v) :: fs, st, st' => by
    rw [deParamFields.eq_def]
    simp only []
    by_cases e0 : k = lit "name"
    · subst e0
      rw [if_pos rfl, field_step]
      simp only [paramFields_iff mode fs]
      rw [show lit "name" = "name".toList from rfl, entriesOf_same, knownKeys_known (by decide), slot_cons, entriesOf_other (k := "type") (by decide), entriesOf_other (k := "internalType") (by decide), entriesOf_other (k := "components") (by decide)]
      constructor
      · rintro ⟨h, a, ha, k0, c0, c1, c2, c3, c4⟩; exact ⟨k0, ⟨h, a, ha, c0⟩, c1, c2, c3, c4⟩
      · rintro ⟨k0, ⟨h, a, ha, c0⟩, c1, c2, c3, c4⟩; exact ⟨h, a, ha, k0, c0, c1, c2, c3, c4⟩
    rw [if_neg e0]
    by_cases e1 : k = lit "type"
    · subst e1
      rw [if_pos rfl, field_step]
      simp only [paramFields_iff mode fs]
      rw [show lit "type" = "type".toList from rfl, entriesOf_same, knownKeys_known (by decide), slot_cons, entriesOf_other (k := "name") (by decide), entriesOf_other (k := "internalType") (by decide), entriesOf_other (k := "components") (by decide)]
      constructor
      · rintro ⟨h, a, ha, k0, c0, c1, c2, c3, c4⟩; exact ⟨k0, c0, ⟨h, a, ha, c1⟩, c2, c3, c4⟩
      · rintro ⟨k0, c0, ⟨h, a, ha, c1⟩, c2, c3, c4⟩; exact ⟨h, a, ha, k0, c0, c1, c2, c3, c4⟩
    rw [if_neg e1]
    by_cases e2 : k = lit "internalType"
    · subst e2
      rw [if_pos rfl, field_step]
      simp only [paramFields_iff mode fs]
      rw [show lit "internalType" = "internalType".toList from rfl, entriesOf_same, knownKeys_known (by decide), slot_cons, entriesOf_other (k := "name") (by decide), entriesOf_other (k := "type") (by decide), entriesOf_other (k := "components") (by decide)]
      constructor
      · rintro ⟨h, a, ha, k0, c0, c1, c2, c3, c4⟩; exact ⟨k0, c0, c1, ⟨h, a, ha, c2⟩, c3, c4⟩
      · rintro ⟨k0, c0, c1, ⟨h, a, ha, c2⟩, c3, c4⟩; exact ⟨h, a, ha, k0, c0, c1, c2, c3, c4⟩
    rw [if_neg e2]
    by_cases e3 : k = lit "components"
    · subst e3
      rw [if_pos rfl, field_step]
      simp only [paramFields_iff mode fs]
      rw [show lit "components" = "components".toList from rfl, entriesOf_same, knownKeys_known (by decide), slot_cons, entriesOf_other (k := "name") (by decide), entriesOf_other (k := "type") (by decide), entriesOf_other (k := "internalType") (by decide)]
      constructor
      · rintro ⟨h, a, ha, k0, c0, c1, c2, c3, c4⟩; exact ⟨k0, c0, c1, c2, ⟨h, a, ha, c3⟩, c4⟩
      · rintro ⟨k0, c0, c1, c2, ⟨h, a, ha, c3⟩, c4⟩; exact ⟨h, a, ha, k0, c0, c1, c2, c3, c4⟩
    rw [if_neg e3]
    rw [knownKeys_unknown (by simp; exact ⟨e0, e1, e2, e3⟩), entriesOf_other e0, entriesOf_other e1, entriesOf_other e2, entriesOf_other e3]
    cases mode with
    | direct => simp
    | buffered =>
      simp only [true_and]
      exact paramFields_iff .buffered fs st st'

theorem eventFields_iff (mode : Mode) : ∀ (fs : List (Str × Json)) (st st' : FieldSt),
    deEventFields mode fs st = .ok st' ↔ KnownKeys mode ["name", "type", "components", "indexed"] fs ∧
      Slot deString st.name (entriesOf "name" fs) st'.name ∧
      Slot deKind st.kind (entriesOf "type" fs) st'.kind ∧
      Slot (deComponents mode) st.components (entriesOf "components" fs) st'.components ∧
      Slot deBool st.indexed (entriesOf "indexed" fs) st'.indexed ∧
      st'.internalType = st.internalType
  | [], st, st' => by
    rw [deEventFields.eq_def]
    simp only [entriesOf_nil, slot_nil, knownKeys_nil, true_and]
    constructor
    · intro h; cases h; exact ⟨rfl, rfl, rfl, rfl, rfl⟩
    · rintro ⟨h1, h2, h3, h4, h5⟩
      cases st; cases st'
      simp only at h1 h2 h3 h4 h5
      subst h1 h2 h3 h4 h5; rfl
  | (k, v) :: fs, st, st' => by
    rw [deEventFields.eq_def]
    simp only []
    by_cases e0 : k = lit "name"
    · subst e0
      rw [if_pos rfl, field_step]
      simp only [eventFields_iff mode fs]
      rw [show lit "name" = "name".toList from rfl, entriesOf_same, knownKeys_known (by decide), slot_cons, entriesOf_other (k := "type") (by decide), entriesOf_other (k := "components") (by decide), entriesOf_other (k := "indexed") (by decide)]
      constructor
      · rintro ⟨h, a, ha, k0, c0, c1, c2, c3, c4⟩; exact ⟨k0, ⟨h, a, ha, c0⟩, c1, c2, c3, c4⟩
      · rintro ⟨k0, ⟨h, a, ha, c0⟩, c1, c2, c3, c4⟩; exact ⟨h, a, ha, k0, c0, c1, c2, c3, c4⟩
    rw [if_neg e0]
    by_cases e1 : k = lit "type"
    · subst e1
      rw [if_pos rfl, field_step]
      simp only [eventFields_iff mode fs]
      rw [show lit "type" = "type".toList from rfl, entriesOf_same, knownKeys_known (by decide), slot_cons, entriesOf_other (k := "name") (by decide), entriesOf_other (k := "components") (by decide), entriesOf_other (k := "indexed") (by decide)]
      constructor
      · rintro ⟨h, a, ha, k0, c0, c1, c2, c3, c4⟩; exact ⟨k0, c0, ⟨h, a, ha, c1⟩, c2, c3, c4⟩
      · rintro ⟨k0, c0, ⟨h, a, ha, c1⟩, c2, c3, c4⟩; exact ⟨h, a, ha, k0, c0, c1, c2, c3, c4⟩
    rw [if_neg e1]
    by_cases e2 : k = lit "components"
    · subst e2
      rw [if_pos rfl, field_step]
      simp only [eventFields_iff mode fs]
      rw [show lit "components" = "components".toList from rfl, entriesOf_same, knownKeys_known (by decide), slot_cons, entriesOf_other (k := "name") (by decide), entriesOf_other (k := "type") (by decide), entriesOf_other (k := "indexed") (by decide)]
      constructor
      · rintro ⟨h, a, ha, k0, c0, c1, c2, c3, c4⟩; exact ⟨k0, c0, c1, ⟨h, a, ha, c2⟩, c3, c4⟩
      · rintro ⟨k0, c0, c1, ⟨h, a, ha, c2⟩, c3, c4⟩; exact ⟨h, a, ha, k0, c0, c1, c2, c3, c4⟩
    rw [if_neg e2]
    by_cases e3 : k = lit "indexed"
    · subst e3
      rw [if_pos rfl, field_step]
      simp only [eventFields_iff mode fs]
      rw [show lit "indexed" = "indexed".toList from rfl, entriesOf_same, knownKeys_known (by decide), slot_cons, entriesOf_other (k := "name") (by decide), entriesOf_other (k := "type") (by decide), entriesOf_other (k := "components") (by decide)]
      constructor
      · rintro ⟨h, a, ha, k0, c0, c1, c2, c3, c4⟩; exact ⟨k0, c0, c1, c2, ⟨h, a, ha, c3⟩, c4⟩
      · rintro ⟨k0, c0, c1, c2, ⟨h, a, ha, c3⟩, c4⟩; exact ⟨h, a, ha, k0, c0, c1, c2, c3, c4⟩
    rw [if_neg e3]
    rw [knownKeys_unknown (by simp; exact ⟨e0, e1, e2, e3⟩), entriesOf_other e0, entriesOf_other e1, entriesOf_other e2, entriesOf_other e3]
    cases mode with
    | direct => simp
    | buffered =>
      simp only [true_and]
      exact eventFields_iff .buffered fs st st'

theorem functionFields_iff (mode : Mode) : ∀ (fs : List (Str × Json)) (st st' : OpSt),
    deFunctionFields mode fs st = .ok st' ↔ Slot deName st.name (entriesOf "name" fs) st'.name ∧
      Slot (deArr (deParam mode)) st.inputs (entriesOf "inputs" fs) st'.inputs ∧
      Slot (deArr (deParam mode)) st.outputs (entriesOf "outputs" fs) st'.outputs ∧
      Slot deBool st.constant (entriesOf "constant" fs) st'.constant ∧
      Slot deStateMutability st.stateMutability (entriesOf "stateMutability" fs) st'.stateMutability ∧
      st'.eventInputs = st.eventInputs ∧
      st'.anonymous = st.anonymous
  | [], st, st' => by
    rw [deFunctionFields.eq_def]
    simp only [entriesOf_nil, slot_nil]
    constructor
    · intro h; cases h; exact ⟨rfl, rfl, rfl, rfl, rfl, rfl, rfl⟩
    · rintro ⟨h1, h2, h3, h4, h5, h6, h7⟩
      cases st; cases st'
      simp only at h1 h2 h3 h4 h5 h6 h7
      subst h1 h2 h3 h4 h5 h6 h7; rfl
  | (k, v) :: fs, st, st' => by
    rw [deFunctionFields.eq_def]
    simp only []
    by_cases e0 : k = lit "name"
    · subst e0
      rw [if_pos rfl, field_step]
      simp only [functionFields_iff mode fs]
      rw [show lit "name" = "name".toList from rfl, entriesOf_same, slot_cons, entriesOf_other (k := "inputs") (by decide), entriesOf_other (k := "outputs") (by decide), entriesOf_other (k := "constant") (by decide), entriesOf_other (k := "stateMutability") (by decide)]
      constructor
      · rintro ⟨h, a, ha, c0, c1, c2, c3, c4, c5, c6⟩; exact ⟨⟨h, a, ha, c0⟩, c1, c2, c3, c4, c5, c6⟩
      · rintro ⟨⟨h, a, ha, c0⟩, c1, c2, c3, c4, c5, c6⟩; exact ⟨h, a, ha, c0, c1, c2, c3, c4, c5, c6⟩
    rw [if_neg e0]
    by_cases e1 : k = lit "inputs"
    · subst e1
      rw [if_pos rfl, field_step]
      simp only [functionFields_iff mode fs]
      rw [show lit "inputs" = "inputs".toList from rfl, entriesOf_same, slot_cons, entriesOf_other (k := "name") (by decide), entriesOf_other (k := "outputs") (by decide), entriesOf_other (k := "constant") (by decide), entriesOf_other (k := "stateMutability") (by decide)]
      constructor
      · rintro ⟨h, a, ha, c0, c1, c2, c3, c4, c5, c6⟩; exact ⟨c0, ⟨h, a, ha, c1⟩, c2, c3, c4, c5, c6⟩
      · rintro ⟨c0, ⟨h, a, ha, c1⟩, c2, c3, c4, c5, c6⟩; exact ⟨h, a, ha, c0, c1, c2, c3, c4, c5, c6⟩
    rw [if_neg e1]
    by_cases e2 : k = lit "outputs"
    · subst e2
      rw [if_pos rfl, field_step]
      simp only [functionFields_iff mode fs]
      rw [show lit "outputs" = "outputs".toList from rfl, entriesOf_same, slot_cons, entriesOf_other (k := "name") (by decide), entriesOf_other (k := "inputs") (by decide), entriesOf_other (k := "constant") (by decide), entriesOf_other (k := "stateMutability") (by decide)]
      constructor
      · rintro ⟨h, a, ha, c0, c1, c2, c3, c4, c5, c6⟩; exact ⟨c0, c1, ⟨h, a, ha, c2⟩, c3, c4, c5, c6⟩
      · rintro ⟨c0, c1, ⟨h, a, ha, c2⟩, c3, c4, c5, c6⟩; exact ⟨h, a, ha, c0, c1, c2, c3, c4, c5, c6⟩
    rw [if_neg e2]
    by_cases e3 : k = lit "constant"
    · subst e3
      rw [if_pos rfl, field_step]
      simp only [functionFields_iff mode fs]
      rw [show lit "constant" = "constant".toList from rfl, entriesOf_same, slot_cons, entriesOf_other (k := "name") (by decide), entriesOf_other (k := "inputs") (by decide), entriesOf_other (k := "outputs") (by decide), entriesOf_other (k := "stateMutability") (by decide)]
      constructor
      · rintro ⟨h, a, ha, c0, c1, c2, c3, c4, c5, c6⟩; exact ⟨c0, c1, c2, ⟨h, a, ha, c3⟩, c4, c5, c6⟩
      · rintro ⟨c0, c1, c2, ⟨h, a, ha, c3⟩, c4, c5, c6⟩; exact ⟨h, a, ha, c0, c1, c2, c3, c4, c5, c6⟩
    rw [if_neg e3]
    by_cases e4 : k = lit "stateMutability"
    · subst e4
      rw [if_pos rfl, field_step]
      simp only [functionFields_iff mode fs]
      rw [show lit "stateMutability" = "stateMutability".toList from rfl, entriesOf_same, slot_cons, entriesOf_other (k := "name") (by decide), entriesOf_other (k := "inputs") (by decide), entriesOf_other (k := "outputs") (by decide), entriesOf_other (k := "constant") (by decide)]
      constructor
      · rintro ⟨h, a, ha, c0, c1, c2, c3, c4, c5, c6⟩; exact ⟨c0, c1, c2, c3, ⟨h, a, ha, c4⟩, c5, c6⟩
      · rintro ⟨c0, c1, c2, c3, ⟨h, a, ha, c4⟩, c5, c6⟩; exact ⟨h, a, ha, c0, c1, c2, c3, c4, c5, c6⟩
    rw [if_neg e4]
    rw [entriesOf_other e0, entriesOf_other e1, entriesOf_other e2, entriesOf_other e3, entriesOf_other e4]
    exact functionFields_iff mode fs st st'

theorem eventOpFields_iff (mode : Mode) : ∀ (fs : List (Str × Json)) (st st' : OpSt),
    deEventOpFields mode fs st = .ok st' ↔ Slot deName st.name (entriesOf "name" fs) st'.name ∧
      Slot (deArr (deEventParam mode)) st.eventInputs (entriesOf "inputs" fs) st'.eventInputs ∧
      Slot deBool st.anonymous (entriesOf "anonymous" fs) st'.anonymous ∧
      st'.inputs = st.inputs ∧
      st'.outputs = st.outputs ∧
      st'.constant = st.constant ∧
      st'.stateMutability = st.stateMutability
  | [], st, st' => by
    rw [deEventOpFields.eq_def]
    simp only [entriesOf_nil, slot_nil]
    constructor
    · intro h; cases h; exact ⟨rfl, rfl, rfl, rfl, rfl, rfl, rfl⟩
    · rintro ⟨h1, h2, h3, h4, h5, h6, h7⟩
      cases st; cases st'
      simp only at h1 h2 h3 h4 h5 h6 h7
      subst h1 h2 h3 h4 h5 h6 h7; rfl
  | (k, v) :: fs, st, st' => by
    rw [deEventOpFields.eq_def]
    simp only []
    by_cases e0 : k = lit "name"
    · subst e0
      rw [if_pos rfl, field_step]
      simp only [eventOpFields_iff mode fs]
      rw [show lit "name" = "name".toList from rfl, entriesOf_same, slot_cons, entriesOf_other (k := "inputs") (by decide), entriesOf_other (k := "anonymous") (by decide)]
      constructor
      · rintro ⟨h, a, ha, c0, c1, c2, c3, c4, c5, c6⟩; exact ⟨⟨h, a, ha, c0⟩, c1, c2, c3, c4, c5, c6⟩
      · rintro ⟨⟨h, a, ha, c0⟩, c1, c2, c3, c4, c5, c6⟩; exact ⟨h, a, ha, c0, c1, c2, c3, c4, c5, c6⟩
    rw [if_neg e0]
    by_cases e1 : k = lit "inputs"
    · subst e1
      rw [if_pos rfl, field_step]
      simp only [eventOpFields_iff mode fs]
      rw [show lit "inputs" = "inputs".toList from rfl, entriesOf_same, slot_cons, entriesOf_other (k := "name") (by decide), entriesOf_other (k := "anonymous") (by decide)]
      constructor
      · rintro ⟨h, a, ha, c0, c1, c2, c3, c4, c5, c6⟩; exact ⟨c0, ⟨h, a, ha, c1⟩, c2, c3, c4, c5, c6⟩
      · rintro ⟨c0, ⟨h, a, ha, c1⟩, c2, c3, c4, c5, c6⟩; exact ⟨h, a, ha, c0, c1, c2, c3, c4, c5, c6⟩
    rw [if_neg e1]
    by_cases e2 : k = lit "anonymous"
    · subst e2
      rw [if_pos rfl, field_step]
      simp only [eventOpFields_iff mode fs]
      rw [show lit "anonymous" = "anonymous".toList from rfl, entriesOf_same, slot_cons, entriesOf_other (k := "name") (by decide), entriesOf_other (k := "inputs") (by decide)]
      constructor
      · rintro ⟨h, a, ha, c0, c1, c2, c3, c4, c5, c6⟩; exact ⟨c0, c1, ⟨h, a, ha, c2⟩, c3, c4, c5, c6⟩
      · rintro ⟨c0, c1, ⟨h, a, ha, c2⟩, c3, c4, c5, c6⟩; exact ⟨h, a, ha, c0, c1, c2, c3, c4, c5, c6⟩
    rw [if_neg e2]
    rw [entriesOf_other e0, entriesOf_other e1, entriesOf_other e2]
    exact eventOpFields_iff mode fs st st'

theorem constructorFields_iff (mode : Mode) : ∀ (fs : List (Str × Json)) (st st' : OpSt),
    deConstructorFields mode fs st = .ok st' ↔ Slot (deArr (deParam mode)) st.inputs (entriesOf "inputs" fs) st'.inputs ∧
      st'.name = st.name ∧
      st'.outputs = st.outputs ∧
      st'.constant = st.constant ∧
      st'.stateMutability = st.stateMutability ∧
      st'.eventInputs = st.eventInputs ∧
      st'.anonymous = st.anonymous
  | [], st, st' => by
    rw [deConstructorFields.eq_def]
    simp only [entriesOf_nil, slot_nil]
    constructor
    · intro h; cases h; exact ⟨rfl, rfl, rfl, rfl, rfl, rfl, rfl⟩
    · rintro ⟨h1, h2, h3, h4, h5, h6, h7⟩
      cases st; cases st'
      simp only at h1 h2 h3 h4 h5 h6 h7
      subst h1 h2 h3 h4 h5 h6 h7; rfl
  | (k, v) :: fs, st, st' => by
    rw [deConstructorFields.eq_def]
    simp only []
    by_cases e0 : k = lit "inputs"
    · subst e0
      rw [if_pos rfl, field_step]
      simp only [constructorFields_iff mode fs]
      rw [show lit "inputs" = "inputs".toList from rfl, entriesOf_same, slot_cons]
      constructor
      · rintro ⟨h, a, ha, c0, c1, c2, c3, c4, c5, c6⟩; exact ⟨⟨h, a, ha, c0⟩, c1, c2, c3, c4, c5, c6⟩
      · rintro ⟨⟨h, a, ha, c0⟩, c1, c2, c3, c4, c5, c6⟩; exact ⟨h, a, ha, c0, c1, c2, c3, c4, c5, c6⟩
    rw [if_neg e0]
    rw [entriesOf_other e0]
    exact constructorFields_iff mode fs st st'

/-! ### types and members -/

theorem slot_none {α : Type} {de : Json → Res α} {vs : List Json} {new : Option α} :
    Slot de none vs new ↔ (vs = [] ∧ new = none) ∨ ∃ v a, vs = [v] ∧ de v = .ok a ∧ new = some a := by
  simp [Slot]

theorem deString_iff {v : Json} {s : Str} : deString v = .ok s ↔ v = .str s := by
  cases v <;> simp [deString]

theorem deBool_iff {v : Json} {b : Bool} : deBool v = .ok b ↔ v = .bool b := by
  cases v <;> simp [deBool]

theorem deKind_iff {v : Json} {t : ParamType} : deKind v = .ok t ↔ ∃ s, v = .str s ∧ read s = .ok t := by
  cases v with
  | str s =>
    simp only [deKind, Json.str.injEq]
    constructor
    · intro h
      split at h
      · rename_i u hu; cases h; exact ⟨s, rfl, hu⟩
      · cases h
      · cases h
    · rintro ⟨_, rfl, h⟩
      rw [h]
  | _ => simp [deKind]

theorem optionalString_iff {k : String} {fs : List (Str × Json)} {o : Option Str} :
    Slot deString none (entriesOf k fs) o ↔ OptionalString k fs o := by
  rw [slot_none]
  cases o with
  | none => simp [OptionalString, Absent]
  | some s =>
    simp only [OptionalString, Once, deString_iff]
    constructor
    · rintro (⟨_, h⟩ | ⟨v, a, h1, rfl, h2⟩)
      · cases h
      · cases h2; exact h1
    · intro h
      exact Or.inr ⟨_, s, h, rfl, rfl⟩

theorem innerTuple_none {t : ParamType} : innerTuple t = none ↔ ¬ AroundTuple t := by
  induction t using ParamType.rec (motive_2 := fun _ => True) with
  | array t ih =>
    rw [innerTuple, ih]
    exact ⟨fun h ha => by cases ha with | array ha => exact h ha, fun h ha => h (.array ha)⟩
  | fixedArray t n ih =>
    rw [innerTuple, ih]
    exact ⟨fun h ha => by cases ha with | fixedArray _ ha => exact h ha, fun h ha => h (.fixedArray n ha)⟩
  | tuple ts _ => simp [innerTuple]; exact .tuple ts
  | nil => trivial
  | cons _ _ _ _ => trivial
  | _ => simp only [innerTuple, true_iff]; exact nofun

theorem withMembers_iff {more : List ParamType} {t u : ParamType} :
    WithMembers more t u ↔ AroundTuple t ∧ u = extendInner more t := by
  constructor
  · intro h
    induction h with
    | tuple ts => exact ⟨.tuple ts, rfl⟩
    | array _ ih => exact ⟨.array ih.1, by rw [extendInner, ← ih.2]⟩
    | fixedArray n _ ih => exact ⟨.fixedArray n ih.1, by rw [extendInner, ← ih.2]⟩
  · rintro ⟨h, rfl⟩
    induction h with
    | tuple ts => exact .tuple ts
    | array _ ih => exact .array ih
    | fixedArray n _ ih => exact .fixedArray n ih

theorem setComponents_none {t u : ParamType} : setTupleComponents t none = .ok u ↔ ¬ AroundTuple t ∧ u = t := by
  rw [← innerTuple_none, setTupleComponents]
  cases innerTuple t with
  | none => simp [eq_comm]
  | some ts => simp

theorem setComponents_some {t u : ParamType} {more : List ParamType} :
    setTupleComponents t (some more) = .ok u ↔ (¬ AroundTuple t ∧ u = t) ∨ WithMembers more t u := by
  rw [withMembers_iff, setTupleComponents]
  cases h : innerTuple t with
  | none =>
    have := innerTuple_none.1 h
    simp [this, eq_comm]
  | some ts =>
    have : AroundTuple t := by
      apply Classical.byContradiction
      intro hn
      rw [innerTuple_none.2 hn] at h; cases h
    simp [this, eq_comm]

/-- the components -/
def ComponentsIff (mode : Mode) (v : Json) : Prop :=
  ∀ ps, deComponents mode v = .ok ps ↔ ∃ xs, v = .arr xs ∧ DenotesMembers mode xs ps

theorem mem_of_entriesOf {k : String} {fs : List (Str × Json)} {v : Json} (h : v ∈ entriesOf k fs) :
    (k.toList, v) ∈ fs := by
  simp only [entriesOf, List.mem_map, List.mem_filter, decide_eq_true_eq] at h
  obtain ⟨⟨k', v'⟩, ⟨h1, h2⟩, h3⟩ := h
  simp only at h2 h3
  subst h2 h3
  exact h1

theorem type_iff {mode : Mode} {fs : List (Str × Json)} (hc : ∀ v ∈ entriesOf "components" fs, ComponentsIff mode v)
    (u : ParamType) :
    (∃ (kind : Option ParamType) (comps : Option (List TupleParam)) (t : ParamType),
      Slot deKind none (entriesOf "type" fs) kind ∧ Slot (deComponents mode) none (entriesOf "components" fs) comps ∧
      required kind = .ok t ∧ setTupleComponents t (comps.map (·.map (·.kind))) = .ok u) ↔ DenotesType mode fs u := by
  constructor
  · rintro ⟨kind, comps, t, h1, h2, h3, h4⟩
    rw [slot_none] at h1 h2
    rcases h1 with ⟨_, rfl⟩ | ⟨v, t', h1, h1', rfl⟩
    · cases h3
    · cases h3
      obtain ⟨s, rfl, hs⟩ := deKind_iff.1 h1'
      rcases h2 with ⟨h2, rfl⟩ | ⟨w, ps, h2, h2', rfl⟩
      · obtain ⟨h5, rfl⟩ := setComponents_none.1 h4
        exact .plain h1 hs h5 h2
      · obtain ⟨xs, rfl, h6⟩ := (hc w (by rw [h2]; simp) ps).1 h2'
        rcases setComponents_some.1 h4 with ⟨h5, rfl⟩ | h5
        · exact .unused h1 hs h5 h2 h6
        · exact .tuple h1 hs h2 h6 h5
  · intro h
    cases h with
    | @plain _ s _ h1 hs h5 h2 =>
      exact ⟨some u, none, u, slot_none.2 (Or.inr ⟨_, _, h1, deKind_iff.2 ⟨s, rfl, hs⟩, rfl⟩),
        slot_none.2 (Or.inl ⟨h2, rfl⟩), rfl, setComponents_none.2 ⟨h5, rfl⟩⟩
    | @unused _ s _ xs ps h1 hs h5 h2 h6 =>
      exact ⟨some u, some ps, u, slot_none.2 (Or.inr ⟨_, _, h1, deKind_iff.2 ⟨s, rfl, hs⟩, rfl⟩),
        slot_none.2 (Or.inr ⟨_, _, h2, (hc _ (by rw [h2]; simp) ps).2 ⟨xs, rfl, h6⟩, rfl⟩), rfl,
        setComponents_some.2 (Or.inl ⟨h5, rfl⟩)⟩
    | @tuple _ s t _ xs ps h1 hs h2 h6 h5 =>
      exact ⟨some t, some ps, t, slot_none.2 (Or.inr ⟨_, _, h1, deKind_iff.2 ⟨s, rfl, hs⟩, rfl⟩),
        slot_none.2 (Or.inr ⟨_, _, h2, (hc _ (by rw [h2]; simp) ps).2 ⟨xs, rfl, h6⟩, rfl⟩), rfl,
        setComponents_some.2 (Or.inr h5)⟩

theorem members_iff_of {mode : Mode} : ∀ (xs : List Json), (∀ x ∈ xs, ∀ p, deTupleParam mode x = .ok p ↔ DenotesMember mode x p) →
    ∀ ps, deTupleParams mode xs = .ok ps ↔ DenotesMembers mode xs ps
  | [], _, ps => by
    rw [deTupleParams.eq_def]
    constructor
    · intro h; cases h; exact .nil
    · intro h; cases h; rfl
  | x :: xs, h, ps => by
    rw [deTupleParams.eq_def]
    simp only [Res.bind_eq_ok, Res.ok.injEq]
    constructor
    · rintro ⟨p, h1, qs, h2, rfl⟩
      exact .cons ((h x (by simp) p).1 h1) ((members_iff_of xs (fun y hy => h y (by simp [hy])) qs).1 h2)
    · intro hd
      cases hd with
      | cons h1 h2 =>
        exact ⟨_, (h x (by simp) _).2 h1, _, (members_iff_of xs (fun y hy => h y (by simp [hy])) _).2 h2, rfl⟩

theorem size_field {k : Str} {v : Json} {fs : List (Str × Json)} (h : (k, v) ∈ fs) : sizeOf v < sizeOf (Json.obj fs) := by
  have := List.sizeOf_lt_of_mem h
  simp only [Prod.mk.sizeOf_spec, Json.obj.sizeOf_spec] at this ⊢
  omega

theorem size_element {x : Json} {xs : List Json} (h : x ∈ xs) : sizeOf x < sizeOf (Json.arr xs) := by
  have := List.sizeOf_lt_of_mem h
  simp only [Json.arr.sizeOf_spec]
  omega

theorem member_iff_aux {mode : Mode} : ∀ (n : Nat) (j : Json), sizeOf j = n →
    ∀ p, deTupleParam mode j = .ok p ↔ DenotesMember mode j p := by
  intro n
  induction n using Nat.strongRecOn with
  | _ n ih =>
  intro j hn p
  cases j with
  | obj fs =>
    have hc : ∀ v ∈ entriesOf "components" fs, ComponentsIff mode v := by
      intro v hv ps
      have hsz := size_field (mem_of_entriesOf hv)
      cases v with
      | arr xs =>
        rw [deComponents.eq_def]
        simp only [Json.arr.injEq]
        rw [members_iff_of xs (fun x hx => ih (sizeOf x) (by have := size_element hx; omega) x rfl)]
        simp
      | _ => simp [deComponents]
    rw [deTupleParam.eq_def]
    simp only [Res.bind_eq_ok, finishTupleParam, tupleFields_iff, Res.ok.injEq]
    constructor
    · rintro ⟨st, ⟨h1, h2, h3, h4, h5, _⟩, t, h6, u, h7, rfl⟩
      exact .mk h1 (optionalString_iff.1 h2) (optionalString_iff.1 h4)
        ((type_iff hc u).1 ⟨st.kind, st.components, t, h3, h5, h6, h7⟩)
    · intro h
      cases h with
      | mk h1 h2 h4 h5 =>
        obtain ⟨kind, comps, t, h3, h5, h6, h7⟩ := (type_iff hc _).2 h5
        exact ⟨{ name := p.name, kind := kind, components := comps, internalType := p.internalType, indexed := none },
          ⟨h1, optionalString_iff.2 h2, h3, optionalString_iff.2 h4, h5, rfl⟩, t, h6, p.kind, h7, rfl⟩
  | _ =>
    rw [deTupleParam.eq_def]
    exact ⟨nofun, nofun⟩

theorem member_iff {mode : Mode} {j : Json} {p : TupleParam} : deTupleParam mode j = .ok p ↔ DenotesMember mode j p :=
  member_iff_aux _ j rfl p

theorem components_iff {mode : Mode} (v : Json) : ComponentsIff mode v := by
  intro ps
  cases v with
  | arr xs =>
    rw [deComponents.eq_def]
    simp only [Json.arr.injEq]
    rw [members_iff_of xs (fun x _ p => member_iff)]
    simp
  | _ => simp [deComponents]

theorem param_iff {mode : Mode} {j : Json} {p : Param} : deParam mode j = .ok p ↔ DenotesParam mode j p := by
  cases j with
  | obj fs =>
    rw [deParam.eq_def]
    simp only [Res.bind_eq_ok, paramFields_iff, Res.ok.injEq, DenotesParam, Json.obj.injEq]
    constructor
    · rintro ⟨st, ⟨h1, h2, h3, h4, h5, _⟩, n, h8, t, h6, u, h7, rfl⟩
      refine ⟨fs, rfl, h1, ?_, optionalString_iff.1 h4,
        (type_iff (fun v _ => components_iff v) u).1 ⟨st.kind, st.components, t, h3, h5, h6, h7⟩⟩
      have := optionalString_iff.1 h2
      cases hn : st.name with
      | none => rw [hn] at h8; cases h8
      | some m => rw [hn] at h8 this; cases h8; exact this
    · rintro ⟨_, rfl, h1, h2, h4, h5⟩
      obtain ⟨kind, comps, t, h3, h5, h6, h7⟩ := (type_iff (fun v _ => components_iff v) _).2 h5
      exact ⟨{ name := some p.name, kind := kind, components := comps, internalType := p.internalType, indexed := none },
        ⟨h1, optionalString_iff.2 h2, h3, optionalString_iff.2 h4, h5, rfl⟩, p.name, rfl, t, h6, p.kind, h7, rfl⟩
  | _ =>
    rw [deParam.eq_def]
    exact ⟨nofun, fun ⟨_, h, _⟩ => nomatch h⟩

theorem defaultBool_iff {k : String} {fs : List (Str × Json)} {d b : Bool} :
    (∃ o, Slot deBool none (entriesOf k fs) o ∧ o.getD d = b) ↔ DefaultBool k fs d b := by
  simp only [slot_none, DefaultBool, Once, Absent, deBool_iff]
  constructor
  · rintro ⟨o, ⟨h1, rfl⟩ | ⟨v, a, h1, rfl, rfl⟩, h2⟩
    · exact Or.inr ⟨h1, h2.symm⟩
    · simp only [Option.getD_some] at h2
      subst h2
      exact Or.inl h1
  · rintro (h | ⟨h, rfl⟩)
    · exact ⟨some b, Or.inr ⟨_, b, h, rfl, rfl⟩, rfl⟩
    · exact ⟨none, Or.inl ⟨h, rfl⟩, rfl⟩

theorem eventParam_iff {mode : Mode} {j : Json} {p : EventParam} :
    deEventParam mode j = .ok p ↔ DenotesEventParam mode j p := by
  cases j with
  | obj fs =>
    rw [deEventParam.eq_def]
    simp only [Res.bind_eq_ok, eventFields_iff, Res.ok.injEq, DenotesEventParam, Json.obj.injEq]
    constructor
    · rintro ⟨st, ⟨h1, h2, h3, h5, h4, _⟩, n, h8, t, h6, u, h7, rfl⟩
      refine ⟨fs, rfl, h1, ?_, defaultBool_iff.1 ⟨st.indexed, h4, rfl⟩,
        (type_iff (fun v _ => components_iff v) u).1 ⟨st.kind, st.components, t, h3, h5, h6, h7⟩⟩
      have := optionalString_iff.1 h2
      cases hn : st.name with
      | none => rw [hn] at h8; cases h8
      | some m => rw [hn] at h8 this; cases h8; exact this
    · rintro ⟨_, rfl, h1, h2, h4, h5⟩
      obtain ⟨kind, comps, t, h3, h5, h6, h7⟩ := (type_iff (fun v _ => components_iff v) _).2 h5
      obtain ⟨o, h4, h8⟩ := defaultBool_iff.2 h4
      refine ⟨{ name := some p.name, kind := kind, components := comps, internalType := none, indexed := o },
        ⟨h1, optionalString_iff.2 h2, h3, h5, h4, rfl⟩, p.name, rfl, t, h6, p.kind, h7, ?_⟩
      simp only [h8]
  | _ =>
    rw [deEventParam.eq_def]
    exact ⟨nofun, fun ⟨_, h, _⟩ => nomatch h⟩

/-! ### operations -/

theorem each_iff {α : Type} {de : Json → Res α} {R : Json → α → Prop} (h : ∀ j a, de j = .ok a ↔ R j a) {v : Json}
    {as : List α} : deArr de v = .ok as ↔ DenotesEach R v as := by
  cases v with
  | arr xs =>
    rw [deArr]
    induction xs generalizing as with
    | nil =>
      rw [deVec]
      exact ⟨fun h => by cases h; exact .nil, fun h => by cases h; rfl⟩
    | cons x xs ih =>
      rw [deVec]
      simp only [Res.bind_eq_ok, Res.ok.injEq]
      constructor
      · rintro ⟨a, h1, as, h2, rfl⟩
        exact .cons ((h x a).1 h1) (ih.1 h2)
      · intro hd
        cases hd with
        | cons h1 h2 => exact ⟨_, (h x _).2 h1, _, ih.2 h2, rfl⟩
  | _ => rw [deArr.eq_def]; exact ⟨nofun, nofun⟩

theorem cutAtParen_sanitize (s : Str) : CutAtParen s (sanitizeName s) := by
  refine ⟨s.dropWhile (· != '('), (List.takeWhile_append_dropWhile).symm, sanitize_no_paren s, ?_⟩
  induction s with
  | nil => left; rfl
  | cons c s ih =>
    by_cases h : c = '('
    · right; subst h; exact ⟨s, by simp⟩
    · rw [List.dropWhile_cons_of_pos (by simpa using h)]; exact ih

theorem cutAtParen_iff {s p : Str} : CutAtParen s p ↔ p = sanitizeName s := by
  constructor
  · rintro ⟨rest, rfl, h1, h2⟩
    have hall : ∀ a ∈ p, (a != '(') = true := by
      intro a ha
      simp only [bne_iff_ne, ne_eq]
      rintro rfl; exact h1 ha
    rw [sanitizeName, List.takeWhile_append_of_pos hall]
    rcases h2 with rfl | ⟨r, rfl⟩
    · simp
    · simp
  · rintro rfl; exact cutAtParen_sanitize s

theorem name_iff {fs : List (Str × Json)} {n : Str} :
    (∃ o, Slot deName none (entriesOf "name" fs) o ∧ required o = .ok n) ↔ DenotesName fs n := by
  simp only [slot_none, DenotesName, Once, deName, Res.bind_eq_ok, deString_iff, Res.ok.injEq, cutAtParen_iff]
  constructor
  · rintro ⟨o, ⟨_, rfl⟩ | ⟨v, a, h1, ⟨s, rfl, rfl⟩, rfl⟩, h2⟩
    · cases h2
    · cases h2; exact ⟨s, h1, rfl⟩
  · rintro ⟨s, h, rfl⟩
    exact ⟨_, Or.inr ⟨_, _, h, ⟨s, rfl, rfl⟩, rfl⟩, rfl⟩

theorem slot_required {α : Type} {de : Json → Res α} {R : Json → α → Prop} (hR : ∀ v a, de v = .ok a ↔ R v a)
    {vs : List Json} {a : α} : (∃ o, Slot de none vs o ∧ required o = .ok a) ↔ ∃ v, vs = [v] ∧ R v a := by
  simp only [slot_none]
  constructor
  · rintro ⟨o, ⟨_, rfl⟩ | ⟨v, b, h1, h2, rfl⟩, h3⟩
    · cases h3
    · cases h3; exact ⟨v, h1, (hR v _).1 h2⟩
  · rintro ⟨v, h1, h2⟩
    exact ⟨some a, Or.inr ⟨v, a, h1, (hR v a).2 h2, rfl⟩, rfl⟩

theorem variant_iff {s : Str} {m : StateMutability} : mutabilityVariant s = .ok m ↔ s = (mutabilityWord m).toList := by
  unfold mutabilityVariant
  constructor
  · intro h
    split at h
    · rename_i e; cases h; exact e
    split at h
    · rename_i e; cases h; exact e
    split at h
    · rename_i e; cases h; exact e
    split at h
    · rename_i e; cases h; exact e
    · cases h
  · rintro rfl
    cases m <;> decide

theorem deMutability_iff {v : Json} {m : StateMutability} :
    deStateMutability v = .ok m ↔ WordJson (mutabilityWord m) v := by
  constructor
  · intro h
    unfold deStateMutability at h
    split at h
    · cases variant_iff.1 h; exact .string
    · cases variant_iff.1 h; exact .object
    · cases h
  · intro h
    cases h with
    | string => exact variant_iff.2 rfl
    | object => exact variant_iff.2 rfl

theorem mutability_iff {fs : List (Str × Json)} {m : StateMutability} :
    (∃ o, Slot deStateMutability none (entriesOf "stateMutability" fs) o ∧ o.getD .nonPayable = m) ↔
      DenotesMutability fs m := by
  simp only [slot_none, DenotesMutability, Once, Absent, deMutability_iff]
  constructor
  · rintro ⟨o, ⟨h1, rfl⟩ | ⟨v, a, h1, h3, rfl⟩, h2⟩
    · exact Or.inr ⟨h1, h2.symm⟩
    · simp only [Option.getD_some] at h2
      subst h2
      exact Or.inl ⟨v, h1, h3⟩
  · rintro (⟨v, h, h3⟩ | ⟨h, rfl⟩)
    · exact ⟨some m, Or.inr ⟨_, m, h, h3, rfl⟩, rfl⟩
    · exact ⟨none, Or.inl ⟨h, rfl⟩, rfl⟩

/-- the entries other than the tag -/
def withoutTag (fs : List (Str × Json)) : List (Str × Json) := fs.filter (fun e => decide (e.1 ≠ lit "type"))

theorem splitTag_iff : ∀ (fs : List (Str × Json)) (tag : Option Json) (acc : List (Str × Json)) (t : Json)
    (rest : List (Str × Json)), splitTag fs tag acc = .ok (t, rest) ↔
      tag.toList ++ entriesOf "type" fs = [t] ∧ rest = acc ++ withoutTag fs
  | [], some v, acc, t, rest => by
    simp [splitTag, entriesOf, withoutTag, eq_comm]
  | [], none, acc, t, rest => by
    simp [splitTag, entriesOf]
  | (k, v) :: fs, tag, acc, t, rest => by
    rw [splitTag.eq_def]
    simp only []
    by_cases h : k = lit "type"
    · subst h
      rw [if_pos rfl, show lit "type" = "type".toList from rfl, entriesOf_same]
      cases tag with
      | some w => simp
      | none =>
        simp only [splitTag_iff fs]
        have e : withoutTag (("type".toList, v) :: fs) = withoutTag fs := by
          rw [withoutTag, List.filter_cons_of_neg (by simp; rfl)]; rfl
        rw [e]
        simp
    · rw [if_neg h, entriesOf_other h, splitTag_iff fs]
      simp [withoutTag, h]

theorem entriesOf_withoutTag {k : String} (hk : k.toList ≠ lit "type") (fs : List (Str × Json)) :
    entriesOf k (withoutTag fs) = entriesOf k fs := by
  simp only [entriesOf, withoutTag, List.filter_filter]
  congr 1
  apply List.filter_congr
  intro e _
  by_cases h : e.1 = k.toList
  · simp [h, hk]
  · simp [h]

theorem function_iff {mode : Mode} {fs : List (Str × Json)} {f : Function} : deFunction mode fs = .ok f ↔
    DenotesName fs f.name ∧ (∃ v, Once "inputs" fs v ∧ DenotesEach (DenotesParam mode) v f.inputs) ∧
    (∃ v, Once "outputs" fs v ∧ DenotesEach (DenotesParam mode) v f.outputs) ∧
    DefaultBool "constant" fs false f.constant ∧ DenotesMutability fs f.stateMutability := by
  have hp : ∀ v as, deArr (deParam mode) v = .ok as ↔ DenotesEach (DenotesParam mode) v as :=
    fun v as => each_iff (fun j p => param_iff)
  rw [deFunction]
  simp only [Res.bind_eq_ok, functionFields_iff, Res.ok.injEq]
  rw [← name_iff, ← defaultBool_iff, ← mutability_iff]
  simp only [Once]
  rw [← slot_required hp, ← slot_required hp]
  constructor
  · rintro ⟨st, ⟨h1, h2, h3, h4, h5, _⟩, n, h6, is, h7, os, h8, rfl⟩
    exact ⟨⟨_, h1, h6⟩, ⟨_, h2, h7⟩, ⟨_, h3, h8⟩, ⟨_, h4, rfl⟩, ⟨_, h5, rfl⟩⟩
  · rintro ⟨⟨o1, h1, h6⟩, ⟨o2, h2, h7⟩, ⟨o3, h3, h8⟩, ⟨o4, h4, h9⟩, ⟨o5, h5, h10⟩⟩
    refine ⟨{ name := o1, inputs := o2, outputs := o3, constant := o4, stateMutability := o5, eventInputs := none, anonymous := none },
      ⟨h1, h2, h3, h4, h5, rfl, rfl⟩, _, h6, _, h7, _, h8, ?_⟩
    simp only [h9, h10]

theorem event_iff {mode : Mode} {fs : List (Str × Json)} {e : Event} : deEvent mode fs = .ok e ↔
    DenotesName fs e.name ∧ (∃ v, Once "inputs" fs v ∧ DenotesEach (DenotesEventParam mode) v e.inputs) ∧
    Once "anonymous" fs (.bool e.anonymous) := by
  have hp : ∀ v as, deArr (deEventParam mode) v = .ok as ↔ DenotesEach (DenotesEventParam mode) v as :=
    fun v as => each_iff (fun j p => eventParam_iff)
  have hb : Once "anonymous" fs (.bool e.anonymous) ↔ ∃ v, entriesOf "anonymous" fs = [v] ∧ v = .bool e.anonymous := by
    simp [Once]
  rw [deEvent, hb, ← slot_required (R := fun v b => v = .bool b) (fun v b => deBool_iff)]
  simp only [Res.bind_eq_ok, eventOpFields_iff, Res.ok.injEq]
  rw [← name_iff]
  simp only [Once]
  rw [← slot_required hp]
  constructor
  · rintro ⟨st, ⟨h1, h2, h3, _⟩, n, h6, is, h7, os, h8, rfl⟩
    exact ⟨⟨_, h1, h6⟩, ⟨_, h2, h7⟩, ⟨_, h3, h8⟩⟩
  · rintro ⟨⟨o1, h1, h6⟩, ⟨o2, h2, h7⟩, ⟨o3, h3, h8⟩⟩
    exact ⟨{ name := o1, inputs := none, outputs := none, constant := none, stateMutability := none, eventInputs := o2, anonymous := o3 },
      ⟨h1, h2, h3, rfl, rfl, rfl, rfl⟩, _, h6, _, h7, _, h8, rfl⟩

theorem constructor_iff {mode : Mode} {fs : List (Str × Json)} {c : Constructor} : deConstructor mode fs = .ok c ↔
    ∃ v, Once "inputs" fs v ∧ DenotesEach (DenotesParam mode) v c.inputs := by
  have hp : ∀ v as, deArr (deParam mode) v = .ok as ↔ DenotesEach (DenotesParam mode) v as :=
    fun v as => each_iff (fun j p => param_iff)
  rw [deConstructor]
  simp only [Res.bind_eq_ok, constructorFields_iff, Res.ok.injEq, Once]
  rw [← slot_required hp]
  constructor
  · rintro ⟨st, ⟨h1, _⟩, is, h2, rfl⟩
    exact ⟨_, h1, h2⟩
  · rintro ⟨o, h1, h2⟩
    exact ⟨{ name := none, inputs := o, outputs := none, constant := none, stateMutability := none, eventInputs := none, anonymous := none },
      ⟨h1, rfl, rfl, rfl, rfl, rfl, rfl⟩, _, h2, rfl⟩

theorem once_withoutTag {k : String} (hk : k.toList ≠ lit "type") {fs : List (Str × Json)} {v : Json} :
    Once k (withoutTag fs) v ↔ Once k fs v := by rw [Once, entriesOf_withoutTag hk, Once]

theorem absent_withoutTag {k : String} (hk : k.toList ≠ lit "type") {fs : List (Str × Json)} :
    Absent k (withoutTag fs) ↔ Absent k fs := by rw [Absent, entriesOf_withoutTag hk, Absent]

theorem deName_iff {v : Json} {n : Str} : deName v = .ok n ↔ ∃ s, v = .str s ∧ CutAtParen s n := by
  simp only [deName, Res.bind_eq_ok, deString_iff, Res.ok.injEq, cutAtParen_iff]
  simp only [eq_comm]

theorem operationSeq_iff {xs : List Json} {op : Operation} :
    deOperationSeq xs = .ok op ↔ DenotesOperation (.arr xs) op := by
  have hp : ∀ v as, deArr (deParam .buffered) v = .ok as ↔ DenotesEach (DenotesParam .buffered) v as :=
    fun v as => each_iff (fun j p => param_iff)
  have he : ∀ v as, deArr (deEventParam .buffered) v = .ok as ↔ DenotesEach (DenotesEventParam .buffered) v as :=
    fun v as => each_iff (fun j p => eventParam_iff)
  constructor
  · intro h
    unfold deOperationSeq at h
    split at h
    · split at h
      · rename_i e; subst e
        simp only [Res.bind_eq_ok, Res.ok.injEq] at h
        obtain ⟨c, h, rfl⟩ := h
        obtain ⟨a, rfl, h1⟩ := constructorSeq_ok.1 h
        exact .constructorArray ((hp _ _).1 h1)
      split at h
      · rename_i e; subst e
        simp only [Res.bind_eq_ok, Res.ok.injEq] at h
        obtain ⟨f, h, rfl⟩ := h
        obtain ⟨a, b, c, tail, rfl, h1, h2, h3, h4⟩ := functionSeq_ok.1 h
        obtain ⟨s, rfl, hn⟩ := deName_iff.1 h1
        refine .functionArray hn ((hp _ _).1 h2) ((hp _ _).1 h3) ?_
        rcases h4 with ⟨rfl, h5, h6⟩ | ⟨d, rfl, h5, h6⟩ | ⟨d, e, rfl, h5, h6⟩
        · rw [h5, h6]; exact .none
        · rw [h6, deBool_iff.1 h5]; exact .constant _
        · rw [deBool_iff.1 h5]; exact .both _ (deMutability_iff.1 h6)
      split at h
      · rename_i e; subst e
        simp only [Res.bind_eq_ok, Res.ok.injEq] at h
        obtain ⟨f, h, rfl⟩ := h
        obtain ⟨a, b, c, rfl, h1, h2, h3⟩ := eventSeq_ok.1 h
        obtain ⟨s, rfl, hn⟩ := deName_iff.1 h1
        rw [deBool_iff.1 h3]
        exact .eventArray hn ((he _ _).1 h2)
      split at h
      · rename_i e; subst e
        simp only [Res.bind_eq_ok, Res.ok.injEq] at h
        obtain ⟨_, h, rfl⟩ := h
        rw [endOfSeq_ok.1 h]
        exact .fallbackArray
      split at h
      · rename_i e; subst e
        simp only [Res.bind_eq_ok, Res.ok.injEq] at h
        obtain ⟨_, h, rfl⟩ := h
        rw [endOfSeq_ok.1 h]
        exact .receiveArray
      · cases h
    · cases h
  · intro h
    cases h with
    | constructorArray h =>
      rw [deOperationSeq, if_pos rfl, Res.bind_eq_ok]
      exact ⟨_, constructorSeq_ok.2 ⟨_, rfl, (hp _ _).2 h⟩, rfl⟩
    | functionArray h1 h2 h3 h4 =>
      rw [deOperationSeq, if_neg (by decide), if_pos rfl, Res.bind_eq_ok]
      refine ⟨_, functionSeq_ok.2 ⟨_, _, _, _, rfl, deName_iff.2 ⟨_, rfl, h1⟩, (hp _ _).2 h2, (hp _ _).2 h3, ?_⟩, rfl⟩
      generalize hc : Function.constant _ = c at h4 ⊢
      generalize hm : Function.stateMutability _ = m at h4 ⊢
      cases h4 with
      | none => exact Or.inl ⟨rfl, rfl, rfl⟩
      | constant b => exact Or.inr (Or.inl ⟨_, rfl, deBool_iff.2 rfl, rfl⟩)
      | both b h => exact Or.inr (Or.inr ⟨_, _, rfl, deBool_iff.2 rfl, deMutability_iff.2 h⟩)
    | eventArray h1 h2 =>
      rw [deOperationSeq, if_neg (by decide), if_neg (by decide), if_pos rfl, Res.bind_eq_ok]
      exact ⟨_, eventSeq_ok.2 ⟨_, _, _, rfl, deName_iff.2 ⟨_, rfl, h1⟩, (he _ _).2 h2, deBool_iff.2 rfl⟩, rfl⟩
    | fallbackArray => decide
    | receiveArray => decide

theorem operation_iff {j : Json} {op : Operation} : deOperation j = .ok op ↔ DenotesOperation j op := by
  cases j with
  | obj fs =>
    rw [deOperation]
    simp only [Res.bind_eq_ok, Prod.exists, splitTag_iff, Option.toList_none, List.nil_append]
    constructor
    · rintro ⟨tag, rest, ⟨ht, rfl⟩, h⟩
      cases tag with
      | str s =>
        simp only at h
        split at h
        · rename_i e; subst e
          rw [Res.bind_eq_ok] at h
          obtain ⟨c, h, h'⟩ := h
          cases h'
          obtain ⟨v, h1, h2⟩ := constructor_iff.1 h
          exact .constructor ht ((once_withoutTag (by decide)).1 h1) h2
        split at h
        · rename_i e; subst e
          rw [Res.bind_eq_ok] at h
          obtain ⟨f, h, h'⟩ := h
          cases h'
          obtain ⟨⟨s, h1, h1'⟩, ⟨v, h2, h2'⟩, ⟨w, h3, h3'⟩, h4, h5⟩ := function_iff.1 h
          rw [DefaultBool, once_withoutTag (by decide), absent_withoutTag (by decide)] at h4
          simp only [DenotesMutability, once_withoutTag (k := "stateMutability") (by decide),
            absent_withoutTag (k := "stateMutability") (by decide)] at h5
          exact .function ht ⟨s, (once_withoutTag (by decide)).1 h1, h1'⟩ ((once_withoutTag (by decide)).1 h2) h2'
            ((once_withoutTag (by decide)).1 h3) h3' h4 h5
        split at h
        · rename_i e; subst e
          rw [Res.bind_eq_ok] at h
          obtain ⟨f, h, h'⟩ := h
          cases h'
          obtain ⟨⟨s, h1, h1'⟩, ⟨v, h2, h2'⟩, h3⟩ := event_iff.1 h
          exact .event ht ⟨s, (once_withoutTag (by decide)).1 h1, h1'⟩ ((once_withoutTag (by decide)).1 h2) h2'
            ((once_withoutTag (by decide)).1 h3)
        split at h
        · rename_i e; subst e; cases h; exact .fallback ht
        split at h
        · rename_i e; subst e; cases h; exact .receive ht
        · cases h
      | _ => cases h
    · intro h
      cases h with
      | constructor ht h1 h2 =>
        refine ⟨_, _, ⟨ht, rfl⟩, ?_⟩
        simp only [if_true]
        rw [Res.bind_eq_ok]
        exact ⟨_, constructor_iff.2 ⟨_, (once_withoutTag (by decide)).2 h1, h2⟩, rfl⟩
      | function ht h1 h2 h2' h3 h3' h4 h5 =>
        obtain ⟨s, h1, h1'⟩ := h1
        refine ⟨_, _, ⟨ht, rfl⟩, ?_⟩
        simp only [if_true]
        rw [if_neg (by decide), Res.bind_eq_ok]
        refine ⟨_, function_iff.2 ⟨⟨s, (once_withoutTag (by decide)).2 h1, h1'⟩, ⟨_, (once_withoutTag (by decide)).2 h2, h2'⟩,
          ⟨_, (once_withoutTag (by decide)).2 h3, h3'⟩, ?_, ?_⟩, rfl⟩
        · rw [DefaultBool, once_withoutTag (by decide), absent_withoutTag (by decide)]; exact h4
        · simp only [DenotesMutability, once_withoutTag (k := "stateMutability") (by decide),
            absent_withoutTag (k := "stateMutability") (by decide)]
          exact h5
      | event ht h1 h2 h2' h3 =>
        obtain ⟨s, h1, h1'⟩ := h1
        refine ⟨_, _, ⟨ht, rfl⟩, ?_⟩
        simp only [if_true]
        rw [if_neg (by decide), if_neg (by decide), Res.bind_eq_ok]
        exact ⟨_, event_iff.2 ⟨⟨s, (once_withoutTag (by decide)).2 h1, h1'⟩, ⟨_, (once_withoutTag (by decide)).2 h2, h2'⟩,
          (once_withoutTag (by decide)).2 h3⟩, rfl⟩
      | fallback ht =>
        refine ⟨_, _, ⟨ht, rfl⟩, ?_⟩
        simp only [if_true]
        rw [if_neg (by decide), if_neg (by decide), if_neg (by decide)]
      | receive ht =>
        refine ⟨_, _, ⟨ht, rfl⟩, ?_⟩
        simp only [if_true]
        rw [if_neg (by decide), if_neg (by decide), if_neg (by decide), if_neg (by decide)]
  | arr xs => rw [deOperation]; exact operationSeq_iff
  | _ => rw [deOperation.eq_def]; exact ⟨nofun, nofun⟩

/-! ### panics -/

/-- a panic has this cause -/
def PanicOnly {α : Type} (Q : Prop) (x : Res α) : Prop := x = .panic → Q

theorem panicOnly_ok {α : Type} {Q : Prop} (a : α) : PanicOnly Q (Res.ok a) := fun h => nomatch h

theorem panicOnly_err {α : Type} {Q : Prop} (e : Err) : PanicOnly Q (Res.err e : Res α) := fun h => nomatch h

theorem panicOnly_bind {α β : Type} {Q : Prop} {x : Res α} {f : α → Res β} (h : PanicOnly Q x)
    (hf : ∀ a, PanicOnly Q (f a)) : PanicOnly Q (x >>= f) := by
  cases x with
  | ok a => exact hf a
  | err e => exact panicOnly_err e
  | panic => exact fun _ => h rfl

theorem panicOnly_ite {α : Type} {Q c : Prop} [Decidable c] {x y : Res α} (hx : c → PanicOnly Q x) (hy : PanicOnly Q y) :
    PanicOnly Q (if c then x else y) := by
  split
  · rename_i h; exact hx h
  · exact hy

/-- a type string inside makes `read` panic -/
def BadType (j : Json) : Prop := ∃ s, TypeString j s ∧ read s = .panic

theorem panicOnly_string {Q : Prop} (v : Json) : PanicOnly Q (deString v) := by
  unfold deString; split
  · exact panicOnly_ok _
  · exact panicOnly_err _

theorem panicOnly_bool {Q : Prop} (v : Json) : PanicOnly Q (deBool v) := by
  unfold deBool; split
  · exact panicOnly_ok _
  · exact panicOnly_err _

theorem panicOnly_required {α : Type} {Q : Prop} (o : Option α) : PanicOnly Q (required o) := by
  unfold required; split
  · exact panicOnly_ok _
  · exact panicOnly_err _

theorem panicOnly_set {Q : Prop} (t : ParamType) (o : Option (List ParamType)) : PanicOnly Q (setTupleComponents t o) := by
  unfold setTupleComponents
  repeat' split
  all_goals first | exact panicOnly_ok _ | exact panicOnly_err _

theorem panicOnly_kind {fs : List (Str × Json)} {v : Json} (h : (lit "type", v) ∈ fs) :
    PanicOnly (BadType (.obj fs)) (deKind v) := by
  intro hp
  cases v with
  | str s =>
    simp only [deKind] at hp
    split at hp
    · cases hp
    · cases hp
    · rename_i hr; exact ⟨s, .here h, hr⟩
  | _ => simp [deKind] at hp

theorem panicOnly_isSome {α β : Type} {Q : Prop} {o : Option α} {x : Res β} (h : PanicOnly Q x) :
    PanicOnly Q (if o.isSome = true then .err .serdeJson else x) := panicOnly_ite (fun _ => panicOnly_err _) h

theorem bad_field {k : Str} {v : Json} {fs : List (Str × Json)} (h : (k, v) ∈ fs) (hb : BadType v) : BadType (.obj fs) := by
  obtain ⟨s, h1, h2⟩ := hb
  exact ⟨s, .field h h1, h2⟩

theorem bad_element {v : Json} {xs : List Json} (h : v ∈ xs) (hb : BadType v) : BadType (.arr xs) := by
  obtain ⟨s, h1, h2⟩ := hb
  exact ⟨s, .element h h1, h2⟩

mutual
theorem panicOnly_tupleParam (mode : Mode) : ∀ j : Json, PanicOnly (BadType j) (deTupleParam mode j)
  | .obj fs => by
    rw [deTupleParam.eq_def]
    refine panicOnly_bind (panicOnly_tupleFields mode fs fs {} (fun _ h => h)) fun st => ?_
    exact panicOnly_bind (panicOnly_required _) fun _ => panicOnly_bind (panicOnly_set _ _) fun _ => panicOnly_ok _
  | .null | .bool _ | .num _ | .str _ | .arr _ => by rw [deTupleParam.eq_def]; exact panicOnly_err _
theorem panicOnly_tupleFields (mode : Mode) (all : List (Str × Json)) : ∀ (fs : List (Str × Json)) (st : FieldSt),
    (∀ e ∈ fs, e ∈ all) → PanicOnly (BadType (.obj all)) (deTupleFields mode fs st)
  | [], st, _ => by rw [deTupleFields.eq_def]; exact panicOnly_ok _
  | (k, v) :: fs, st, hall => by
    rw [deTupleFields.eq_def]
    have hv := hall (k, v) (by simp)
    have ih := fun st => panicOnly_tupleFields mode all fs st (fun e he => hall e (by simp [he]))
    have hc : PanicOnly (BadType (.obj all)) (deComponents mode v) :=
      fun h => bad_field hv (panicOnly_components mode v h)
    simp only []
    refine panicOnly_ite (fun _ => panicOnly_isSome (panicOnly_bind (panicOnly_string _) fun _ => ih _)) ?_
    refine panicOnly_ite (fun h => panicOnly_isSome (panicOnly_bind (panicOnly_kind (h ▸ hv)) fun _ => ih _)) ?_
    refine panicOnly_ite (fun _ => panicOnly_isSome (panicOnly_bind (panicOnly_string _) fun _ => ih _)) ?_
    refine panicOnly_ite (fun _ => panicOnly_isSome (panicOnly_bind hc fun _ => ih _)) ?_
    cases mode with
    | direct => exact panicOnly_err _
    | buffered => exact ih _
theorem panicOnly_components (mode : Mode) : ∀ j : Json, PanicOnly (BadType j) (deComponents mode j)
  | .arr xs => by
    rw [deComponents.eq_def]
    exact panicOnly_tupleParams mode xs xs (fun _ h => h)
  | .null | .bool _ | .num _ | .str _ | .obj _ => by rw [deComponents.eq_def]; exact panicOnly_err _
theorem panicOnly_tupleParams (mode : Mode) (all : List Json) : ∀ (xs : List Json), (∀ x ∈ xs, x ∈ all) →
    PanicOnly (BadType (.arr all)) (deTupleParams mode xs)
  | [], _ => by rw [deTupleParams.eq_def]; exact panicOnly_ok _
  | x :: xs, hall => by
    rw [deTupleParams.eq_def]
    refine panicOnly_bind (fun h => bad_element (hall x (by simp)) (panicOnly_tupleParam mode x h)) fun _ => ?_
    exact panicOnly_bind (panicOnly_tupleParams mode all xs (fun e he => hall e (by simp [he]))) fun _ => panicOnly_ok _
end

theorem panicOnly_paramFields (mode : Mode) (all : List (Str × Json)) : ∀ (fs : List (Str × Json)) (st : FieldSt),
    (∀ e ∈ fs, e ∈ all) → PanicOnly (BadType (.obj all)) (deParamFields mode fs st)
  | [], st, _ => by rw [deParamFields.eq_def]; exact panicOnly_ok _
  | (k, v) :: fs, st, hall => by
    rw [deParamFields.eq_def]
    have hv := hall (k, v) (by simp)
    have ih := fun st => panicOnly_paramFields mode all fs st (fun e he => hall e (by simp [he]))
    have hc : PanicOnly (BadType (.obj all)) (deComponents mode v) :=
      fun h => bad_field hv (panicOnly_components mode v h)
    simp only []
    refine panicOnly_ite (fun _ => panicOnly_isSome (panicOnly_bind (panicOnly_string _) fun _ => ih _)) ?_
    refine panicOnly_ite (fun h => panicOnly_isSome (panicOnly_bind (panicOnly_kind (h ▸ hv)) fun _ => ih _)) ?_
    refine panicOnly_ite (fun _ => panicOnly_isSome (panicOnly_bind (panicOnly_string _) fun _ => ih _)) ?_
    refine panicOnly_ite (fun _ => panicOnly_isSome (panicOnly_bind hc fun _ => ih _)) ?_
    cases mode with
    | direct => exact panicOnly_err _
    | buffered => exact ih _

theorem panicOnly_eventFields (mode : Mode) (all : List (Str × Json)) : ∀ (fs : List (Str × Json)) (st : FieldSt),
    (∀ e ∈ fs, e ∈ all) → PanicOnly (BadType (.obj all)) (deEventFields mode fs st)
  | [], st, _ => by rw [deEventFields.eq_def]; exact panicOnly_ok _
  | (k, v) :: fs, st, hall => by
    rw [deEventFields.eq_def]
    have hv := hall (k, v) (by simp)
    have ih := fun st => panicOnly_eventFields mode all fs st (fun e he => hall e (by simp [he]))
    have hc : PanicOnly (BadType (.obj all)) (deComponents mode v) :=
      fun h => bad_field hv (panicOnly_components mode v h)
    simp only []
    refine panicOnly_ite (fun _ => panicOnly_isSome (panicOnly_bind (panicOnly_string _) fun _ => ih _)) ?_
    refine panicOnly_ite (fun h => panicOnly_isSome (panicOnly_bind (panicOnly_kind (h ▸ hv)) fun _ => ih _)) ?_
    refine panicOnly_ite (fun _ => panicOnly_isSome (panicOnly_bind hc fun _ => ih _)) ?_
    refine panicOnly_ite (fun _ => panicOnly_isSome (panicOnly_bind (panicOnly_bool _) fun _ => ih _)) ?_
    cases mode with
    | direct => exact panicOnly_err _
    | buffered => exact ih _

theorem panicOnly_param (mode : Mode) (j : Json) : PanicOnly (BadType j) (deParam mode j) := by
  cases j with
  | obj fs =>
    rw [deParam.eq_def]
    refine panicOnly_bind (panicOnly_paramFields mode fs fs {} (fun _ h => h)) fun st => ?_
    exact panicOnly_bind (panicOnly_required _) fun _ => panicOnly_bind (panicOnly_required _) fun _ =>
      panicOnly_bind (panicOnly_set _ _) fun _ => panicOnly_ok _
  | _ => rw [deParam.eq_def]; exact panicOnly_err _

theorem panicOnly_eventParam (mode : Mode) (j : Json) : PanicOnly (BadType j) (deEventParam mode j) := by
  cases j with
  | obj fs =>
    rw [deEventParam.eq_def]
    refine panicOnly_bind (panicOnly_eventFields mode fs fs {} (fun _ h => h)) fun st => ?_
    exact panicOnly_bind (panicOnly_required _) fun _ => panicOnly_bind (panicOnly_required _) fun _ =>
      panicOnly_bind (panicOnly_set _ _) fun _ => panicOnly_ok _
  | _ => rw [deEventParam.eq_def]; exact panicOnly_err _

theorem panicOnly_vec {α : Type} {de : Json → Res α} (hd : ∀ j, PanicOnly (BadType j) (de j)) (all : List Json) :
    ∀ (xs : List Json), (∀ x ∈ xs, x ∈ all) → PanicOnly (BadType (.arr all)) (deVec de xs)
  | [], _ => panicOnly_ok _
  | x :: xs, hall => by
    rw [deVec]
    refine panicOnly_bind (fun h => bad_element (hall x (by simp)) (hd x h)) fun _ => ?_
    exact panicOnly_bind (panicOnly_vec hd all xs (fun e he => hall e (by simp [he]))) fun _ => panicOnly_ok _

theorem panicOnly_arr {α : Type} {de : Json → Res α} (hd : ∀ j, PanicOnly (BadType j) (de j)) (j : Json) :
    PanicOnly (BadType j) (deArr de j) := by
  cases j with
  | arr xs => exact panicOnly_vec hd xs xs (fun _ h => h)
  | _ => rw [deArr.eq_def]; exact panicOnly_err _

theorem panicOnly_name {Q : Prop} (v : Json) : PanicOnly Q (deName v) :=
  panicOnly_bind (panicOnly_string _) fun _ => panicOnly_ok _

theorem panicOnly_mutability {Q : Prop} (v : Json) : PanicOnly Q (deStateMutability v) := by
  unfold deStateMutability mutabilityVariant
  repeat' split
  all_goals first | exact panicOnly_ok _ | exact panicOnly_err _

theorem panicOnly_functionFields (mode : Mode) (all : List (Str × Json)) : ∀ (fs : List (Str × Json)) (st : OpSt),
    (∀ e ∈ fs, e ∈ all) → PanicOnly (BadType (.obj all)) (deFunctionFields mode fs st)
  | [], st, _ => by rw [deFunctionFields.eq_def]; exact panicOnly_ok _
  | (k, v) :: fs, st, hall => by
    rw [deFunctionFields.eq_def]
    have hv := hall (k, v) (by simp)
    have ih := fun st => panicOnly_functionFields mode all fs st (fun e he => hall e (by simp [he]))
    have hc : PanicOnly (BadType (.obj all)) (deArr (deParam mode) v) :=
      fun h => bad_field hv (panicOnly_arr (panicOnly_param mode) v h)
    simp only []
    refine panicOnly_ite (fun _ => panicOnly_isSome (panicOnly_bind (panicOnly_name _) fun _ => ih _)) ?_
    refine panicOnly_ite (fun _ => panicOnly_isSome (panicOnly_bind hc fun _ => ih _)) ?_
    refine panicOnly_ite (fun _ => panicOnly_isSome (panicOnly_bind hc fun _ => ih _)) ?_
    refine panicOnly_ite (fun _ => panicOnly_isSome (panicOnly_bind (panicOnly_bool _) fun _ => ih _)) ?_
    exact panicOnly_ite (fun _ => panicOnly_isSome (panicOnly_bind (panicOnly_mutability _) fun _ => ih _)) (ih _)

theorem panicOnly_eventOpFields (mode : Mode) (all : List (Str × Json)) : ∀ (fs : List (Str × Json)) (st : OpSt),
    (∀ e ∈ fs, e ∈ all) → PanicOnly (BadType (.obj all)) (deEventOpFields mode fs st)
  | [], st, _ => by rw [deEventOpFields.eq_def]; exact panicOnly_ok _
  | (k, v) :: fs, st, hall => by
    rw [deEventOpFields.eq_def]
    have hv := hall (k, v) (by simp)
    have ih := fun st => panicOnly_eventOpFields mode all fs st (fun e he => hall e (by simp [he]))
    have hc : PanicOnly (BadType (.obj all)) (deArr (deEventParam mode) v) :=
      fun h => bad_field hv (panicOnly_arr (panicOnly_eventParam mode) v h)
    simp only []
    refine panicOnly_ite (fun _ => panicOnly_isSome (panicOnly_bind (panicOnly_name _) fun _ => ih _)) ?_
    refine panicOnly_ite (fun _ => panicOnly_isSome (panicOnly_bind hc fun _ => ih _)) ?_
    exact panicOnly_ite (fun _ => panicOnly_isSome (panicOnly_bind (panicOnly_bool _) fun _ => ih _)) (ih _)

theorem panicOnly_constructorFields (mode : Mode) (all : List (Str × Json)) : ∀ (fs : List (Str × Json)) (st : OpSt),
    (∀ e ∈ fs, e ∈ all) → PanicOnly (BadType (.obj all)) (deConstructorFields mode fs st)
  | [], st, _ => by rw [deConstructorFields.eq_def]; exact panicOnly_ok _
  | (k, v) :: fs, st, hall => by
    rw [deConstructorFields.eq_def]
    have hv := hall (k, v) (by simp)
    have ih := fun st => panicOnly_constructorFields mode all fs st (fun e he => hall e (by simp [he]))
    have hc : PanicOnly (BadType (.obj all)) (deArr (deParam mode) v) :=
      fun h => bad_field hv (panicOnly_arr (panicOnly_param mode) v h)
    simp only []
    exact panicOnly_ite (fun _ => panicOnly_isSome (panicOnly_bind hc fun _ => ih _)) (ih _)

theorem panicOnly_splitTag {Q : Prop} : ∀ (fs : List (Str × Json)) (tag : Option Json) (acc : List (Str × Json)),
    PanicOnly Q (splitTag fs tag acc)
  | [], some _, _ => panicOnly_ok _
  | [], none, _ => panicOnly_err _
  | (k, v) :: fs, tag, acc => by
    rw [splitTag.eq_def]
    simp only []
    refine panicOnly_ite (fun _ => ?_) (panicOnly_splitTag fs _ _)
    split
    · exact panicOnly_err _
    · exact panicOnly_splitTag fs _ _

theorem panicOnly_next {α β : Type} {Q : Prop} {de : Json → Res α} {xs : List Json}
    {f : Option α × List Json → Res β} (hd : ∀ x ∈ xs, PanicOnly Q (de x))
    (hf : ∀ o ys, (∀ y ∈ ys, y ∈ xs) → PanicOnly Q (f (o, ys))) : PanicOnly Q (nextElement de xs >>= f) := by
  cases xs with
  | nil => exact hf _ _ (fun _ h => h)
  | cons x xs =>
    rw [nextElement, Res.bind_assoc]
    refine panicOnly_bind (hd x (by simp)) fun _ => ?_
    exact hf _ _ (fun y h => by simp [h])

theorem panicOnly_end {Q : Prop} (xs : List Json) : PanicOnly Q (endOfSeq xs) := by
  cases xs
  · exact panicOnly_ok _
  · exact panicOnly_err _

theorem panicOnly_operationSeq (xs : List Json) : PanicOnly (BadType (.arr xs)) (deOperationSeq xs) := by
  unfold deOperationSeq
  split
  · rename_i s rest
    generalize hj : Json.arr (Json.str s :: rest) = j
    have hb : ∀ x ∈ rest, BadType x → BadType j := fun x hx h => hj ▸ bad_element (by simp [hx]) h
    have hp : ∀ x ∈ rest, PanicOnly (BadType j) (deArr (deParam .buffered) x) :=
      fun x hx h => hb x hx (panicOnly_arr (panicOnly_param .buffered) x h)
    have he : ∀ x ∈ rest, PanicOnly (BadType j) (deArr (deEventParam .buffered) x) :=
      fun x hx h => hb x hx (panicOnly_arr (panicOnly_eventParam .buffered) x h)
    refine panicOnly_ite (fun _ => panicOnly_bind ?_ fun _ => panicOnly_ok _) (panicOnly_ite (fun _ => panicOnly_bind ?_ fun _ => panicOnly_ok _)
      (panicOnly_ite (fun _ => panicOnly_bind ?_ fun _ => panicOnly_ok _)
      (panicOnly_ite (fun _ => panicOnly_bind (panicOnly_end _) fun _ => panicOnly_ok _)
      (panicOnly_ite (fun _ => panicOnly_bind (panicOnly_end _) fun _ => panicOnly_ok _) (panicOnly_err _)))))
    · refine panicOnly_next hp fun _ _ _ => panicOnly_bind (panicOnly_required _) fun _ => ?_
      exact panicOnly_bind (panicOnly_end _) fun _ => panicOnly_ok _
    · refine panicOnly_next (fun _ _ => panicOnly_name _) fun _ _ h1 => panicOnly_bind (panicOnly_required _) fun _ => ?_
      refine panicOnly_next (fun x hx => hp x (h1 x hx)) fun _ _ h2 => panicOnly_bind (panicOnly_required _) fun _ => ?_
      refine panicOnly_next (fun x hx => hp x (h1 x (h2 x hx))) fun _ _ _ => panicOnly_bind (panicOnly_required _) fun _ => ?_
      refine panicOnly_next (fun _ _ => panicOnly_bool _) fun _ _ _ => ?_
      refine panicOnly_next (fun _ _ => panicOnly_mutability _) fun _ _ _ => ?_
      exact panicOnly_bind (panicOnly_end _) fun _ => panicOnly_ok _
    · refine panicOnly_next (fun _ _ => panicOnly_name _) fun _ _ h1 => panicOnly_bind (panicOnly_required _) fun _ => ?_
      refine panicOnly_next (fun x hx => he x (h1 x hx)) fun _ _ _ => panicOnly_bind (panicOnly_required _) fun _ => ?_
      refine panicOnly_next (fun _ _ => panicOnly_bool _) fun _ _ _ => panicOnly_bind (panicOnly_required _) fun _ => ?_
      exact panicOnly_bind (panicOnly_end _) fun _ => panicOnly_ok _
  · exact panicOnly_err _

theorem panicOnly_operation (j : Json) : PanicOnly (BadType j) (deOperation j) := by
  cases j with
  | obj fs =>
    rw [deOperation.eq_def]
    simp only []
    intro h
    cases hs : splitTag fs none [] with
    | panic => exact absurd hs (fun h => panicOnly_splitTag (Q := False) fs none [] h)
    | err e => rw [hs] at h; cases h
    | ok r =>
      obtain ⟨tag, rest⟩ := r
      rw [hs, Res.ok_bind] at h
      obtain ⟨_, rfl⟩ := (splitTag_iff _ _ _ _ _).1 hs
      have hall : ∀ e ∈ [] ++ withoutTag fs, e ∈ fs := by
        intro e he
        simp only [List.nil_append, withoutTag, List.mem_filter] at he
        exact he.1
      revert h
      cases tag with
      | str s =>
        refine panicOnly_ite (fun _ => ?_) (panicOnly_ite (fun _ => ?_) (panicOnly_ite (fun _ => ?_)
          (panicOnly_ite (fun _ => panicOnly_ok _) (panicOnly_ite (fun _ => panicOnly_ok _) (panicOnly_err _)))))
        · refine panicOnly_bind (panicOnly_bind (panicOnly_constructorFields _ fs _ _ hall) fun _ => ?_) fun _ => panicOnly_ok _
          exact panicOnly_bind (panicOnly_required _) fun _ => panicOnly_ok _
        · refine panicOnly_bind (panicOnly_bind (panicOnly_functionFields _ fs _ _ hall) fun _ => ?_) fun _ => panicOnly_ok _
          exact panicOnly_bind (panicOnly_required _) fun _ => panicOnly_bind (panicOnly_required _) fun _ =>
            panicOnly_bind (panicOnly_required _) fun _ => panicOnly_ok _
        · refine panicOnly_bind (panicOnly_bind (panicOnly_eventOpFields _ fs _ _ hall) fun _ => ?_) fun _ => panicOnly_ok _
          exact panicOnly_bind (panicOnly_required _) fun _ => panicOnly_bind (panicOnly_required _) fun _ =>
            panicOnly_bind (panicOnly_required _) fun _ => panicOnly_ok _
      | _ => exact panicOnly_err _
  | arr xs => rw [deOperation]; exact panicOnly_operationSeq xs
  | _ => rw [deOperation.eq_def]; exact panicOnly_err _

theorem panicOnly_operations (all : List Json) : ∀ (js : List Json) (c : Contract), (∀ x ∈ js, x ∈ all) →
    PanicOnly (BadType (.arr all)) (deOperations js c)
  | [], c, _ => panicOnly_ok _
  | j :: js, c, hall => by
    rw [deOperations]
    refine panicOnly_bind (fun h => bad_element (hall j (by simp)) (panicOnly_operation j h)) fun _ => ?_
    exact panicOnly_operations all js _ (fun e he => hall e (by simp [he]))

theorem panicOnly_contract (j : Json) : PanicOnly (BadType j) (deContract j) := by
  cases j with
  | arr js => exact panicOnly_operations js js {} (fun _ h => h)
  | _ => rw [deContract.eq_def]; exact panicOnly_err _

end Ethabi.Schema

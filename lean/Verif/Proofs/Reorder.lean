import Verif.Proofs.Seq
import Verif.Spec.Reorder
import Verif.Proofs.Json
/-!
# Field loops, one field at a time
-/
namespace Ethabi

/-- the loop over the entries with key `k` only -/
def field {α : Type} (de : Json → Res α) (k : Str) : List (Str × Json) → Option α → Res (Option α)
  | [], o => .ok o
  | (k', v) :: fs, o =>
      if k' = k then
        if o.isSome then .err .serdeJson else do let x ← de v; field de k fs (some x)
      else field de k fs o

/-- success with the same values -/
def OkEq {α : Type} (r s : Res α) : Prop := ∀ x, r = .ok x ↔ s = .ok x

theorem OkEq.refl {α : Type} (r : Res α) : OkEq r r := fun _ => Iff.rfl
theorem OkEq.trans {α : Type} {r s t : Res α} (h : OkEq r s) (h' : OkEq s t) : OkEq r t := fun x => (h x).trans (h' x)
theorem OkEq.symm {α : Type} {r s : Res α} (h : OkEq r s) : OkEq s r := fun x => (h x).symm

theorem bind_ok_iff {α β : Type} (r : Res α) (f : α → Res β) (b : β) : (r >>= f) = .ok b ↔ ∃ a, r = .ok a ∧ f a = .ok b := by
  rcases r with a | e | _
  · simp [Bind.bind, Res.bind]
  · simp [Bind.bind, Res.bind]
  · simp [Bind.bind, Res.bind]

theorem OkEq.bind {α β : Type} {r s : Res α} {f g : α → Res β} (h : OkEq r s) (hf : ∀ a, OkEq (f a) (g a)) :
    OkEq (r >>= f) (s >>= g) := by
  intro x
  rw [bind_ok_iff, bind_ok_iff]
  exact exists_congr fun a => and_congr (h a) (hf a x)

/-- a field read from the entries `fs` in another order -/
theorem field_perm {α : Type} (de : Json → Res α) (k : Str) {fs gs : List (Str × Json)} (h : fs.Perm gs) (o : Option α) :
    OkEq (field de k fs o) (field de k gs o) := by
  induction h generalizing o with
  | nil => exact OkEq.refl _
  | cons a _ ih =>
    obtain ⟨k', v⟩ := a
    rw [field, field]
    split
    · split
      · exact OkEq.refl _
      · exact (OkEq.refl _).bind fun x => ih _
    · exact ih o
  | swap a b l =>
    obtain ⟨k1, v1⟩ := a
    obtain ⟨k2, v2⟩ := b
    intro x
    rw [field, field, field, field]
    by_cases h1 : k1 = k <;> by_cases h2 : k2 = k <;> cases o <;> simp [h1, h2, bind_ok_iff, field]
  | trans _ _ ih1 ih2 => exact (ih1 o).trans (ih2 o)

/-- a field read from entries with other values -/
theorem field_congr {α : Type} (de : Json → Res α) (k : Str) {fs gs : List (Str × Json)} (h : ShuffledEntries fs gs)
    (hd : ∀ v w, Shuffled v w → OkEq (de v) (de w)) (o : Option α) : OkEq (field de k fs o) (field de k gs o) := by
  induction fs generalizing gs o with
  | nil => cases h; exact OkEq.refl _
  | cons a fs ih =>
    cases h with
    | cons hv h =>
      rw [field, field]
      split
      · split
        · exact OkEq.refl _
        · exact (hd _ _ hv).bind fun x => ih h _
      · exact ih h o

theorem field_shuffled {α : Type} (de : Json → Res α) (k : Str) {fs gs hs : List (Str × Json)} (h : ShuffledEntries fs gs)
    (hp : gs.Perm hs) (hd : ∀ v w, Shuffled v w → OkEq (de v) (de w)) (o : Option α) :
    OkEq (field de k fs o) (field de k hs o) := (field_congr de k h hd o).trans (field_perm de k hp o)

theorem deString_shuffled {v w : Json} (h : Shuffled v w) : OkEq (deString v) (deString w) := by
  cases h with
  | refl => exact OkEq.refl _
  | arr _ => exact OkEq.refl _
  | obj _ _ => exact OkEq.refl _

theorem deName_shuffled {v w : Json} (h : Shuffled v w) : OkEq (deName v) (deName w) :=
  (deString_shuffled h).bind fun _ => OkEq.refl _

theorem deBool_shuffled {v w : Json} (h : Shuffled v w) : OkEq (deBool v) (deBool w) := by
  cases h with
  | refl => exact OkEq.refl _
  | arr _ => exact OkEq.refl _
  | obj _ _ => exact OkEq.refl _

theorem deKind_shuffled {v w : Json} (h : Shuffled v w) : OkEq (deKind v) (deKind w) := by
  cases h with
  | refl => exact OkEq.refl _
  | arr _ => exact OkEq.refl _
  | obj _ _ => exact OkEq.refl _

theorem shuffledEntries_length {fs gs : List (Str × Json)} (h : ShuffledEntries fs gs) : fs.length = gs.length := by
  induction fs generalizing gs with
  | nil => cases h; rfl
  | cons _ _ ih =>
    cases h with
    | cons _ h => simp [ih h]

theorem deStateMutability_shuffled {v w : Json} (h : Shuffled v w) : OkEq (deStateMutability v) (deStateMutability w) := by
  cases h with
  | refl => exact OkEq.refl _
  | arr _ => exact OkEq.refl _
  | @obj fs gs hs h hp =>
    have hl : fs.length = hs.length := by rw [← hp.length_eq]; exact shuffledEntries_length h
    rcases fs with _ | ⟨⟨k, v⟩, _ | ⟨f', fs⟩⟩
    · cases hs with
      | nil => exact OkEq.refl _
      | cons => cases hl
    · cases h with
      | cons hv ht =>
        cases ht
        cases List.perm_singleton.1 hp.symm
        cases hv with
        | refl => exact OkEq.refl _
        | arr => exact OkEq.refl _
        | obj => exact OkEq.refl _
    · rcases hs with _ | ⟨h1, _ | ⟨h2, hs⟩⟩
      · cases hl
      · cases hl
      · intro x; simp [deStateMutability]

/-- every key is a defined one -/
def onlyKeys (keys : List Str) (mode : Mode) (fs : List (Str × Json)) : Prop :=
  mode = .buffered ∨ ∀ e ∈ fs, e.1 ∈ keys

theorem onlyKeys_nil (keys : List Str) (mode : Mode) : onlyKeys keys mode [] := .inr (by simp)

theorem onlyKeys_cons (keys : List Str) (mode : Mode) (e : Str × Json) (fs : List (Str × Json)) :
    onlyKeys keys mode (e :: fs) ↔ (mode = .buffered ∨ e.1 ∈ keys) ∧ onlyKeys keys mode fs := by
  unfold onlyKeys
  cases mode <;> simp

theorem onlyKeys_perm {keys : List Str} {mode : Mode} {fs gs : List (Str × Json)} (h : fs.Perm gs) :
    onlyKeys keys mode fs ↔ onlyKeys keys mode gs := by
  unfold onlyKeys
  exact or_congr Iff.rfl ⟨fun h' e he => h' e (h.mem_iff.2 he), fun h' e he => h' e (h.mem_iff.1 he)⟩

theorem onlyKeys_entries {keys : List Str} {mode : Mode} {fs gs : List (Str × Json)} (h : ShuffledEntries fs gs) :
    onlyKeys keys mode fs ↔ onlyKeys keys mode gs := by
  induction fs generalizing gs with
  | nil => cases h; exact Iff.rfl
  | cons a fs ih =>
    cases h with
    | cons hv h => rw [onlyKeys_cons, onlyKeys_cons, ih h]

theorem onlyKeys_shuffled {keys : List Str} {mode : Mode} {fs gs hs : List (Str × Json)} (h : ShuffledEntries fs gs)
    (hp : gs.Perm hs) : onlyKeys keys mode fs ↔ onlyKeys keys mode hs := (onlyKeys_entries h).trans (onlyKeys_perm hp)

/-- the keys of a parameter -/
def paramKeys : List Str := [lit "name", lit "type", lit "internalType", lit "components"]
/-- the keys of an event parameter -/
def eventKeys : List Str := [lit "name", lit "type", lit "components", lit "indexed"]

theorem deTupleFields_iff (mode : Mode) (fs : List (Str × Json)) (st st' : FieldSt) :
    deTupleFields mode fs st = .ok st' ↔
      onlyKeys paramKeys mode fs ∧
      field deString (lit "name") fs st.name = .ok st'.name ∧
      field deKind (lit "type") fs st.kind = .ok st'.kind ∧
      field deString (lit "internalType") fs st.internalType = .ok st'.internalType ∧
      field (deComponents mode) (lit "components") fs st.components = .ok st'.components ∧
      st.indexed = st'.indexed := by
  induction fs generalizing st with
  | nil =>
    obtain ⟨x0, x1, x2, x3, x4⟩ := st
    obtain ⟨x0', x1', x2', x3', x4'⟩ := st'
    simp only [deTupleFields, field, Res.ok.injEq, FieldSt.mk.injEq, onlyKeys_nil, true_and]
    grind
  | cons e fs ih =>
    obtain ⟨k, v⟩ := e
    have n0_1 : lit "name" ≠ lit "type" := by decide
    have n0_2 : lit "name" ≠ lit "internalType" := by decide
    have n0_3 : lit "name" ≠ lit "components" := by decide
    have n1_2 : lit "type" ≠ lit "internalType" := by decide
    have n1_3 : lit "type" ≠ lit "components" := by decide
    have n2_3 : lit "internalType" ≠ lit "components" := by decide
    rw [onlyKeys_cons]
    simp only [deTupleFields, field]
    by_cases h0 : k = lit "name"
    · subst h0
      simp only [if_pos, if_neg n0_1, if_neg n0_2, if_neg n0_3, paramKeys, List.mem_cons, true_or, or_true, true_and]
      rcases hs : st.name with _ | x
      · simp only [Option.isSome_none, Bool.false_eq_true, if_false, bind_ok_iff, ih, paramKeys]
        grind
      · simp
    by_cases h1 : k = lit "type"
    · subst h1
      simp only [if_pos, if_neg n0_1.symm, if_neg n1_2, if_neg n1_3, paramKeys, List.mem_cons, true_or, or_true, true_and]
      rcases hs : st.kind with _ | x
      · simp only [Option.isSome_none, Bool.false_eq_true, if_false, bind_ok_iff, ih, paramKeys]
        grind
      · simp
    by_cases h2 : k = lit "internalType"
    · subst h2
      simp only [if_pos, if_neg n0_2.symm, if_neg n1_2.symm, if_neg n2_3, paramKeys, List.mem_cons, true_or, or_true, true_and]
      rcases hs : st.internalType with _ | x
      · simp only [Option.isSome_none, Bool.false_eq_true, if_false, bind_ok_iff, ih, paramKeys]
        grind
      · simp
    by_cases h3 : k = lit "components"
    · subst h3
      simp only [if_pos, if_neg n0_3.symm, if_neg n1_3.symm, if_neg n2_3.symm, paramKeys, List.mem_cons, true_or, or_true, true_and]
      rcases hs : st.components with _ | x
      · simp only [Option.isSome_none, Bool.false_eq_true, if_false, bind_ok_iff, ih, paramKeys]
        grind
      · simp
    · simp only [if_neg h0, if_neg h1, if_neg h2, if_neg h3]
      cases mode with
      | direct => simp [paramKeys, h0, h1, h2, h3]
      | buffered => simp only [ih, true_or, true_and]

theorem deParamFields_iff (mode : Mode) (fs : List (Str × Json)) (st st' : FieldSt) :
    deParamFields mode fs st = .ok st' ↔
      onlyKeys paramKeys mode fs ∧
      field deString (lit "name") fs st.name = .ok st'.name ∧
      field deKind (lit "type") fs st.kind = .ok st'.kind ∧
      field deString (lit "internalType") fs st.internalType = .ok st'.internalType ∧
      field (deComponents mode) (lit "components") fs st.components = .ok st'.components ∧
      st.indexed = st'.indexed := by
  induction fs generalizing st with
  | nil =>
    obtain ⟨x0, x1, x2, x3, x4⟩ := st
    obtain ⟨x0', x1', x2', x3', x4'⟩ := st'
    simp only [deParamFields, field, Res.ok.injEq, FieldSt.mk.injEq, onlyKeys_nil, true_and]
    grind
  | cons e fs ih =>
    obtain ⟨k, v⟩ := e
    have n0_1 : lit "name" ≠ lit "type" := by decide
    have n0_2 : lit "name" ≠ lit "internalType" := by decide
    have n0_3 : lit "name" ≠ lit "components" := by decide
    have n1_2 : lit "type" ≠ lit "internalType" := by decide
    have n1_3 : lit "type" ≠ lit "components" := by decide
    have n2_3 : lit "internalType" ≠ lit "components" := by decide
    rw [onlyKeys_cons]
    simp only [deParamFields, field]
    by_cases h0 : k = lit "name"
    · subst h0
      simp only [if_pos, if_neg n0_1, if_neg n0_2, if_neg n0_3, paramKeys, List.mem_cons, true_or, or_true, true_and]
      rcases hs : st.name with _ | x
      · simp only [Option.isSome_none, Bool.false_eq_true, if_false, bind_ok_iff, ih, paramKeys]
        grind
      · simp
    by_cases h1 : k = lit "type"
    · subst h1
      simp only [if_pos, if_neg n0_1.symm, if_neg n1_2, if_neg n1_3, paramKeys, List.mem_cons, true_or, or_true, true_and]
      rcases hs : st.kind with _ | x
      · simp only [Option.isSome_none, Bool.false_eq_true, if_false, bind_ok_iff, ih, paramKeys]
        grind
      · simp
    by_cases h2 : k = lit "internalType"
    · subst h2
      simp only [if_pos, if_neg n0_2.symm, if_neg n1_2.symm, if_neg n2_3, paramKeys, List.mem_cons, true_or, or_true, true_and]
      rcases hs : st.internalType with _ | x
      · simp only [Option.isSome_none, Bool.false_eq_true, if_false, bind_ok_iff, ih, paramKeys]
        grind
      · simp
    by_cases h3 : k = lit "components"
    · subst h3
      simp only [if_pos, if_neg n0_3.symm, if_neg n1_3.symm, if_neg n2_3.symm, paramKeys, List.mem_cons, true_or, or_true, true_and]
      rcases hs : st.components with _ | x
      · simp only [Option.isSome_none, Bool.false_eq_true, if_false, bind_ok_iff, ih, paramKeys]
        grind
      · simp
    · simp only [if_neg h0, if_neg h1, if_neg h2, if_neg h3]
      cases mode with
      | direct => simp [paramKeys, h0, h1, h2, h3]
      | buffered => simp only [ih, true_or, true_and]

theorem deEventFields_iff (mode : Mode) (fs : List (Str × Json)) (st st' : FieldSt) :
    deEventFields mode fs st = .ok st' ↔
      onlyKeys eventKeys mode fs ∧
      field deString (lit "name") fs st.name = .ok st'.name ∧
      field deKind (lit "type") fs st.kind = .ok st'.kind ∧
      field (deComponents mode) (lit "components") fs st.components = .ok st'.components ∧
      field deBool (lit "indexed") fs st.indexed = .ok st'.indexed ∧
      st.internalType = st'.internalType := by
  induction fs generalizing st with
  | nil =>
    obtain ⟨x0, x1, x2, x3, x4⟩ := st
    obtain ⟨x0', x1', x2', x3', x4'⟩ := st'
    simp only [deEventFields, field, Res.ok.injEq, FieldSt.mk.injEq, onlyKeys_nil, true_and]
    grind
  | cons e fs ih =>
    obtain ⟨k, v⟩ := e
    have n0_1 : lit "name" ≠ lit "type" := by decide
    have n0_2 : lit "name" ≠ lit "components" := by decide
    have n0_3 : lit "name" ≠ lit "indexed" := by decide
    have n1_2 : lit "type" ≠ lit "components" := by decide
    have n1_3 : lit "type" ≠ lit "indexed" := by decide
    have n2_3 : lit "components" ≠ lit "indexed" := by decide
    rw [onlyKeys_cons]
    simp only [deEventFields, field]
    by_cases h0 : k = lit "name"
    · subst h0
      simp only [if_pos, if_neg n0_1, if_neg n0_2, if_neg n0_3, eventKeys, List.mem_cons, true_or, or_true, true_and]
      rcases hs : st.name with _ | x
      · simp only [Option.isSome_none, Bool.false_eq_true, if_false, bind_ok_iff, ih, eventKeys]
        grind
      · simp
    by_cases h1 : k = lit "type"
    · subst h1
      simp only [if_pos, if_neg n0_1.symm, if_neg n1_2, if_neg n1_3, eventKeys, List.mem_cons, true_or, or_true, true_and]
      rcases hs : st.kind with _ | x
      · simp only [Option.isSome_none, Bool.false_eq_true, if_false, bind_ok_iff, ih, eventKeys]
        grind
      · simp
    by_cases h2 : k = lit "components"
    · subst h2
      simp only [if_pos, if_neg n0_2.symm, if_neg n1_2.symm, if_neg n2_3, eventKeys, List.mem_cons, true_or, or_true, true_and]
      rcases hs : st.components with _ | x
      · simp only [Option.isSome_none, Bool.false_eq_true, if_false, bind_ok_iff, ih, eventKeys]
        grind
      · simp
    by_cases h3 : k = lit "indexed"
    · subst h3
      simp only [if_pos, if_neg n0_3.symm, if_neg n1_3.symm, if_neg n2_3.symm, eventKeys, List.mem_cons, true_or, or_true, true_and]
      rcases hs : st.indexed with _ | x
      · simp only [Option.isSome_none, Bool.false_eq_true, if_false, bind_ok_iff, ih, eventKeys]
        grind
      · simp
    · simp only [if_neg h0, if_neg h1, if_neg h2, if_neg h3]
      cases mode with
      | direct => simp [eventKeys, h0, h1, h2, h3]
      | buffered => simp only [ih, true_or, true_and]

theorem deFunctionFields_iff (mode : Mode) (fs : List (Str × Json)) (st st' : OpSt) :
    deFunctionFields mode fs st = .ok st' ↔
      field deName (lit "name") fs st.name = .ok st'.name ∧
      field (deArr (deParam mode)) (lit "inputs") fs st.inputs = .ok st'.inputs ∧
      field (deArr (deParam mode)) (lit "outputs") fs st.outputs = .ok st'.outputs ∧
      field deBool (lit "constant") fs st.constant = .ok st'.constant ∧
      field deStateMutability (lit "stateMutability") fs st.stateMutability = .ok st'.stateMutability ∧
      st.eventInputs = st'.eventInputs ∧
      st.anonymous = st'.anonymous := by
  induction fs generalizing st with
  | nil =>
    obtain ⟨x0, x1, x2, x3, x4, x5, x6⟩ := st
    obtain ⟨x0', x1', x2', x3', x4', x5', x6'⟩ := st'
    simp only [deFunctionFields, field, Res.ok.injEq, OpSt.mk.injEq]
  | cons e fs ih =>
    obtain ⟨k, v⟩ := e
    have n0_1 : lit "name" ≠ lit "inputs" := by decide
    have n0_2 : lit "name" ≠ lit "outputs" := by decide
    have n0_3 : lit "name" ≠ lit "constant" := by decide
    have n0_4 : lit "name" ≠ lit "stateMutability" := by decide
    have n1_2 : lit "inputs" ≠ lit "outputs" := by decide
    have n1_3 : lit "inputs" ≠ lit "constant" := by decide
    have n1_4 : lit "inputs" ≠ lit "stateMutability" := by decide
    have n2_3 : lit "outputs" ≠ lit "constant" := by decide
    have n2_4 : lit "outputs" ≠ lit "stateMutability" := by decide
    have n3_4 : lit "constant" ≠ lit "stateMutability" := by decide
    simp only [deFunctionFields, field]
    by_cases h0 : k = lit "name"
    · subst h0
      simp only [if_pos, if_neg n0_1, if_neg n0_2, if_neg n0_3, if_neg n0_4]
      rcases hs : st.name with _ | x
      · simp only [Option.isSome_none, Bool.false_eq_true, if_false, bind_ok_iff, ih]
        grind
      · simp
    by_cases h1 : k = lit "inputs"
    · subst h1
      simp only [if_pos, if_neg n0_1.symm, if_neg n1_2, if_neg n1_3, if_neg n1_4]
      rcases hs : st.inputs with _ | x
      · simp only [Option.isSome_none, Bool.false_eq_true, if_false, bind_ok_iff, ih]
        grind
      · simp
    by_cases h2 : k = lit "outputs"
    · subst h2
      simp only [if_pos, if_neg n0_2.symm, if_neg n1_2.symm, if_neg n2_3, if_neg n2_4]
      rcases hs : st.outputs with _ | x
      · simp only [Option.isSome_none, Bool.false_eq_true, if_false, bind_ok_iff, ih]
        grind
      · simp
    by_cases h3 : k = lit "constant"
    · subst h3
      simp only [if_pos, if_neg n0_3.symm, if_neg n1_3.symm, if_neg n2_3.symm, if_neg n3_4]
      rcases hs : st.constant with _ | x
      · simp only [Option.isSome_none, Bool.false_eq_true, if_false, bind_ok_iff, ih]
        grind
      · simp
    by_cases h4 : k = lit "stateMutability"
    · subst h4
      simp only [if_pos, if_neg n0_4.symm, if_neg n1_4.symm, if_neg n2_4.symm, if_neg n3_4.symm]
      rcases hs : st.stateMutability with _ | x
      · simp only [Option.isSome_none, Bool.false_eq_true, if_false, bind_ok_iff, ih]
        grind
      · simp
    · simp only [if_neg h0, if_neg h1, if_neg h2, if_neg h3, if_neg h4]
      exact ih st

theorem deEventOpFields_iff (mode : Mode) (fs : List (Str × Json)) (st st' : OpSt) :
    deEventOpFields mode fs st = .ok st' ↔
      field deName (lit "name") fs st.name = .ok st'.name ∧
      field (deArr (deEventParam mode)) (lit "inputs") fs st.eventInputs = .ok st'.eventInputs ∧
      field deBool (lit "anonymous") fs st.anonymous = .ok st'.anonymous ∧
      st.inputs = st'.inputs ∧
      st.outputs = st'.outputs ∧
      st.constant = st'.constant ∧
      st.stateMutability = st'.stateMutability := by
  induction fs generalizing st with
  | nil =>
    obtain ⟨x0, x1, x2, x3, x4, x5, x6⟩ := st
    obtain ⟨x0', x1', x2', x3', x4', x5', x6'⟩ := st'
    simp only [deEventOpFields, field, Res.ok.injEq, OpSt.mk.injEq]
    grind
  | cons e fs ih =>
    obtain ⟨k, v⟩ := e
    have n0_1 : lit "name" ≠ lit "inputs" := by decide
    have n0_2 : lit "name" ≠ lit "anonymous" := by decide
    have n1_2 : lit "inputs" ≠ lit "anonymous" := by decide
    simp only [deEventOpFields, field]
    by_cases h0 : k = lit "name"
    · subst h0
      simp only [if_pos, if_neg n0_1, if_neg n0_2]
      rcases hs : st.name with _ | x
      · simp only [Option.isSome_none, Bool.false_eq_true, if_false, bind_ok_iff, ih]
        grind
      · simp
    by_cases h1 : k = lit "inputs"
    · subst h1
      simp only [if_pos, if_neg n0_1.symm, if_neg n1_2]
      rcases hs : st.eventInputs with _ | x
      · simp only [Option.isSome_none, Bool.false_eq_true, if_false, bind_ok_iff, ih]
        grind
      · simp
    by_cases h2 : k = lit "anonymous"
    · subst h2
      simp only [if_pos, if_neg n0_2.symm, if_neg n1_2.symm]
      rcases hs : st.anonymous with _ | x
      · simp only [Option.isSome_none, Bool.false_eq_true, if_false, bind_ok_iff, ih]
        grind
      · simp
    · simp only [if_neg h0, if_neg h1, if_neg h2]
      exact ih st

theorem deConstructorFields_iff (mode : Mode) (fs : List (Str × Json)) (st st' : OpSt) :
    deConstructorFields mode fs st = .ok st' ↔
      field (deArr (deParam mode)) (lit "inputs") fs st.inputs = .ok st'.inputs ∧
      st.name = st'.name ∧
      st.outputs = st'.outputs ∧
      st.constant = st'.constant ∧
      st.stateMutability = st'.stateMutability ∧
      st.eventInputs = st'.eventInputs ∧
      st.anonymous = st'.anonymous := by
  induction fs generalizing st with
  | nil =>
    obtain ⟨x0, x1, x2, x3, x4, x5, x6⟩ := st
    obtain ⟨x0', x1', x2', x3', x4', x5', x6'⟩ := st'
    simp only [deConstructorFields, field, Res.ok.injEq, OpSt.mk.injEq]
    grind
  | cons e fs ih =>
    obtain ⟨k, v⟩ := e
    simp only [deConstructorFields, field]
    by_cases h0 : k = lit "inputs"
    · subst h0
      simp only [if_pos]
      rcases hs : st.inputs with _ | x
      · simp only [Option.isSome_none, Bool.false_eq_true, if_false, bind_ok_iff, ih]
        grind
      · simp
    · simp only [if_neg h0]
      exact ih st

/-- the tuple members described by reordered documents -/
def MemberEq (j j' : Json) : Prop :=
  (∀ m, OkEq (deTupleParam m j) (deTupleParam m j')) ∧ (∀ m, OkEq (deComponents m j) (deComponents m j'))

theorem fields_member (m : Mode) {fs hs : List (Str × Json)}
    (hk : onlyKeys paramKeys m fs ↔ onlyKeys paramKeys m hs)
    (h : ∀ k, OkEq (field deString k fs none) (field deString k hs none))
    (h' : ∀ k, OkEq (field deKind k fs none) (field deKind k hs none))
    (hc : OkEq (field (deComponents m) (lit "components") fs none) (field (deComponents m) (lit "components") hs none)) :
    OkEq (deTupleFields m fs {}) (deTupleFields m hs {}) := by
  intro st
  rw [deTupleFields_iff, deTupleFields_iff, hk, h _ _, h' _ _, h _ _, hc _]

mutual
theorem member_shuffled : ∀ {j j' : Json}, Shuffled j j' → MemberEq j j'
  | _, _, .refl _ => ⟨fun _ => OkEq.refl _, fun _ => OkEq.refl _⟩
  | _, _, .arr h => by
      refine ⟨fun m => ?_, fun m => ?_⟩
      · rw [deTupleParam, deTupleParam]
        · exact OkEq.refl _
        all_goals simp
      · rw [deComponents, deComponents]; exact members_shuffled h m
  | _, _, .obj (fs := fs) (gs := gs) (hs := hs) h hp => by
      refine ⟨fun m => ?_, fun m => ?_⟩
      · rw [deTupleParam, deTupleParam]
        refine OkEq.bind (fields_member m (onlyKeys_shuffled h hp)
          (fun k => field_shuffled _ k h hp (fun _ _ => deString_shuffled) _)
          (fun k => field_shuffled _ k h hp (fun _ _ => deKind_shuffled) _)
          ((entries_shuffled h m (lit "components") none).trans (field_perm _ _ hp _))) fun _ => OkEq.refl _
      · rw [deComponents, deComponents]
        · exact OkEq.refl _
        all_goals simp
theorem members_shuffled : ∀ {xs ys : List Json}, ShuffledAll xs ys → ∀ m, OkEq (deTupleParams m xs) (deTupleParams m ys)
  | _, _, .nil, _ => OkEq.refl _
  | _, _, .cons h t, m => by
      rw [deTupleParams, deTupleParams]
      exact ((member_shuffled h).1 m).bind fun _ => (members_shuffled t m).bind fun _ => OkEq.refl _
theorem entries_shuffled : ∀ {fs gs : List (Str × Json)}, ShuffledEntries fs gs → ∀ (m : Mode) (k : Str) (o : Option (List TupleParam)),
    OkEq (field (deComponents m) k fs o) (field (deComponents m) k gs o)
  | _, _, .nil, _, _, _ => OkEq.refl _
  | _, _, .cons h t, m, k, o => by
      rw [field, field]
      split
      · split
        · exact OkEq.refl _
        · exact ((member_shuffled h).2 m).bind fun x => entries_shuffled t m k _
      · exact entries_shuffled t m k o
end

theorem deComponents_shuffled (m : Mode) {v w : Json} (h : Shuffled v w) : OkEq (deComponents m v) (deComponents m w) :=
  (member_shuffled h).2 m

theorem deParam_shuffled (m : Mode) {v w : Json} (h : Shuffled v w) : OkEq (deParam m v) (deParam m w) := by
  cases h with
  | refl => exact OkEq.refl _
  | arr _ => exact OkEq.refl _
  | obj h hp =>
    rw [deParam, deParam]
    refine OkEq.bind (fun st => ?_) fun _ => OkEq.refl _
    rw [deParamFields_iff, deParamFields_iff, onlyKeys_shuffled h hp, field_shuffled _ _ h hp (fun _ _ => deString_shuffled) _ _,
      field_shuffled _ _ h hp (fun _ _ => deKind_shuffled) _ _, field_shuffled _ _ h hp (fun _ _ => deString_shuffled) _ _,
      field_shuffled _ _ h hp (fun _ _ => deComponents_shuffled m) _ _]

theorem deEventParam_shuffled (m : Mode) {v w : Json} (h : Shuffled v w) : OkEq (deEventParam m v) (deEventParam m w) := by
  cases h with
  | refl => exact OkEq.refl _
  | arr _ => exact OkEq.refl _
  | obj h hp =>
    rw [deEventParam, deEventParam]
    refine OkEq.bind (fun st => ?_) fun _ => OkEq.refl _
    rw [deEventFields_iff, deEventFields_iff, onlyKeys_shuffled h hp, field_shuffled _ _ h hp (fun _ _ => deString_shuffled) _ _,
      field_shuffled _ _ h hp (fun _ _ => deKind_shuffled) _ _, field_shuffled _ _ h hp (fun _ _ => deComponents_shuffled m) _ _,
      field_shuffled _ _ h hp (fun _ _ => deBool_shuffled) _ _]

theorem deVec_shuffled {α : Type} {de : Json → Res α} (hd : ∀ v w, Shuffled v w → OkEq (de v) (de w)) {xs ys : List Json}
    (h : ShuffledAll xs ys) : OkEq (deVec de xs) (deVec de ys) := by
  induction xs generalizing ys with
  | nil => cases h; exact OkEq.refl _
  | cons x xs ih =>
    cases h with
    | cons h t => rw [deVec, deVec]; exact (hd _ _ h).bind fun _ => (ih t).bind fun _ => OkEq.refl _

theorem deArr_shuffled {α : Type} {de : Json → Res α} (hd : ∀ v w, Shuffled v w → OkEq (de v) (de w)) (v w : Json)
    (h : Shuffled v w) : OkEq (deArr de v) (deArr de w) := by
  cases h with
  | refl => exact OkEq.refl _
  | arr h => exact deVec_shuffled hd h
  | obj _ _ => exact OkEq.refl _

/-- entries read in another order -/
def EntriesEq (fs hs : List (Str × Json)) : Prop := ∃ gs, ShuffledEntries fs gs ∧ gs.Perm hs

theorem deFunction_shuffled (m : Mode) {fs hs : List (Str × Json)} (h : EntriesEq fs hs) : OkEq (deFunction m fs) (deFunction m hs) := by
  obtain ⟨gs, h, hp⟩ := h
  rw [deFunction, deFunction]
  refine OkEq.bind (fun st => ?_) fun _ => OkEq.refl _
  have hi := fun (v w : Json) (h : Shuffled v w) => deArr_shuffled (fun _ _ => deParam_shuffled m) v w h
  rw [deFunctionFields_iff, deFunctionFields_iff, field_shuffled _ _ h hp (fun _ _ => deName_shuffled) _ _,
    field_shuffled _ _ h hp hi _ _, field_shuffled _ _ h hp hi _ _, field_shuffled _ _ h hp (fun _ _ => deBool_shuffled) _ _,
    field_shuffled _ _ h hp (fun _ _ => deStateMutability_shuffled) _ _]

theorem deEvent_shuffled (m : Mode) {fs hs : List (Str × Json)} (h : EntriesEq fs hs) : OkEq (deEvent m fs) (deEvent m hs) := by
  obtain ⟨gs, h, hp⟩ := h
  rw [deEvent, deEvent]
  refine OkEq.bind (fun st => ?_) fun _ => OkEq.refl _
  have hi := fun (v w : Json) (h : Shuffled v w) => deArr_shuffled (fun _ _ => deEventParam_shuffled m) v w h
  rw [deEventOpFields_iff, deEventOpFields_iff, field_shuffled _ _ h hp (fun _ _ => deName_shuffled) _ _,
    field_shuffled _ _ h hp hi _ _, field_shuffled _ _ h hp (fun _ _ => deBool_shuffled) _ _]

theorem deConstructor_shuffled (m : Mode) {fs hs : List (Str × Json)} (h : EntriesEq fs hs) : OkEq (deConstructor m fs) (deConstructor m hs) := by
  obtain ⟨gs, h, hp⟩ := h
  rw [deConstructor, deConstructor]
  refine OkEq.bind (fun st => ?_) fun _ => OkEq.refl _
  have hi := fun (v w : Json) (h : Shuffled v w) => deArr_shuffled (fun _ _ => deParam_shuffled m) v w h
  rw [deConstructorFields_iff, deConstructorFields_iff, field_shuffled _ _ h hp hi _ _]

/-- entries other than `type` -/
def untagged (fs : List (Str × Json)) : List (Str × Json) := fs.filter fun e => decide (e.1 ≠ lit "type")

theorem splitTag_iff (fs : List (Str × Json)) (o : Option Json) (acc : List (Str × Json)) (tag : Json) (rest : List (Str × Json)) :
    splitTag fs o acc = .ok (tag, rest) ↔ field .ok (lit "type") fs o = .ok (some tag) ∧ rest = acc ++ untagged fs := by
  induction fs generalizing o acc with
  | nil => cases o <;> simp [splitTag, field, untagged, eq_comm]
  | cons e fs ih =>
    obtain ⟨k, v⟩ := e
    unfold splitTag
    rw [field]
    by_cases hk : k = lit "type"
    · rw [if_pos hk, if_pos hk]
      cases o with
      | none =>
        show splitTag fs (some v) acc = _ ↔ _
        rw [ih]
        simp [untagged, hk, Bind.bind, Res.bind]
      | some t => simp
    · rw [if_neg hk, if_neg hk, ih]
      simp [untagged, hk]

theorem untagged_entries {fs gs : List (Str × Json)} (h : ShuffledEntries fs gs) : ShuffledEntries (untagged fs) (untagged gs) := by
  induction fs generalizing gs with
  | nil => cases h; exact .nil
  | cons e fs ih =>
    cases h with
    | cons hv h =>
      rename_i k x y ys
      unfold untagged at *
      by_cases hk : k = lit "type"
      · rw [List.filter_cons_of_neg (by simp [hk]), List.filter_cons_of_neg (by simp [hk])]; exact ih h
      · rw [List.filter_cons_of_pos (by simp [hk]), List.filter_cons_of_pos (by simp [hk])]; exact .cons hv (ih h)

theorem untagged_eq {fs hs : List (Str × Json)} (h : EntriesEq fs hs) : EntriesEq (untagged fs) (untagged hs) := by
  obtain ⟨gs, h, hp⟩ := h
  exact ⟨untagged gs, untagged_entries h, hp.filter _⟩

theorem field_some {α : Type} (de : Json → Res α) (k : Str) (fs : List (Str × Json)) (a : α) (r : Option α)
    (h : field de k fs (some a) = .ok r) : r = some a := by
  induction fs with
  | nil => cases h; rfl
  | cons e fs ih =>
    obtain ⟨k', v⟩ := e
    rw [field] at h
    split at h
    · cases h
    · exact ih h

theorem field_str (k : Str) (fs : List (Str × Json)) (o : Option Str) (s : Str) :
    field .ok k fs (o.map .str) = .ok (some (.str s)) ↔ field deString k fs o = .ok (some s) := by
  induction fs generalizing o with
  | nil => cases o <;> simp [field]
  | cons e fs ih =>
    obtain ⟨k', v⟩ := e
    rw [field, field]
    by_cases hk : k' = k
    · rw [if_pos hk, if_pos hk]
      cases o with
      | some a => simp
      | none =>
        show field .ok k fs (some v) = _ ↔ (deString v >>= _) = _
        cases v with
        | str x => exact ih (some x)
        | _ =>
          refine ⟨fun h => ?_, fun h => by cases h⟩
          have := field_some _ _ _ _ _ h
          cases this
    · rw [if_neg hk, if_neg hk]; exact ih o

/-- the operation of type `s` with the other entries `rest` -/
def deTagged (s : Str) (rest : List (Str × Json)) : Res Operation :=
  if s = lit "constructor" then do let c ← deConstructor .buffered rest; .ok (.constructor c)
  else if s = lit "function" then do let f ← deFunction .buffered rest; .ok (.function f)
  else if s = lit "event" then do let e ← deEvent .buffered rest; .ok (.event e)
  else if s = lit "fallback" then .ok .fallback
  else if s = lit "receive" then .ok .receive
  else .err .serdeJson

theorem deOperation_iff (fs : List (Str × Json)) (op : Operation) :
    deOperation (.obj fs) = .ok op ↔
      ∃ s, field deString (lit "type") fs none = .ok (some s) ∧ deTagged s (untagged fs) = .ok op := by
  rw [deOperation, bind_ok_iff]
  constructor
  · rintro ⟨⟨tag, rest⟩, h1, h2⟩
    rw [splitTag_iff] at h1
    obtain ⟨h1, rfl⟩ := h1
    cases tag with
    | str s => exact ⟨s, (field_str _ _ none _).1 h1, h2⟩
    | _ => cases h2
  · rintro ⟨s, h1, h2⟩
    exact ⟨(.str s, untagged fs), (splitTag_iff _ _ _ _ _).2 ⟨(field_str _ _ none _).2 h1, rfl⟩, h2⟩

theorem deTagged_shuffled (s : Str) {fs hs : List (Str × Json)} (h : EntriesEq fs hs) : OkEq (deTagged s fs) (deTagged s hs) := by
  unfold deTagged
  split
  · exact (deConstructor_shuffled _ h).bind fun _ => OkEq.refl _
  split
  · exact (deFunction_shuffled _ h).bind fun _ => OkEq.refl _
  split
  · exact (deEvent_shuffled _ h).bind fun _ => OkEq.refl _
  exact OkEq.refl _

theorem nextElement_shuffled {α β : Type} {de : Json → Res α} (hd : ∀ v w, Shuffled v w → OkEq (de v) (de w))
    {xs ys : List Json} (h : ShuffledAll xs ys) {f g : Option α × List Json → Res β}
    (hf : ∀ o as bs, ShuffledAll as bs → OkEq (f (o, as)) (g (o, bs))) :
    OkEq (nextElement de xs >>= f) (nextElement de ys >>= g) := by
  cases h with
  | nil => exact hf _ _ _ .nil
  | cons h ht =>
    intro x
    simp only [nextElement, bind_ok_iff, Res.ok.injEq]
    constructor
    · rintro ⟨_, ⟨a, h1, rfl⟩, h2⟩; exact ⟨_, ⟨a, (hd _ _ h _).1 h1, rfl⟩, (hf _ _ _ ht _).1 h2⟩
    · rintro ⟨_, ⟨a, h1, rfl⟩, h2⟩; exact ⟨_, ⟨a, (hd _ _ h _).2 h1, rfl⟩, (hf _ _ _ ht _).2 h2⟩

theorem endOfSeq_shuffled {xs ys : List Json} (h : ShuffledAll xs ys) : OkEq (endOfSeq xs) (endOfSeq ys) := by
  cases h <;> exact OkEq.refl _

theorem deFunctionSeq_shuffled (m : Mode) {xs ys : List Json} (h : ShuffledAll xs ys) :
    OkEq (deFunctionSeq m xs) (deFunctionSeq m ys) := by
  have hi := deArr_shuffled (de := deParam m) (fun _ _ => deParam_shuffled m)
  refine nextElement_shuffled (fun _ _ => deName_shuffled) h fun _ _ _ h => (OkEq.refl _).bind fun _ => ?_
  refine nextElement_shuffled hi h fun _ _ _ h => (OkEq.refl _).bind fun _ => ?_
  refine nextElement_shuffled hi h fun _ _ _ h => (OkEq.refl _).bind fun _ => ?_
  refine nextElement_shuffled (fun _ _ => deBool_shuffled) h fun _ _ _ h => ?_
  refine nextElement_shuffled (fun _ _ => deStateMutability_shuffled) h fun _ _ _ h => ?_
  exact (endOfSeq_shuffled h).bind fun _ => OkEq.refl _

theorem deEventSeq_shuffled (m : Mode) {xs ys : List Json} (h : ShuffledAll xs ys) :
    OkEq (deEventSeq m xs) (deEventSeq m ys) := by
  have hi := deArr_shuffled (de := deEventParam m) (fun _ _ => deEventParam_shuffled m)
  refine nextElement_shuffled (fun _ _ => deName_shuffled) h fun _ _ _ h => (OkEq.refl _).bind fun _ => ?_
  refine nextElement_shuffled hi h fun _ _ _ h => (OkEq.refl _).bind fun _ => ?_
  refine nextElement_shuffled (fun _ _ => deBool_shuffled) h fun _ _ _ h => (OkEq.refl _).bind fun _ => ?_
  exact (endOfSeq_shuffled h).bind fun _ => OkEq.refl _

theorem deConstructorSeq_shuffled (m : Mode) {xs ys : List Json} (h : ShuffledAll xs ys) :
    OkEq (deConstructorSeq m xs) (deConstructorSeq m ys) := by
  have hi := deArr_shuffled (de := deParam m) (fun _ _ => deParam_shuffled m)
  refine nextElement_shuffled hi h fun _ _ _ h => (OkEq.refl _).bind fun _ => ?_
  exact (endOfSeq_shuffled h).bind fun _ => OkEq.refl _

theorem deOperationSeq_shuffled {xs ys : List Json} (h : ShuffledAll xs ys) :
    OkEq (deOperationSeq xs) (deOperationSeq ys) := by
  cases h with
  | nil => exact OkEq.refl _
  | @cons x y xs ys hv h =>
    have key : ∀ s, OkEq (deOperationSeq (.str s :: xs)) (deOperationSeq (.str s :: ys)) := by
      intro s
      rw [deOperationSeq, deOperationSeq]
      split
      · exact (deConstructorSeq_shuffled _ h).bind fun _ => OkEq.refl _
      split
      · exact (deFunctionSeq_shuffled _ h).bind fun _ => OkEq.refl _
      split
      · exact (deEventSeq_shuffled _ h).bind fun _ => OkEq.refl _
      split
      · exact (endOfSeq_shuffled h).bind fun _ => OkEq.refl _
      split
      · exact (endOfSeq_shuffled h).bind fun _ => OkEq.refl _
      exact OkEq.refl _
    cases hv with
    | refl =>
      cases x with
      | str s => exact key s
      | _ => exact OkEq.refl _
    | arr => exact OkEq.refl _
    | obj => exact OkEq.refl _

theorem deOperation_shuffled {v w : Json} (h : Shuffled v w) : OkEq (deOperation v) (deOperation w) := by
  cases h with
  | refl => exact OkEq.refl _
  | arr h => exact deOperationSeq_shuffled h
  | obj h hp =>
    intro op
    rw [deOperation_iff, deOperation_iff]
    refine exists_congr fun s => ?_
    rw [field_shuffled _ _ h hp (fun _ _ => deString_shuffled) _ _, deTagged_shuffled s (untagged_eq ⟨_, h, hp⟩) _]

theorem deOperations_shuffled {xs ys : List Json} (h : ShuffledAll xs ys) (c : Contract) :
    OkEq (deOperations xs c) (deOperations ys c) := by
  induction xs generalizing ys c with
  | nil => cases h; exact OkEq.refl _
  | cons x xs ih =>
    cases h with
    | cons h t => rw [deOperations, deOperations]; exact (deOperation_shuffled h).bind fun op => ih t _

theorem deContract_shuffled {v w : Json} (h : Shuffled v w) : OkEq (deContract v) (deContract w) := by
  cases h with
  | refl => exact OkEq.refl _
  | arr h => exact deOperations_shuffled h _
  | obj _ _ => exact OkEq.refl _

/-! ## Undefined entries -/

theorem comp_name : lit "components" ≠ lit "name" := by decide
theorem comp_type : lit "components" ≠ lit "type" := by decide
theorem comp_internal : lit "components" ≠ lit "internalType" := by decide

mutual
theorem deTupleParam_tidy : ∀ j, deTupleParam .buffered (tidyMember j) = deTupleParam .buffered j
  | .obj fs => by rw [tidyMember, deTupleParam, deTupleParam, deTupleFields_tidy fs]
  | .null => rfl
  | .bool _ => rfl
  | .num _ => rfl
  | .str _ => rfl
  | .arr _ => rfl
theorem deTupleFields_tidy : ∀ fs st, deTupleFields .buffered (tidyMemberEntries fs) st = deTupleFields .buffered fs st
  | [], _ => rfl
  | (k, v) :: fs, st => by
      have ih := deTupleFields_tidy fs
      rw [tidyMemberEntries]
      by_cases h4 : k = lit "components"
      · subst h4
        rw [if_pos rfl]
        simp only [deTupleFields, if_neg comp_name, if_neg comp_type, if_neg comp_internal, ih, deComponents_tidy v]
      rw [if_neg h4]
      by_cases hk : k ∈ [lit "name", lit "type", lit "internalType"]
      · rw [if_pos hk]
        simp only [deTupleFields, ih]
      · rw [if_neg hk, ih]
        simp only [List.mem_cons, List.not_mem_nil, or_false, not_or] at hk
        simp only [deTupleFields, if_neg hk.1, if_neg hk.2.1, if_neg hk.2.2, if_neg h4]
theorem deComponents_tidy : ∀ j, deComponents .buffered (tidyComponents j) = deComponents .buffered j
  | .arr xs => by rw [tidyComponents, deComponents, deComponents, deTupleParams_tidy xs]
  | .null => rfl
  | .bool _ => rfl
  | .num _ => rfl
  | .str _ => rfl
  | .obj _ => rfl
theorem deTupleParams_tidy : ∀ xs, deTupleParams .buffered (tidyMembers xs) = deTupleParams .buffered xs
  | [] => rfl
  | x :: xs => by rw [tidyMembers, deTupleParams, deTupleParams, deTupleParam_tidy x, deTupleParams_tidy xs]
end

theorem deParam_tidy (j : Json) : deParam .buffered (tidyParam j) = deParam .buffered j := by
  cases j with
  | obj fs =>
    rw [tidyParam, deParam, deParam]
    congr 1
    generalize ({} : FieldSt) = st
    induction fs generalizing st with
    | nil => rfl
    | cons e fs ih =>
      obtain ⟨k, v⟩ := e
      rw [tidyEntries]
      split
      · by_cases h4 : k = lit "components"
        · subst h4
          simp only [if_pos, deParamFields, if_neg comp_name, if_neg comp_type, if_neg comp_internal, ih, deComponents_tidy v]
        · simp only [if_neg h4, deParamFields, ih]
      · rename_i hk
        simp only [List.mem_cons, List.not_mem_nil, or_false, not_or] at hk
        rw [ih]
        simp only [deParamFields, if_neg hk.1, if_neg hk.2.1, if_neg hk.2.2.1, if_neg hk.2.2.2]
  | _ => rfl

theorem deEventParam_tidy (j : Json) : deEventParam .buffered (tidyEventParam j) = deEventParam .buffered j := by
  cases j with
  | obj fs =>
    rw [tidyEventParam, deEventParam, deEventParam]
    congr 1
    generalize ({} : FieldSt) = st
    induction fs generalizing st with
    | nil => rfl
    | cons e fs ih =>
      obtain ⟨k, v⟩ := e
      rw [tidyEntries]
      split
      · by_cases h4 : k = lit "components"
        · subst h4
          simp only [if_pos, deEventFields, if_neg comp_name, if_neg comp_type, ih, deComponents_tidy v]
        · simp only [if_neg h4, deEventFields, ih]
      · rename_i hk
        simp only [List.mem_cons, List.not_mem_nil, or_false, not_or] at hk
        rw [ih]
        simp only [deEventFields, if_neg hk.1, if_neg hk.2.1, if_neg hk.2.2.1, if_neg hk.2.2.2]
  | _ => rfl

theorem deArr_tidy {α : Type} (de : Json → Res α) (sub : Json → Json) (h : ∀ j, de (sub j) = de j) (j : Json) :
    deArr de (tidyArray sub j) = deArr de j := by
  cases j with
  | arr xs =>
    rw [tidyArray, deArr, deArr]
    induction xs with
    | nil => rfl
    | cons x xs ih => rw [List.map_cons, deVec, deVec, h, ih]
  | _ => rfl

theorem deFunctionFields_tidy (keys : List Str) (sub : Str → Json → Json) (fs : List (Str × Json)) (st : OpSt)
    (hk : ∀ k ∈ [lit "name", lit "inputs", lit "outputs", lit "constant", lit "stateMutability"], k ∈ keys)
    (hi : ∀ k ∈ [lit "inputs", lit "outputs"], ∀ v, deArr (deParam .buffered) (sub k v) = deArr (deParam .buffered) v)
    (hs : ∀ k ∈ [lit "name", lit "constant", lit "stateMutability"], ∀ v, sub k v = v) :
    deFunctionFields .buffered (tidyEntries keys sub fs) st = deFunctionFields .buffered fs st := by
  induction fs generalizing st with
  | nil => rfl
  | cons e fs ih =>
    obtain ⟨k, v⟩ := e
    rw [tidyEntries]
    split
    · simp only [deFunctionFields, ih]
      by_cases h1 : k = lit "name"
      · rw [if_pos h1, if_pos h1, hs k (by simp [h1])]
      rw [if_neg h1, if_neg h1]
      by_cases h2 : k = lit "inputs"
      · rw [if_pos h2, if_pos h2, hi k (by simp [h2])]
      rw [if_neg h2, if_neg h2]
      by_cases h3 : k = lit "outputs"
      · rw [if_pos h3, if_pos h3, hi k (by simp [h3])]
      rw [if_neg h3, if_neg h3]
      by_cases h4 : k = lit "constant"
      · rw [if_pos h4, if_pos h4, hs k (by simp [h4])]
      rw [if_neg h4, if_neg h4]
      by_cases h5 : k = lit "stateMutability"
      · rw [if_pos h5, if_pos h5, hs k (by simp [h5])]
      rw [if_neg h5, if_neg h5]
    · rename_i hn
      have : ∀ l ∈ [lit "name", lit "inputs", lit "outputs", lit "constant", lit "stateMutability"], k ≠ l :=
        fun l hl he => hn (he ▸ hk l hl)
      simp only [List.mem_cons, List.not_mem_nil, or_false, forall_eq_or_imp, forall_eq] at this
      obtain ⟨n1, n2, n3, n4, n5⟩ := this
      rw [ih]
      simp only [deFunctionFields, if_neg n1, if_neg n2, if_neg n3, if_neg n4, if_neg n5]

theorem deEventOpFields_tidy (keys : List Str) (sub : Str → Json → Json) (fs : List (Str × Json)) (st : OpSt)
    (hk : ∀ k ∈ [lit "name", lit "inputs", lit "anonymous"], k ∈ keys)
    (hi : ∀ v, deArr (deEventParam .buffered) (sub (lit "inputs") v) = deArr (deEventParam .buffered) v)
    (hs : ∀ k ∈ [lit "name", lit "anonymous"], ∀ v, sub k v = v) :
    deEventOpFields .buffered (tidyEntries keys sub fs) st = deEventOpFields .buffered fs st := by
  induction fs generalizing st with
  | nil => rfl
  | cons e fs ih =>
    obtain ⟨k, v⟩ := e
    rw [tidyEntries]
    split
    · simp only [deEventOpFields, ih]
      by_cases h1 : k = lit "name"
      · rw [if_pos h1, if_pos h1, hs k (by simp [h1])]
      rw [if_neg h1, if_neg h1]
      by_cases h2 : k = lit "inputs"
      · rw [if_pos h2, if_pos h2, h2, hi]
      rw [if_neg h2, if_neg h2]
      by_cases h3 : k = lit "anonymous"
      · rw [if_pos h3, if_pos h3, hs k (by simp [h3])]
      rw [if_neg h3, if_neg h3]
    · rename_i hn
      have : ∀ l ∈ [lit "name", lit "inputs", lit "anonymous"], k ≠ l :=
        fun l hl he => hn (he ▸ hk l hl)
      simp only [List.mem_cons, List.not_mem_nil, or_false, forall_eq_or_imp, forall_eq] at this
      obtain ⟨n1, n2, n3⟩ := this
      rw [ih]
      simp only [deEventOpFields, if_neg n1, if_neg n2, if_neg n3]

theorem deConstructorFields_tidy (keys : List Str) (sub : Str → Json → Json) (fs : List (Str × Json)) (st : OpSt)
    (hk : lit "inputs" ∈ keys)
    (hi : ∀ v, deArr (deParam .buffered) (sub (lit "inputs") v) = deArr (deParam .buffered) v) :
    deConstructorFields .buffered (tidyEntries keys sub fs) st = deConstructorFields .buffered fs st := by
  induction fs generalizing st with
  | nil => rfl
  | cons e fs ih =>
    obtain ⟨k, v⟩ := e
    rw [tidyEntries]
    split
    · simp only [deConstructorFields, ih]
      by_cases h2 : k = lit "inputs"
      · rw [if_pos h2, if_pos h2, h2, hi]
      rw [if_neg h2, if_neg h2]
    · rename_i hn
      have : k ≠ lit "inputs" := fun he => hn (he ▸ hk)
      rw [ih]
      simp only [deConstructorFields, if_neg this]

/-- the entries of an operation, tidied before or after its tag is taken out -/
theorem splitTag_tidy (keys : List Str) (sub : Str → Json → Json) (hk : lit "type" ∈ keys) (hs : ∀ v, sub (lit "type") v = v)
    (fs : List (Str × Json)) (o : Option Json) (acc : List (Str × Json)) :
    splitTag (tidyEntries keys sub fs) o (tidyEntries keys sub acc) =
      (splitTag fs o acc >>= fun r => .ok (r.1, tidyEntries keys sub r.2)) := by
  have happ : ∀ xs ys, tidyEntries keys sub (xs ++ ys) = tidyEntries keys sub xs ++ tidyEntries keys sub ys := by
    intro xs ys
    induction xs with
    | nil => rfl
    | cons e xs ih =>
      obtain ⟨k, v⟩ := e
      rw [List.cons_append, tidyEntries, tidyEntries, ih]
      split <;> rfl
  induction fs generalizing o acc with
  | nil => cases o <;> rfl
  | cons e fs ih =>
    obtain ⟨k, v⟩ := e
    rw [tidyEntries]
    by_cases ht : k = lit "type"
    · subst ht
      rw [if_pos hk, hs]
      cases o with
      | some t => simp [splitTag, Bind.bind, Res.bind]
      | none =>
        simp only [splitTag, if_pos]
        exact ih _ _
    · by_cases hm : k ∈ keys
      · rw [if_pos hm]
        simp only [splitTag, if_neg ht]
        rw [← ih, happ]
        simp [tidyEntries, hm]
      · rw [if_neg hm]
        conv_rhs => simp only [splitTag, if_neg ht]
        rw [← ih, happ]
        simp [tidyEntries, hm]

theorem splitTag_typeOf (fs : List (Str × Json)) (acc : List (Str × Json)) (s : Str) (rest : List (Str × Json))
    (h : splitTag fs none acc = .ok (.str s, rest)) : typeOf fs = some s := by
  induction fs generalizing acc with
  | nil => cases h
  | cons e fs ih =>
    obtain ⟨k, v⟩ := e
    unfold splitTag at h
    unfold typeOf
    by_cases ht : k = lit "type"
    · rw [if_pos ht] at h ⊢
      have := (splitTag_iff _ _ _ _ _).1 h
      have := field_some _ _ _ _ _ this.1
      cases this; rfl
    · rw [if_neg ht] at h ⊢
      exact ih _ h

theorem next_same {α β : Type} {de : Json → Res α} {x y : Json} (h : de x = de y) (xs : List Json)
    (f : Option α × List Json → Res β) : (nextElement de (x :: xs) >>= f) = (nextElement de (y :: xs) >>= f) := by
  rw [next_cons, next_cons, h]

theorem deOperationSeq_tidy (type : Str) (xs : List Json) :
    deOperationSeq (.str type :: tidyPlaces type xs) = deOperationSeq (.str type :: xs) := by
  have hp : ∀ v, deArr (deParam .buffered) (tidyArray tidyParam v) = deArr (deParam .buffered) v := deArr_tidy _ _ deParam_tidy
  have he : ∀ v, deArr (deEventParam .buffered) (tidyArray tidyEventParam v) = deArr (deEventParam .buffered) v :=
    deArr_tidy _ _ deEventParam_tidy
  rcases xs with _ | ⟨x, xs⟩
  · rfl
  rw [tidyPlaces]
  split
  · rename_i h; subst h
    rw [deOperationSeq, deOperationSeq, if_pos rfl, if_pos rfl, deConstructorSeq, deConstructorSeq, next_same (hp x)]
  split
  · rename_i h; subst h
    have e : ∀ ys, deOperationSeq (.str (lit "event") :: ys) = (deEventSeq .buffered ys >>= fun e => .ok (.event e)) := by
      intro ys; rw [deOperationSeq, if_neg (by decide), if_neg (by decide), if_pos rfl]
    rw [e, e]
    rcases xs with _ | ⟨y, xs⟩
    · rfl
    simp only [List.take_succ_cons, List.take_zero, List.map_cons, List.map_nil, List.drop_succ_cons, List.drop_zero,
      List.cons_append, List.nil_append, deEventSeq, next_cons, he]
  split
  · rename_i h; subst h
    have e : ∀ ys, deOperationSeq (.str (lit "function") :: ys) =
        (deFunctionSeq .buffered ys >>= fun e => .ok (.function e)) := by
      intro ys; rw [deOperationSeq, if_neg (by decide), if_pos rfl]
    rw [e, e]
    rcases xs with _ | ⟨y, _ | ⟨z, xs⟩⟩
    · rfl
    · simp only [List.take_succ_cons, List.take_nil, List.map_cons, List.map_nil, List.drop_succ_cons, List.drop_nil,
        List.cons_append, List.nil_append, deFunctionSeq, next_cons, hp]
    · simp only [List.take_succ_cons, List.take_zero, List.map_cons, List.map_nil, List.drop_succ_cons, List.drop_zero,
        List.cons_append, List.nil_append, deFunctionSeq, next_cons, hp]
  · rfl

theorem deOperation_tidy (j : Json) : deOperation (tidyOperation j) = deOperation j := by
  cases j with
  | obj fs =>
    rw [tidyOperation]
    rcases ht : typeOf fs with _ | type
    · rfl
    dsimp only
    rw [deOperation, deOperation]
    have hkeys : lit "type" ∈ operationKeys type := by
      unfold operationKeys; split
      · simp
      split
      · simp
      split <;> simp
    refine Eq.trans (congrArg (· >>= _) (splitTag_tidy _ _ hkeys (by
      intro v; rw [if_neg (by decide), if_neg (by decide)]) fs none [])) ?_
    dsimp only
    rw [Res.bind_assoc]
    rcases hs : splitTag fs none [] with ⟨tag, rest⟩ | x | _
    · rw [Res.ok_bind, Res.ok_bind, Res.ok_bind]
      cases tag with
      | str s =>
        have := splitTag_typeOf _ _ _ _ hs
        rw [ht] at this
        cases this
        dsimp only
        by_cases h1 : type = lit "constructor"
        · subst h1
          rw [if_pos rfl, if_pos rfl, deConstructor, deConstructor, deConstructorFields_tidy]
          · decide
          · intro v
            rw [if_pos rfl, if_neg (by decide)]
            exact deArr_tidy _ _ deParam_tidy v
        rw [if_neg h1, if_neg h1]
        by_cases h2 : type = lit "function"
        · subst h2
          rw [if_pos rfl, if_pos rfl, deFunction, deFunction, deFunctionFields_tidy]
          · decide
          · intro k hk v
            rw [if_neg (show lit "function" ≠ lit "event" by decide)]
            simp only [List.mem_cons, List.not_mem_nil, or_false] at hk
            rcases hk with rfl | rfl
            · rw [if_pos rfl]; exact deArr_tidy _ _ deParam_tidy v
            · rw [if_neg (by decide), if_pos rfl]; exact deArr_tidy _ _ deParam_tidy v
          · intro k hk v
            simp only [List.mem_cons, List.not_mem_nil, or_false] at hk
            rcases hk with rfl | rfl | rfl <;> rw [if_neg (by decide), if_neg (by decide)]
        rw [if_neg h2, if_neg h2]
        by_cases h3 : type = lit "event"
        · subst h3
          rw [if_pos rfl, if_pos rfl, if_pos rfl, deEvent, deEvent, deEventOpFields_tidy]
          · decide
          · intro v
            rw [if_pos rfl]
            exact deArr_tidy _ _ deEventParam_tidy v
          · intro k hk v
            simp only [List.mem_cons, List.not_mem_nil, or_false] at hk
            rcases hk with rfl | rfl <;> rw [if_neg (by decide), if_neg (by decide)]
        rw [if_neg h3, if_neg h3]
      | _ => rfl
    · rfl
    · rfl
  | arr xs =>
    rcases xs with _ | ⟨x, xs⟩
    · rfl
    cases x with
    | str s => exact deOperationSeq_tidy s xs
    | _ => rfl
  | _ => rfl

theorem deContract_tidy (j : Json) : deContract (tidyContract j) = deContract j := by
  cases j with
  | arr js =>
    rw [tidyContract, tidyArray, deContract, deContract]
    generalize ({} : Contract) = c
    induction js generalizing c with
    | nil => rfl
    | cons j js ih =>
      rw [List.map_cons, deOperations, deOperations, deOperation_tidy]
      congr 1
      funext op
      exact ih _
  | _ => rfl

end Ethabi

import Verif.Model.JsonOn
import Verif.Spec.TargetJson
/-! Lemmas for C120: reading ABI JSON with the type reader of another target. -/
namespace Ethabi.JsonOn
open Ethabi.Spec

/-- the left side is the right side, with a good result, or refused for the reason `P` -/
def Cut (P : Prop) {α : Type} (G : α → Prop) (a b : Res α) : Prop :=
  (a = b ∧ ∀ x, a = .ok x → G x) ∨ (a = .err .serdeJson ∧ P)

theorem Cut.ok {P : Prop} {α : Type} {G : α → Prop} {x : α} (h : G x) : Cut P G (.ok x) (.ok x) :=
  .inl ⟨rfl, fun y e => by cases e; exact h⟩

theorem Cut.err {P : Prop} {α : Type} {G : α → Prop} {e : Err} : Cut P G (.err e) (.err e) :=
  .inl ⟨rfl, fun y e => (nomatch e)⟩

theorem Cut.same {P : Prop} {α : Type} {a : Res α} : Cut P (fun _ => True) a a := .inl ⟨rfl, fun _ _ => trivial⟩

theorem Cut.bind {P : Prop} {α β : Type} {G : α → Prop} {G' : β → Prop} {a b : Res α} {f g : α → Res β} (h : Cut P G a b)
    (k : ∀ x, G x → Cut P G' (f x) (g x)) : Cut P G' (a >>= f) (b >>= g) := by
  rcases h with ⟨e, h⟩ | ⟨e, h⟩
  · subst e
    cases a with
    | ok x => exact k x (h x rfl)
    | err e => exact Cut.err
    | panic => exact .inl ⟨rfl, fun y e => (nomatch e)⟩
  · subst e
    exact .inr ⟨rfl, h⟩

theorem Cut.ite {P : Prop} {α : Type} {G : α → Prop} {a b a' b' : Res α} {c : Prop} [Decidable c] (h : c → Cut P G a b)
    (h' : ¬ c → Cut P G a' b') : Cut P G (if c then a else a') (if c then b else b') := by
  by_cases hc : c
  · rw [if_pos hc, if_pos hc]; exact h hc
  · rw [if_neg hc, if_neg hc]; exact h' hc

theorem Cut.weaken {P : Prop} {α : Type} {G G' : α → Prop} {a b : Res α} (h : Cut P G a b) (hg : ∀ x, G x → G' x) : Cut P G' a b := by
  rcases h with ⟨e, h⟩ | h
  · exact .inl ⟨e, fun x hx => hg x (h x hx)⟩
  · exact .inr h

/-- the text is read alike, to a good type, or refused for the reason `P` -/
def Fine (bits : Nat) (P : Prop) (Z : ParamType → Prop) (s : Str) : Prop :=
  (readOn bits s = read s ∧ ∀ t, read s = .ok t → Z t) ∨ ((∃ e, readOn bits s = .err e) ∧ P)

/-- all type texts of the JSON are fine -/
def FineIn (bits : Nat) (P : Prop) (Z : ParamType → Prop) (j : Json) : Prop := ∀ s, HasTypeText s j → Fine bits P Z s

def FineFields (bits : Nat) (P : Prop) (Z : ParamType → Prop) (fs : List (Str × Json)) : Prop :=
  (∀ s, (lit "type", .str s) ∈ fs → Fine bits P Z s) ∧ ∀ kx ∈ fs, FineIn bits P Z kx.2

def FineAll (bits : Nat) (P : Prop) (Z : ParamType → Prop) (xs : List Json) : Prop := ∀ x ∈ xs, FineIn bits P Z x

section
variable {bits : Nat} {P : Prop} {Z : ParamType → Prop}

theorem fineFields_of {fs : List (Str × Json)} (h : FineIn bits P Z (.obj fs)) : FineFields bits P Z fs :=
  ⟨fun s hs => h s (.here fs hs), fun kx hk s hs => h s (.inside fs kx.1 kx.2 hk hs)⟩

theorem fineAll_of {xs : List Json} (h : FineIn bits P Z (.arr xs)) : FineAll bits P Z xs := fun x hx s hs => h s (.element xs x hx hs)

theorem FineFields.tail {kv : Str × Json} {fs : List (Str × Json)} (h : FineFields bits P Z (kv :: fs)) : FineFields bits P Z fs :=
  ⟨fun s hs => h.1 s (List.mem_cons_of_mem _ hs), fun kx hk => h.2 kx (List.mem_cons_of_mem _ hk)⟩

theorem FineFields.value {k : Str} {v : Json} {fs : List (Str × Json)} (h : FineFields bits P Z ((k, v) :: fs)) : FineIn bits P Z v :=
  h.2 (k, v) List.mem_cons_self

theorem FineAll.head {x : Json} {xs : List Json} (h : FineAll bits P Z (x :: xs)) : FineIn bits P Z x := h x List.mem_cons_self
theorem FineAll.tail {x : Json} {xs : List Json} (h : FineAll bits P Z (x :: xs)) : FineAll bits P Z xs :=
  fun y hy => h y (List.mem_cons_of_mem _ hy)

theorem kind {k : Str} {v : Json} {fs : List (Str × Json)} (hk : k = lit "type") (h : FineFields bits P Z ((k, v) :: fs)) :
    Cut P Z (deKindOn bits v) (deKind v) := by
  subst hk
  cases v with
  | str s =>
    have hs := h.1 s List.mem_cons_self
    simp only [deKindOn, deKind]
    rcases hs with ⟨e, hz⟩ | ⟨⟨e, he⟩, hp⟩
    · rw [e]
      cases hr : read s with
      | ok t => exact Cut.ok (hz t hr)
      | err e => exact Cut.err
      | panic => exact .inl ⟨rfl, fun y e => (nomatch e)⟩
    · rw [he]; exact .inr ⟨rfl, hp⟩
  | _ => exact Cut.err

variable (hz : ∀ k more, Z k → (∀ m ∈ more, Z m) → Z (extendInner more k))

/-- the types in the state are good -/
def GoodSt (Z : ParamType → Prop) (st : FieldSt) : Prop :=
  (∀ t, st.kind = some t → Z t) ∧ ∀ l, st.components = some l → ∀ p ∈ l, Z p.kind

include hz in
theorem components {st : FieldSt} (h : GoodSt Z st) {k : ParamType} (hk : Z k) :
    Cut P Z (setTupleComponents k (st.components.map (·.map (·.kind)))) (setTupleComponents k (st.components.map (·.map (·.kind)))) := by
  refine .inl ⟨rfl, fun x hx => ?_⟩
  unfold setTupleComponents at hx
  cases hi : innerTuple k with
  | none => rw [hi] at hx; cases hx; exact hk
  | some ts =>
    rw [hi] at hx
    cases hc : st.components with
    | none => rw [hc] at hx; exact (nomatch hx)
    | some l =>
      rw [hc] at hx
      cases hx
      refine hz k _ hk fun m hm => ?_
      obtain ⟨p, hp, rfl⟩ := List.mem_map.1 hm
      exact h.2 l hc p hp

theorem needed {α : Type} {o : Option α} {G : α → Prop} (h : ∀ x, o = some x → G x) : Cut P G (required o) (required o) := by
  cases o with
  | none => exact Cut.err
  | some x => exact Cut.ok (h x rfl)

include hz in
theorem finish {st : FieldSt} (h : GoodSt Z st) : Cut P (fun p : TupleParam => Z p.kind) (finishTupleParam st) (finishTupleParam st) := by
  unfold finishTupleParam
  refine Cut.bind (G := Z) (needed h.1) fun k hk => ?_
  refine Cut.bind (G := Z) (components hz h hk) fun k hk => ?_
  exact Cut.ok hk

set_option linter.unusedSectionVars false
include hz
mutual
theorem tupleParam (mode : Mode) : ∀ (j : Json), FineIn bits P Z j →
    Cut P (fun p : TupleParam => Z p.kind) (deTupleParamOn bits mode j) (deTupleParam mode j)
  | .obj fs, h => by
    rw [deTupleParamOn, deTupleParam]
    exact Cut.bind (tupleFields mode fs (fineFields_of h) {} ⟨fun _ e => (nomatch e), fun _ e => (nomatch e)⟩) fun st hst => finish hz hst
  | .null, _ | .bool _, _ | .str _, _ | .arr _, _ | .num .., _ => by rw [deTupleParamOn, deTupleParam] <;> first | exact Cut.err | simp
theorem tupleFields (mode : Mode) : ∀ (fs : List (Str × Json)), FineFields bits P Z fs → ∀ st, GoodSt Z st →
    Cut P (GoodSt Z) (deTupleFieldsOn bits mode fs st) (deTupleFields mode fs st)
  | [], _, st, hst => by rw [deTupleFieldsOn, deTupleFields]; exact Cut.ok hst
  | (k, v) :: fs, h, st, hst => by
    rw [deTupleFieldsOn.eq_def, deTupleFields.eq_def]; dsimp only
    refine Cut.ite (fun _ => Cut.ite (fun _ => Cut.err) fun _ => ?_) fun _ => Cut.ite (fun hk => Cut.ite (fun _ => Cut.err) fun _ => ?_)
      fun _ => Cut.ite (fun _ => Cut.ite (fun _ => Cut.err) fun _ => ?_) fun _ => Cut.ite (fun _ => Cut.ite (fun _ => Cut.err) fun _ => ?_)
      fun _ => ?_
    · exact Cut.bind Cut.same fun x _ => tupleFields mode fs h.tail _ hst
    · exact Cut.bind (kind hk h) fun x hx => tupleFields mode fs h.tail _ ⟨fun t e => by cases e; exact hx, hst.2⟩
    · exact Cut.bind Cut.same fun x _ => tupleFields mode fs h.tail _ hst
    · exact Cut.bind (tupleComponents mode v h.value) fun x hx =>
        tupleFields mode fs h.tail _ ⟨hst.1, fun l e => by cases e; exact hx⟩
    · cases mode with
      | direct => exact Cut.err
      | buffered => exact tupleFields .buffered fs h.tail st hst
theorem tupleComponents (mode : Mode) : ∀ (j : Json), FineIn bits P Z j →
    Cut P (fun l : List TupleParam => ∀ p ∈ l, Z p.kind) (deComponentsOn bits mode j) (deComponents mode j)
  | .arr xs, h => by rw [deComponentsOn, deComponents]; exact tupleParams mode xs (fineAll_of h)
  | .null, _ | .bool _, _ | .str _, _ | .obj _, _ | .num .., _ => by rw [deComponentsOn, deComponents] <;> first | exact Cut.err | simp
theorem tupleParams (mode : Mode) : ∀ (xs : List Json), FineAll bits P Z xs →
    Cut P (fun l : List TupleParam => ∀ p ∈ l, Z p.kind) (deTupleParamsOn bits mode xs) (deTupleParams mode xs)
  | [], _ => by rw [deTupleParamsOn, deTupleParams]; exact Cut.ok (by simp)
  | x :: xs, h => by
    rw [deTupleParamsOn, deTupleParams]
    refine Cut.bind (tupleParam mode x h.head) fun p hp => Cut.bind (tupleParams mode xs h.tail) fun ps hps => Cut.ok ?_
    intro q hq
    rcases List.mem_cons.1 hq with rfl | hq
    · exact hp
    · exact hps q hq
end
omit hz

include hz in
theorem paramFields (mode : Mode) : ∀ (fs : List (Str × Json)), FineFields bits P Z fs → ∀ st, GoodSt Z st →
    Cut P (GoodSt Z) (deParamFieldsOn bits mode fs st) (deParamFields mode fs st)
  | [], _, st, hst => by rw [deParamFieldsOn, deParamFields]; exact Cut.ok hst
  | (k, v) :: fs, h, st, hst => by
    rw [deParamFieldsOn.eq_def, deParamFields.eq_def]; dsimp only
    refine Cut.ite (fun _ => Cut.ite (fun _ => Cut.err) fun _ => ?_) fun _ => Cut.ite (fun hk => Cut.ite (fun _ => Cut.err) fun _ => ?_)
      fun _ => Cut.ite (fun _ => Cut.ite (fun _ => Cut.err) fun _ => ?_) fun _ => Cut.ite (fun _ => Cut.ite (fun _ => Cut.err) fun _ => ?_)
      fun _ => ?_
    · exact Cut.bind Cut.same fun x _ => paramFields mode fs h.tail _ hst
    · exact Cut.bind (kind hk h) fun x hx => paramFields mode fs h.tail _ ⟨fun t e => by cases e; exact hx, hst.2⟩
    · exact Cut.bind Cut.same fun x _ => paramFields mode fs h.tail _ hst
    · exact Cut.bind (tupleComponents hz mode v h.value) fun x hx =>
        paramFields mode fs h.tail _ ⟨hst.1, fun l e => by cases e; exact hx⟩
    · cases mode with
      | direct => exact Cut.err
      | buffered => exact paramFields .buffered fs h.tail st hst

include hz in
theorem param (mode : Mode) (j : Json) (h : FineIn bits P Z j) : Cut P (fun p : Param => Z p.kind) (deParamOn bits mode j) (deParam mode j) := by
  cases j with
  | obj fs =>
    rw [deParamOn, deParam]
    refine Cut.bind (paramFields hz mode fs (fineFields_of h) {} ⟨fun _ e => (nomatch e), fun _ e => (nomatch e)⟩) fun st hst => ?_
    refine Cut.bind (G := fun _ => True) (needed fun _ _ => trivial) fun n _ => ?_
    refine Cut.bind (G := Z) (needed hst.1) fun k hk => ?_
    exact Cut.bind (G := Z) (components hz hst hk) fun k hk => Cut.ok hk
  | _ => exact Cut.err

include hz in
theorem eventFields (mode : Mode) : ∀ (fs : List (Str × Json)), FineFields bits P Z fs → ∀ st, GoodSt Z st →
    Cut P (GoodSt Z) (deEventFieldsOn bits mode fs st) (deEventFields mode fs st)
  | [], _, st, hst => by rw [deEventFieldsOn, deEventFields]; exact Cut.ok hst
  | (k, v) :: fs, h, st, hst => by
    rw [deEventFieldsOn.eq_def, deEventFields.eq_def]; dsimp only
    refine Cut.ite (fun _ => Cut.ite (fun _ => Cut.err) fun _ => ?_) fun _ => Cut.ite (fun hk => Cut.ite (fun _ => Cut.err) fun _ => ?_)
      fun _ => Cut.ite (fun _ => Cut.ite (fun _ => Cut.err) fun _ => ?_) fun _ => Cut.ite (fun _ => Cut.ite (fun _ => Cut.err) fun _ => ?_)
      fun _ => ?_
    · exact Cut.bind Cut.same fun x _ => eventFields mode fs h.tail _ hst
    · exact Cut.bind (kind hk h) fun x hx => eventFields mode fs h.tail _ ⟨fun t e => by cases e; exact hx, hst.2⟩
    · exact Cut.bind (tupleComponents hz mode v h.value) fun x hx =>
        eventFields mode fs h.tail _ ⟨hst.1, fun l e => by cases e; exact hx⟩
    · exact Cut.bind Cut.same fun x _ => eventFields mode fs h.tail _ hst
    · cases mode with
      | direct => exact Cut.err
      | buffered => exact eventFields .buffered fs h.tail st hst

include hz in
theorem eventParam (mode : Mode) (j : Json) (h : FineIn bits P Z j) :
    Cut P (fun p : EventParam => Z p.kind) (deEventParamOn bits mode j) (deEventParam mode j) := by
  cases j with
  | obj fs =>
    rw [deEventParamOn, deEventParam]
    refine Cut.bind (eventFields hz mode fs (fineFields_of h) {} ⟨fun _ e => (nomatch e), fun _ e => (nomatch e)⟩) fun st hst => ?_
    refine Cut.bind (G := fun _ => True) (needed fun _ _ => trivial) fun n _ => ?_
    refine Cut.bind (G := Z) (needed hst.1) fun k hk => ?_
    exact Cut.bind (G := Z) (components hz hst hk) fun k hk => Cut.ok hk
  | _ => exact Cut.err

theorem vec {α : Type} {G : α → Prop} {f g : Json → Res α} (hf : ∀ j, FineIn bits P Z j → Cut P G (f j) (g j)) :
    ∀ (xs : List Json), FineAll bits P Z xs → Cut P (fun l => ∀ x ∈ l, G x) (deVec f xs) (deVec g xs)
  | [], _ => by rw [deVec, deVec]; exact Cut.ok (by simp)
  | x :: xs, h => by
    rw [deVec, deVec]
    refine Cut.bind (hf x h.head) fun p hp => Cut.bind (vec hf xs h.tail) fun ps hps => Cut.ok ?_
    intro q hq
    rcases List.mem_cons.1 hq with rfl | hq
    · exact hp
    · exact hps q hq

theorem arr {α : Type} {G : α → Prop} {f g : Json → Res α} (hf : ∀ j, FineIn bits P Z j → Cut P G (f j) (g j)) (j : Json)
    (h : FineIn bits P Z j) : Cut P (fun l => ∀ x ∈ l, G x) (deArr f j) (deArr g j) := by
  cases j with
  | arr xs => rw [deArr, deArr]; exact vec hf xs (fineAll_of h)
  | _ => exact Cut.err

/-- the types in the state are good -/
def GoodOp (Z : ParamType → Prop) (st : OpSt) : Prop :=
  (∀ l, st.inputs = some l → ∀ p ∈ l, Z p.kind) ∧ (∀ l, st.outputs = some l → ∀ p ∈ l, Z p.kind) ∧
  ∀ l, st.eventInputs = some l → ∀ p ∈ l, Z p.kind

theorem goodOp_empty : GoodOp Z {} := ⟨fun _ e => (nomatch e), fun _ e => (nomatch e), fun _ e => (nomatch e)⟩

include hz in
theorem functionFields (mode : Mode) : ∀ (fs : List (Str × Json)), FineFields bits P Z fs → ∀ st, GoodOp Z st →
    Cut P (GoodOp Z) (deFunctionFieldsOn bits mode fs st) (deFunctionFields mode fs st)
  | [], _, st, hst => by rw [deFunctionFieldsOn, deFunctionFields]; exact Cut.ok hst
  | (k, v) :: fs, h, st, hst => by
    rw [deFunctionFieldsOn, deFunctionFields]
    refine Cut.ite (fun _ => Cut.ite (fun _ => Cut.err) fun _ => ?_) fun _ => Cut.ite (fun _ => Cut.ite (fun _ => Cut.err) fun _ => ?_)
      fun _ => Cut.ite (fun _ => Cut.ite (fun _ => Cut.err) fun _ => ?_) fun _ => Cut.ite (fun _ => Cut.ite (fun _ => Cut.err) fun _ => ?_)
      fun _ => Cut.ite (fun _ => Cut.ite (fun _ => Cut.err) fun _ => ?_) fun _ => ?_
    · exact Cut.bind Cut.same fun x _ => functionFields mode fs h.tail _ hst
    · exact Cut.bind (arr (param hz mode) v h.value) fun x hx =>
        functionFields mode fs h.tail _ ⟨fun l e => by cases e; exact hx, hst.2.1, hst.2.2⟩
    · exact Cut.bind (arr (param hz mode) v h.value) fun x hx =>
        functionFields mode fs h.tail _ ⟨hst.1, fun l e => by cases e; exact hx, hst.2.2⟩
    · exact Cut.bind Cut.same fun x _ => functionFields mode fs h.tail _ hst
    · exact Cut.bind Cut.same fun x _ => functionFields mode fs h.tail _ hst
    · exact functionFields mode fs h.tail st hst

/-- the types of the function are good -/
def GoodFunction (Z : ParamType → Prop) (f : Function) : Prop := ∀ p ∈ f.inputs ++ f.outputs, Z p.kind
def GoodEvent (Z : ParamType → Prop) (e : Event) : Prop := ∀ p ∈ e.inputs, Z p.kind
def GoodConstructor (Z : ParamType → Prop) (c : Constructor) : Prop := ∀ p ∈ c.inputs, Z p.kind

theorem both {a b : List Param} (ha : ∀ p ∈ a, Z p.kind) (hb : ∀ p ∈ b, Z p.kind) : ∀ p ∈ a ++ b, Z p.kind := fun p hp => by
  rcases List.mem_append.1 hp with hp | hp
  · exact ha p hp
  · exact hb p hp

include hz in
theorem function (mode : Mode) (fs : List (Str × Json)) (h : FineFields bits P Z fs) :
    Cut P (GoodFunction Z) (deFunctionOn bits mode fs) (deFunction mode fs) := by
  rw [deFunctionOn, deFunction]
  refine Cut.bind (functionFields hz mode fs h {} goodOp_empty) fun st hst => ?_
  refine Cut.bind (G := fun _ => True) (needed fun _ _ => trivial) fun n _ => ?_
  refine Cut.bind (needed hst.1) fun i hi => ?_
  exact Cut.bind (needed hst.2.1) fun o ho => Cut.ok (both hi ho)

include hz in
theorem eventOpFields (mode : Mode) : ∀ (fs : List (Str × Json)), FineFields bits P Z fs → ∀ st, GoodOp Z st →
    Cut P (GoodOp Z) (deEventOpFieldsOn bits mode fs st) (deEventOpFields mode fs st)
  | [], _, st, hst => by rw [deEventOpFieldsOn, deEventOpFields]; exact Cut.ok hst
  | (k, v) :: fs, h, st, hst => by
    rw [deEventOpFieldsOn, deEventOpFields]
    refine Cut.ite (fun _ => Cut.ite (fun _ => Cut.err) fun _ => ?_) fun _ => Cut.ite (fun _ => Cut.ite (fun _ => Cut.err) fun _ => ?_)
      fun _ => Cut.ite (fun _ => Cut.ite (fun _ => Cut.err) fun _ => ?_) fun _ => ?_
    · exact Cut.bind Cut.same fun x _ => eventOpFields mode fs h.tail _ hst
    · exact Cut.bind (arr (eventParam hz mode) v h.value) fun x hx =>
        eventOpFields mode fs h.tail _ ⟨hst.1, hst.2.1, fun l e => by cases e; exact hx⟩
    · exact Cut.bind Cut.same fun x _ => eventOpFields mode fs h.tail _ hst
    · exact eventOpFields mode fs h.tail st hst

include hz in
theorem event (mode : Mode) (fs : List (Str × Json)) (h : FineFields bits P Z fs) :
    Cut P (GoodEvent Z) (deEventOn bits mode fs) (deEvent mode fs) := by
  rw [deEventOn, deEvent]
  refine Cut.bind (eventOpFields hz mode fs h {} goodOp_empty) fun st hst => ?_
  refine Cut.bind (G := fun _ => True) (needed fun _ _ => trivial) fun n _ => ?_
  refine Cut.bind (needed hst.2.2) fun i hi => ?_
  exact Cut.bind (G := fun _ => True) (needed fun _ _ => trivial) fun o _ => Cut.ok hi

include hz in
theorem constructorFields (mode : Mode) : ∀ (fs : List (Str × Json)), FineFields bits P Z fs → ∀ st, GoodOp Z st →
    Cut P (GoodOp Z) (deConstructorFieldsOn bits mode fs st) (deConstructorFields mode fs st)
  | [], _, st, hst => by rw [deConstructorFieldsOn, deConstructorFields]; exact Cut.ok hst
  | (k, v) :: fs, h, st, hst => by
    rw [deConstructorFieldsOn, deConstructorFields]
    refine Cut.ite (fun _ => Cut.ite (fun _ => Cut.err) fun _ => ?_) fun _ => ?_
    · exact Cut.bind (arr (param hz mode) v h.value) fun x hx =>
        constructorFields mode fs h.tail _ ⟨fun l e => by cases e; exact hx, hst.2.1, hst.2.2⟩
    · exact constructorFields mode fs h.tail st hst

include hz in
theorem constructor (mode : Mode) (fs : List (Str × Json)) (h : FineFields bits P Z fs) :
    Cut P (GoodConstructor Z) (deConstructorOn bits mode fs) (deConstructor mode fs) := by
  rw [deConstructorOn, deConstructor]
  refine Cut.bind (constructorFields hz mode fs h {} goodOp_empty) fun st hst => ?_
  exact Cut.bind (needed hst.1) fun i hi => Cut.ok hi

theorem next {α : Type} {G : α → Prop} {f g : Json → Res α} (hf : ∀ j, FineIn bits P Z j → Cut P G (f j) (g j)) (xs : List Json)
    (h : FineAll bits P Z xs) :
    Cut P (fun r => (∀ x, r.1 = some x → G x) ∧ FineAll bits P Z r.2) (nextElement f xs) (nextElement g xs) := by
  cases xs with
  | nil => exact Cut.ok ⟨fun _ e => (nomatch e), h⟩
  | cons x xs => exact Cut.bind (hf x h.head) fun a ha => Cut.ok ⟨fun y e => by cases e; exact ha, h.tail⟩

include hz in
theorem functionSeq (mode : Mode) (xs : List Json) (h : FineAll bits P Z xs) :
    Cut P (GoodFunction Z) (deFunctionSeqOn bits mode xs) (deFunctionSeq mode xs) := by
  rw [deFunctionSeqOn, deFunctionSeq]
  refine Cut.bind (next (G := fun _ => True) (fun _ _ => Cut.same) xs h) fun ⟨n, xs⟩ h => ?_
  refine Cut.bind (needed h.1) fun n _ => ?_
  refine Cut.bind (next (arr (param hz mode)) xs h.2) fun ⟨i, xs⟩ h => ?_
  refine Cut.bind (needed h.1) fun i hi => ?_
  refine Cut.bind (next (arr (param hz mode)) xs h.2) fun ⟨o, xs⟩ h => ?_
  refine Cut.bind (needed h.1) fun o ho => ?_
  refine Cut.bind (next (G := fun _ => True) (fun _ _ => Cut.same) xs h.2) fun ⟨c, xs⟩ h => ?_
  refine Cut.bind (next (G := fun _ => True) (fun _ _ => Cut.same) xs h.2) fun ⟨m, xs⟩ h => ?_
  exact Cut.bind Cut.same fun _ _ => Cut.ok (both hi ho)

include hz in
theorem eventSeq (mode : Mode) (xs : List Json) (h : FineAll bits P Z xs) :
    Cut P (GoodEvent Z) (deEventSeqOn bits mode xs) (deEventSeq mode xs) := by
  rw [deEventSeqOn, deEventSeq]
  refine Cut.bind (next (G := fun _ => True) (fun _ _ => Cut.same) xs h) fun ⟨n, xs⟩ h => ?_
  refine Cut.bind (needed h.1) fun n _ => ?_
  refine Cut.bind (next (arr (eventParam hz mode)) xs h.2) fun ⟨i, xs⟩ h => ?_
  refine Cut.bind (needed h.1) fun i hi => ?_
  refine Cut.bind (next (G := fun _ => True) (fun _ _ => Cut.same) xs h.2) fun ⟨a, xs⟩ h => ?_
  refine Cut.bind (needed h.1) fun a _ => ?_
  exact Cut.bind Cut.same fun _ _ => Cut.ok hi

include hz in
theorem constructorSeq (mode : Mode) (xs : List Json) (h : FineAll bits P Z xs) :
    Cut P (GoodConstructor Z) (deConstructorSeqOn bits mode xs) (deConstructorSeq mode xs) := by
  rw [deConstructorSeqOn, deConstructorSeq]
  refine Cut.bind (next (arr (param hz mode)) xs h) fun ⟨i, xs⟩ h => ?_
  refine Cut.bind (needed h.1) fun i hi => ?_
  exact Cut.bind Cut.same fun _ _ => Cut.ok hi

/-- the types of the operation are good -/
def GoodOperation (Z : ParamType → Prop) : Operation → Prop
  | .constructor c => GoodConstructor Z c
  | .function f => GoodFunction Z f
  | .event e => GoodEvent Z e
  | _ => True

include hz in
theorem operationSeq (xs : List Json) (h : FineAll bits P Z xs) :
    Cut P (GoodOperation Z) (deOperationSeqOn bits xs) (deOperationSeq xs) := by
  match xs, h with
  | .str s :: rest, h =>
    rw [deOperationSeqOn, deOperationSeq]
    refine Cut.ite (fun _ => ?_) fun _ => Cut.ite (fun _ => ?_) fun _ => Cut.ite (fun _ => ?_) fun _ => Cut.ite (fun _ => ?_)
      fun _ => Cut.ite (fun _ => ?_) fun _ => Cut.err
    · exact Cut.bind (constructorSeq hz .buffered rest h.tail) fun c hc => Cut.ok hc
    · exact Cut.bind (functionSeq hz .buffered rest h.tail) fun c hc => Cut.ok hc
    · exact Cut.bind (eventSeq hz .buffered rest h.tail) fun c hc => Cut.ok hc
    · exact Cut.bind Cut.same fun _ _ => Cut.ok trivial
    · exact Cut.bind Cut.same fun _ _ => Cut.ok trivial
  | [], _ => exact Cut.err
  | .null :: _, _ => exact Cut.err
  | .bool _ :: _, _ => exact Cut.err
  | .num .. :: _, _ => exact Cut.err
  | .arr _ :: _, _ => exact Cut.err
  | .obj _ :: _, _ => exact Cut.err

theorem splitTag_fine : ∀ (fs : List (Str × Json)) (tag : Option Json) (acc : List (Str × Json)), FineFields bits P Z fs →
    FineFields bits P Z acc → Cut P (fun r => FineFields bits P Z r.2) (splitTag fs tag acc) (splitTag fs tag acc)
  | [], some tag, acc, _, h => by rw [splitTag]; exact Cut.ok h
  | [], none, _, _, _ => by rw [splitTag]; exact Cut.err
  | (k, v) :: fs, tag, acc, h, ha => by
    rw [splitTag.eq_def]; dsimp only
    refine Cut.ite (fun _ => ?_) fun hk => ?_
    · cases tag with
      | none => exact splitTag_fine fs _ acc h.tail ha
      | some t => exact Cut.err
    · refine splitTag_fine fs tag _ h.tail ⟨fun s hs => ?_, fun kx hkx => ?_⟩
      · rcases List.mem_append.1 hs with hs | hs
        · exact ha.1 s hs
        · rw [List.mem_singleton] at hs
          cases hs
          exact absurd rfl hk
      · rcases List.mem_append.1 hkx with hkx | hkx
        · exact ha.2 kx hkx
        · rw [List.mem_singleton] at hkx
          subst hkx
          exact h.value

include hz in
theorem operation (j : Json) (h : FineIn bits P Z j) : Cut P (GoodOperation Z) (deOperationOn bits j) (deOperation j) := by
  cases j with
  | obj fs =>
    rw [deOperationOn, deOperation]
    refine Cut.bind (splitTag_fine fs none [] (fineFields_of h) ⟨fun s hs => (nomatch hs), fun kx hk => (nomatch hk)⟩) fun ⟨tag, rest⟩ h => ?_
    cases tag with
    | str s =>
      refine Cut.ite (fun _ => ?_) fun _ => Cut.ite (fun _ => ?_) fun _ => Cut.ite (fun _ => ?_) fun _ => Cut.ite (fun _ => ?_)
        fun _ => Cut.ite (fun _ => ?_) fun _ => Cut.err
      · exact Cut.bind (constructor hz .buffered rest h) fun c hc => Cut.ok hc
      · exact Cut.bind (function hz .buffered rest h) fun c hc => Cut.ok hc
      · exact Cut.bind (event hz .buffered rest h) fun c hc => Cut.ok hc
      · exact Cut.ok trivial
      · exact Cut.ok trivial
    | _ => exact Cut.err
  | arr xs => exact operationSeq hz xs (fineAll_of h)
  | _ => exact Cut.err

/-- the types declared in the contract are good -/
def GoodContract (Z : ParamType → Prop) (c : Contract) : Prop :=
  (∀ k, c.constructor = some k → GoodConstructor Z k) ∧ (∀ e ∈ c.functions, ∀ f ∈ e.2, GoodFunction Z f) ∧
  ∀ e ∈ c.events, ∀ f ∈ e.2, GoodEvent Z f

theorem push {α : Type} {G : α → Prop} (key : Str) (v : α) (hv : G v) : ∀ (m : List (Str × List α)),
    (∀ e ∈ m, ∀ f ∈ e.2, G f) → ∀ e ∈ pushEntry key v m, ∀ f ∈ e.2, G f
  | [], _ => by
    intro e he f hf
    rw [pushEntry, List.mem_singleton] at he
    subst he
    rw [List.mem_singleton] at hf
    subst hf; exact hv
  | (k, vs) :: m, h => by
    intro e he f hf
    rw [pushEntry] at he
    split at he
    · rcases List.mem_cons.1 he with rfl | he
      · rcases List.mem_append.1 hf with hf | hf
        · exact h _ List.mem_cons_self f hf
        · rw [List.mem_singleton] at hf; subst hf; exact hv
      · exact h e (List.mem_cons_of_mem _ he) f hf
    · rcases List.mem_cons.1 he with rfl | he
      · exact h _ List.mem_cons_self f hf
      · exact push key v hv m (fun e he => h e (List.mem_cons_of_mem _ he)) e he f hf

theorem add_good (c : Contract) (op : Operation) (hc : GoodContract Z c) (ho : GoodOperation Z op) : GoodContract Z (c.add op) := by
  obtain ⟨h1, h2, h3⟩ := hc
  cases op with
  | constructor k => exact ⟨fun k' e => by cases e; exact ho, h2, h3⟩
  | function f => exact ⟨h1, push f.name f ho _ h2, h3⟩
  | event e => exact ⟨h1, h2, push e.name e ho _ h3⟩
  | fallback => exact ⟨h1, h2, h3⟩
  | receive => exact ⟨h1, h2, h3⟩

include hz in
theorem operations : ∀ (js : List Json), FineAll bits P Z js → ∀ c, GoodContract Z c →
    Cut P (GoodContract Z) (deOperationsOn bits js c) (deOperations js c)
  | [], _, c, hc => by rw [deOperationsOn, deOperations]; exact Cut.ok hc
  | j :: js, h, c, hc => by
    rw [deOperationsOn, deOperations]
    exact Cut.bind (operation hz j h.head) fun op ho => operations js h.tail _ (add_good c op hc ho)

include hz in
theorem contract (j : Json) (h : FineIn bits P Z j) : Cut P (GoodContract Z) (deContractOn bits j) (deContract j) := by
  cases j with
  | arr xs =>
    rw [deContractOn, deContract]
    exact operations hz xs (fineAll_of h) {} ⟨fun _ e => (nomatch e), fun e he => (nomatch he), fun e he => (nomatch he)⟩
  | _ => exact Cut.err

end

end Ethabi.JsonOn

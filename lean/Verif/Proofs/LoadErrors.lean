import Verif.Model.Contract
import Verif.Proofs.Errors
/-! # Lemmas for C93: errors of loading ABI JSON -/
namespace Ethabi.LoadErrors
open Errors

/-- only serde's errors -/
def OnlySerde {α : Type} (x : Res α) : Prop := ∀ e, x = .err e → e = .serdeJson

theorem ok {α : Type} (a : α) : OnlySerde (Res.ok a) := fun _ h => nomatch h

theorem err {α : Type} : OnlySerde (Res.err .serdeJson : Res α) := fun _ h => (Res.err.inj h).symm

theorem panic {α : Type} : OnlySerde (Res.panic : Res α) := fun _ h => nomatch h

theorem bind {α β : Type} {x : Res α} {f : α → Res β} (h : OnlySerde x) (hf : ∀ a, OnlySerde (f a)) :
    OnlySerde (x >>= f) := by
  intro e he
  rcases bind_eq_err.1 he with h' | ⟨a, -, h'⟩
  · exact h e h'
  · exact hf a e h'

theorem ite {α : Type} {c : Prop} [Decidable c] {x y : Res α} (hx : OnlySerde x) (hy : OnlySerde y) :
    OnlySerde (if c then x else y) := by
  split
  · exact hx
  · exact hy

theorem string (j : Json) : OnlySerde (deString j) := by cases j <;> first | exact ok _ | exact err

theorem bool (j : Json) : OnlySerde (deBool j) := by cases j <;> first | exact ok _ | exact err

theorem kind (j : Json) : OnlySerde (deKind j) := by
  cases j with
  | str s => unfold deKind; simp only []; split <;> first | exact ok _ | exact err | exact panic
  | _ => exact err

theorem setTuple (k : ParamType) (cs : Option (List ParamType)) : OnlySerde (setTupleComponents k cs) := by
  unfold setTupleComponents
  repeat' split
  all_goals first | exact ok _ | exact err

theorem need {α : Type} (x : Option α) : OnlySerde (required x) := by cases x <;> first | exact ok _ | exact err

theorem mode_ite {α : Type} {mode : Mode} {x : Res α} (h : OnlySerde x) :
    OnlySerde (match mode with | .direct => .err .serdeJson | .buffered => x) := by
  cases mode
  · exact err
  · exact h

mutual
theorem tupleParam (mode : Mode) : ∀ j : Json, OnlySerde (deTupleParam mode j)
  | .obj fs => by
    unfold deTupleParam
    refine bind (tupleFields mode fs _) fun st => ?_
    unfold finishTupleParam
    exact bind (need _) fun _ => bind (setTuple _ _) fun _ => ok _
  | .null => by unfold deTupleParam; exact err
  | .bool _ => by unfold deTupleParam; exact err
  | .num _ => by unfold deTupleParam; exact err
  | .str _ => by unfold deTupleParam; exact err
  | .arr _ => by unfold deTupleParam; exact err
theorem tupleFields (mode : Mode) : ∀ (fs : List (Str × Json)) (st : FieldSt), OnlySerde (deTupleFields mode fs st)
  | [], st => by unfold deTupleFields; exact ok _
  | (k, v) :: fs, st => by
    unfold deTupleFields
    refine ite (ite err (bind (string v) fun _ => tupleFields mode fs _)) (ite (ite err (bind (kind v) fun _ => tupleFields mode fs _))
      (ite (ite err (bind (string v) fun _ => tupleFields mode fs _)) (ite (ite err (bind (components mode v) fun _ => tupleFields mode fs _))
      (mode_ite (tupleFields mode fs _)))))
theorem components (mode : Mode) : ∀ j : Json, OnlySerde (deComponents mode j)
  | .arr xs => by unfold deComponents; exact tupleParams mode xs
  | .null => by unfold deComponents; exact err
  | .bool _ => by unfold deComponents; exact err
  | .num _ => by unfold deComponents; exact err
  | .str _ => by unfold deComponents; exact err
  | .obj _ => by unfold deComponents; exact err
theorem tupleParams (mode : Mode) : ∀ xs : List Json, OnlySerde (deTupleParams mode xs)
  | [] => by unfold deTupleParams; exact ok _
  | x :: xs => by
    unfold deTupleParams
    exact bind (tupleParam mode x) fun _ => bind (tupleParams mode xs) fun _ => ok _
end

theorem paramFields (mode : Mode) : ∀ (fs : List (Str × Json)) (st : FieldSt), OnlySerde (deParamFields mode fs st)
  | [], st => by unfold deParamFields; exact ok _
  | (k, v) :: fs, st => by
    unfold deParamFields
    refine ite (ite err (bind (string v) fun _ => paramFields mode fs _)) (ite (ite err (bind (kind v) fun _ => paramFields mode fs _))
      (ite (ite err (bind (string v) fun _ => paramFields mode fs _)) (ite (ite err (bind (components mode v) fun _ => paramFields mode fs _))
      (mode_ite (paramFields mode fs _)))))

theorem param (mode : Mode) (j : Json) : OnlySerde (deParam mode j) := by
  cases j with
  | obj fs =>
    exact bind (paramFields mode fs _) fun _ => bind (need _) fun _ => bind (need _) fun _ => bind (setTuple _ _) fun _ => ok _
  | _ => exact err

theorem eventFields (mode : Mode) : ∀ (fs : List (Str × Json)) (st : FieldSt), OnlySerde (deEventFields mode fs st)
  | [], st => by unfold deEventFields; exact ok _
  | (k, v) :: fs, st => by
    unfold deEventFields
    refine ite (ite err (bind (string v) fun _ => eventFields mode fs _)) (ite (ite err (bind (kind v) fun _ => eventFields mode fs _))
      (ite (ite err (bind (components mode v) fun _ => eventFields mode fs _)) (ite (ite err (bind (bool v) fun _ => eventFields mode fs _))
      (mode_ite (eventFields mode fs _)))))

theorem eventParam (mode : Mode) (j : Json) : OnlySerde (deEventParam mode j) := by
  cases j with
  | obj fs =>
    exact bind (eventFields mode fs _) fun _ => bind (need _) fun _ => bind (need _) fun _ => bind (setTuple _ _) fun _ => ok _
  | _ => exact err

theorem name (j : Json) : OnlySerde (deName j) := bind (string j) fun _ => ok _

theorem vec {α : Type} {de : Json → Res α} (h : ∀ j, OnlySerde (de j)) : ∀ xs, OnlySerde (deVec de xs)
  | [] => ok _
  | x :: xs => bind (h x) fun _ => bind (vec h xs) fun _ => ok _

theorem arr {α : Type} {de : Json → Res α} (h : ∀ j, OnlySerde (de j)) (j : Json) : OnlySerde (deArr de j) := by
  cases j with
  | arr xs => exact vec h xs
  | _ => exact err

theorem variant (s : Str) : OnlySerde (mutabilityVariant s) := by
  unfold mutabilityVariant
  repeat' split
  all_goals first | exact ok _ | exact err

theorem mutability (j : Json) : OnlySerde (deStateMutability j) := by
  unfold deStateMutability
  split <;> first | exact variant _ | exact err

theorem functionFields (mode : Mode) : ∀ (fs : List (Str × Json)) (st : OpSt), OnlySerde (deFunctionFields mode fs st)
  | [], st => ok _
  | (k, v) :: fs, st => by
    unfold deFunctionFields
    exact ite (ite err (bind (name v) fun _ => functionFields mode fs _))
      (ite (ite err (bind (arr (param mode) v) fun _ => functionFields mode fs _))
      (ite (ite err (bind (arr (param mode) v) fun _ => functionFields mode fs _))
      (ite (ite err (bind (bool v) fun _ => functionFields mode fs _))
      (ite (ite err (bind (mutability v) fun _ => functionFields mode fs _)) (functionFields mode fs _)))))

theorem function (mode : Mode) (fs : List (Str × Json)) : OnlySerde (deFunction mode fs) :=
  bind (functionFields mode fs _) fun _ => bind (need _) fun _ => bind (need _) fun _ => bind (need _) fun _ => ok _

theorem eventOpFields (mode : Mode) : ∀ (fs : List (Str × Json)) (st : OpSt), OnlySerde (deEventOpFields mode fs st)
  | [], st => ok _
  | (k, v) :: fs, st => by
    unfold deEventOpFields
    exact ite (ite err (bind (name v) fun _ => eventOpFields mode fs _))
      (ite (ite err (bind (arr (eventParam mode) v) fun _ => eventOpFields mode fs _))
      (ite (ite err (bind (bool v) fun _ => eventOpFields mode fs _)) (eventOpFields mode fs _)))

theorem event (mode : Mode) (fs : List (Str × Json)) : OnlySerde (deEvent mode fs) :=
  bind (eventOpFields mode fs _) fun _ => bind (need _) fun _ => bind (need _) fun _ => bind (need _) fun _ => ok _

theorem constructorFields (mode : Mode) : ∀ (fs : List (Str × Json)) (st : OpSt), OnlySerde (deConstructorFields mode fs st)
  | [], st => ok _
  | (k, v) :: fs, st => by
    unfold deConstructorFields
    exact ite (ite err (bind (arr (param mode) v) fun _ => constructorFields mode fs _)) (constructorFields mode fs _)

theorem constructor (mode : Mode) (fs : List (Str × Json)) : OnlySerde (deConstructor mode fs) :=
  bind (constructorFields mode fs _) fun _ => bind (need _) fun _ => ok _

theorem next {α : Type} {de : Json → Res α} (h : ∀ j, OnlySerde (de j)) (xs : List Json) : OnlySerde (nextElement de xs) := by
  cases xs with
  | nil => exact ok _
  | cons x xs => exact bind (h x) fun _ => ok _

theorem endOf (xs : List Json) : OnlySerde (endOfSeq xs) := by cases xs <;> first | exact ok _ | exact err

theorem functionSeq (mode : Mode) (xs : List Json) : OnlySerde (deFunctionSeq mode xs) :=
  bind (next name _) fun _ => bind (need _) fun _ => bind (next (arr (param mode)) _) fun _ => bind (need _) fun _ =>
    bind (next (arr (param mode)) _) fun _ => bind (need _) fun _ => bind (next bool _) fun _ => bind (next mutability _) fun _ =>
    bind (endOf _) fun _ => ok _

theorem eventSeq (mode : Mode) (xs : List Json) : OnlySerde (deEventSeq mode xs) :=
  bind (next name _) fun _ => bind (need _) fun _ => bind (next (arr (eventParam mode)) _) fun _ => bind (need _) fun _ =>
    bind (next bool _) fun _ => bind (need _) fun _ => bind (endOf _) fun _ => ok _

theorem constructorSeq (mode : Mode) (xs : List Json) : OnlySerde (deConstructorSeq mode xs) :=
  bind (next (arr (param mode)) _) fun _ => bind (need _) fun _ => bind (endOf _) fun _ => ok _

theorem split : ∀ (fs : List (Str × Json)) (tag : Option Json) (acc : List (Str × Json)), OnlySerde (splitTag fs tag acc)
  | [], some _, _ => by unfold splitTag; exact ok _
  | [], none, _ => by unfold splitTag; exact err
  | (k, v) :: fs, tag, acc => by
    unfold splitTag
    refine ite ?_ (split fs _ _)
    cases tag with
    | some _ => exact err
    | none => exact split fs _ _

theorem operationSeq (xs : List Json) : OnlySerde (deOperationSeq xs) := by
  unfold deOperationSeq
  split
  · exact ite (bind (constructorSeq _ _) fun _ => ok _) (ite (bind (functionSeq _ _) fun _ => ok _)
      (ite (bind (eventSeq _ _) fun _ => ok _) (ite (bind (endOf _) fun _ => ok _) (ite (bind (endOf _) fun _ => ok _) err))))
  · exact err

theorem operation (j : Json) : OnlySerde (deOperation j) := by
  cases j with
  | obj fs =>
    refine bind (split fs none []) fun r => ?_
    obtain ⟨tag, rest⟩ := r
    cases tag with
    | str s =>
      exact ite (bind (constructor _ _) fun _ => ok _) (ite (bind (function _ _) fun _ => ok _)
        (ite (bind (event _ _) fun _ => ok _) (ite (ok _) (ite (ok _) err))))
    | _ => exact err
  | arr xs => exact operationSeq xs
  | _ => exact err

theorem operations : ∀ (js : List Json) (c : Contract), OnlySerde (deOperations js c)
  | [], _ => ok _
  | j :: js, c => bind (operation j) fun _ => operations js _

theorem contract (j : Json) : OnlySerde (deContract j) := by
  cases j with
  | arr js => exact operations js _
  | _ => exact err

end Ethabi.LoadErrors

import Verif.Proofs.Reader
import Verif.Model.Json
import Verif.Spec.Text
/-! JSON round trips. -/
namespace Ethabi
open Spec

theorem emptied_eq : ∀ (t : ParamType), emptied t = eraseTuple t
  | .array t => by simp only [emptied, eraseTuple, emptied_eq t]
  | .fixedArray t n => by simp only [emptied, eraseTuple, emptied_eq t]
  | .tuple _ => rfl
  | .address => rfl
  | .bytes => rfl
  | .bool => rfl
  | .string => rfl
  | .int _ => rfl
  | .uint _ => rfl
  | .fixedBytes _ => rfl

theorem innerTuple_erase : ∀ (t : ParamType), innerTuple (eraseTuple t) = (innerTuple t).map fun _ => []
  | .array t => by simpa only [innerTuple, eraseTuple] using innerTuple_erase t
  | .fixedArray t n => by simpa only [innerTuple, eraseTuple] using innerTuple_erase t
  | .tuple _ => rfl
  | .address => rfl
  | .bytes => rfl
  | .bool => rfl
  | .string => rfl
  | .int _ => rfl
  | .uint _ => rfl
  | .fixedBytes _ => rfl

theorem extendInner_erase : ∀ (t : ParamType) (ts : List ParamType), innerTuple t = some ts →
    extendInner ts (eraseTuple t) = t
  | .array t, ts, h => by simp only [extendInner, eraseTuple, extendInner_erase t ts h]
  | .fixedArray t n, ts, h => by simp only [extendInner, eraseTuple, extendInner_erase t ts h]
  | .tuple us, ts, h => by simp only [innerTuple, Option.some.injEq] at h; simp [extendInner, eraseTuple, h]
  | .address, _, h => by cases h
  | .bytes, _, h => by cases h
  | .bool, _, h => by cases h
  | .string, _, h => by cases h
  | .int _, _, h => by cases h
  | .uint _, _, h => by cases h
  | .fixedBytes _, _, h => by cases h

theorem eraseTuple_none : ∀ (t : ParamType), innerTuple t = none → eraseTuple t = t
  | .array t, h => by simp only [eraseTuple, eraseTuple_none t h]
  | .fixedArray t n, h => by simp only [eraseTuple, eraseTuple_none t h]
  | .tuple us, h => by cases h
  | .address, _ => rfl
  | .bytes, _ => rfl
  | .bool, _ => rfl
  | .string, _ => rfl
  | .int _, _ => rfl
  | .uint _, _ => rfl
  | .fixedBytes _, _ => rfl

theorem setTupleComponents_erase (t : ParamType) : setTupleComponents (eraseTuple t) (innerTuple t) = .ok t := by
  have h1 := innerTuple_erase t
  unfold setTupleComponents
  cases h : innerTuple t with
  | none => rw [h] at h1; rw [h1]; simp [eraseTuple_none t h]
  | some ts => rw [h] at h1; rw [h1]; simp [extendInner_erase t ts h]

/-! ### parameters -/

theorem deKind_write {t : ParamType} (hu : t.usizeOk = true) : deKind (.str (writeForAbi false t)) = .ok (eraseTuple t) := by
  rw [deKind, read_writeForAbi t (sizesFit_of_usizeOk t hu)]

theorem serComponents_none : ∀ (t : ParamType), serComponents t = none ↔ innerTuple t = none
  | .array t => by simpa only [serComponents, innerTuple] using serComponents_none t
  | .fixedArray t n => by simpa only [serComponents, innerTuple] using serComponents_none t
  | .tuple _ => by simp [serComponents, innerTuple]
  | .address => by simp [serComponents, innerTuple]
  | .bytes => by simp [serComponents, innerTuple]
  | .bool => by simp [serComponents, innerTuple]
  | .string => by simp [serComponents, innerTuple]
  | .int _ => by simp [serComponents, innerTuple]
  | .uint _ => by simp [serComponents, innerTuple]
  | .fixedBytes _ => by simp [serComponents, innerTuple]

/-- an anonymous component -/
def bare (t : ParamType) : TupleParam := { name := none, kind := t, internalType := none }

theorem map_bare (ts : List ParamType) : (ts.map bare).map (·.kind) = ts := by
  induction ts with
  | nil => rfl
  | cons t ts ih => simp only [List.map_cons, ih]; rfl

mutual
theorem de_members (mode : Mode) : ∀ (ts : List ParamType), ParamType.usizeOkAll ts = true →
    deTupleParams mode (serMembers ts) = .ok (ts.map bare)
  | [], _ => by simp [serMembers, deTupleParams]
  | t :: ts, h => by
      simp only [ParamType.usizeOkAll, Bool.and_eq_true] at h
      have h1 := de_members mode ts h.2
      have h2 := de_components mode t h.1
      have h3 : deTupleParam mode (.obj ((lit "type", .str (writeForAbi false t)) ::
          componentsField (serComponents t))) = .ok (bare t) := by
        have hk := deKind_write h.1
        have hset := setTupleComponents_erase t
        cases hc : serComponents t with
        | none =>
          rw [(serComponents_none t).1 hc] at hset
          simp [componentsField, deTupleParam, deTupleFields, lit, hk, finishTupleParam, required, hset, bare]
        | some c =>
          obtain ⟨ps, hp1, hp2⟩ := h2 c hc
          rw [hp2] at hset
          simp only [componentsField, deTupleParam, deTupleFields, lit]
          simp [hk, hp1, finishTupleParam, required]
          rw [hset]; rfl
      rw [serMembers, deTupleParams, h3, h1]
      rfl
theorem de_components (mode : Mode) : ∀ (t : ParamType), t.usizeOk = true → ∀ c, serComponents t = some c →
    ∃ ps, deComponents mode c = .ok ps ∧ innerTuple t = some (ps.map (·.kind))
  | .array t, h, c, hc => de_components mode t h c hc
  | .fixedArray t n, h, c, hc => by
      simp only [ParamType.usizeOk, Bool.and_eq_true] at h
      exact de_components mode t h.2 c hc
  | .tuple ts, h, c, hc => by
      simp only [serComponents, Option.some.injEq] at hc
      subst hc
      refine ⟨ts.map bare, ?_, ?_⟩
      · rw [deComponents]; exact de_members mode ts h
      · rw [map_bare]; rfl
  | .address, _, _, hc => by simp [serComponents] at hc
  | .bytes, _, _, hc => by simp [serComponents] at hc
  | .bool, _, _, hc => by simp [serComponents] at hc
  | .string, _, _, hc => by simp [serComponents] at hc
  | .int _, _, _, hc => by simp [serComponents] at hc
  | .uint _, _, _, hc => by simp [serComponents] at hc
  | .fixedBytes _, _, _, hc => by simp [serComponents] at hc
end

/-- reading back the type and components of a type -/
theorem kind_back (mode : Mode) {t : ParamType} (hu : t.usizeOk = true) :
    (componentsEntry t = [] ∧ setTupleComponents (eraseTuple t) none = .ok t) ∨
    (∃ c ps, componentsEntry t = [(lit "components", c)] ∧ deComponents mode c = .ok ps ∧
      setTupleComponents (eraseTuple t) (some (ps.map (·.kind))) = .ok t) := by
  have hset := setTupleComponents_erase t
  unfold componentsEntry
  cases hc : serComponents t with
  | none => left; rw [(serComponents_none t).1 hc] at hset; exact ⟨rfl, hset⟩
  | some c =>
    right
    obtain ⟨ps, h1, h2⟩ := de_components mode t hu c hc
    rw [h2] at hset
    exact ⟨c, ps, rfl, h1, hset⟩

theorem deParam_serParam (mode : Mode) (p : Param) (hu : p.kind.usizeOk = true) : deParam mode (serParam p) = .ok p := by
  have hk := deKind_write hu
  rcases kind_back mode hu with ⟨h1, h2⟩ | ⟨c, ps, h1, h2, h3⟩
  · rcases p with ⟨n, t, _ | i⟩ <;>
      simp_all [serParam, deParam, deParamFields, lit, optEntry, deString, required]
  · rcases p with ⟨n, t, _ | i⟩ <;>
      simp_all [serParam, deParam, deParamFields, lit, optEntry, deString, required]

theorem deTupleParam_ser (mode : Mode) (p : TupleParam) (hu : p.kind.usizeOk = true) :
    deTupleParam mode (serTupleParam p) = .ok p := by
  have hk := deKind_write hu
  rcases kind_back mode hu with ⟨h1, h2⟩ | ⟨c, ps, h1, h2, h3⟩
  · rcases p with ⟨_ | n, t, _ | i⟩ <;>
      simp_all [serTupleParam, deTupleParam, deTupleFields, lit, optEntry, deString, required, finishTupleParam]
  · rcases p with ⟨_ | n, t, _ | i⟩ <;>
      simp_all [serTupleParam, deTupleParam, deTupleFields, lit, optEntry, deString, required, finishTupleParam]

theorem deEventParam_ser (mode : Mode) (p : EventParam) (hu : p.kind.usizeOk = true) :
    deEventParam mode (serEventParam p) = .ok p := by
  have hk := deKind_write hu
  rcases kind_back mode hu with ⟨h1, h2⟩ | ⟨c, ps, h1, h2, h3⟩
  · rcases p with ⟨n, t, b⟩
    simp_all [serEventParam, deEventParam, deEventFields, lit, deString, deBool, required]
  · rcases p with ⟨n, t, b⟩
    simp_all [serEventParam, deEventParam, deEventFields, lit, deString, deBool, required]

end Ethabi

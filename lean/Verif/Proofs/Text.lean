import Verif.Proofs.Utf8
import Verif.Model.Function
import Verif.Spec.Text
/-! Texts: agreement of `write` with the canonical type names. -/
namespace Ethabi

theorem writeAll_eq_map (c : Bool) (ts : List ParamType) : writeAll c ts = ts.map (writeForAbi c) := by
  induction ts with
  | nil => rfl
  | cons t ts ih => simp [writeAll, ih]

theorem join_eq_intercalate (sep : Str) (l : List Str) : join sep l = sep.intercalate l := by
  induction l with
  | nil => rfl
  | cons a l ih =>
    cases l with
    | nil => simp [join]
    | cons b l => simp [join, ih, List.intercalate]

@[local simp] theorem toString_string (s : String) : toString s = s := rfl

mutual
theorem write_eq_typeName : ∀ (t : ParamType), write t = (Spec.typeName t).toList
  | .address => rfl
  | .bytes => rfl
  | .bool => rfl
  | .string => rfl
  | .int n => by simp [write, writeForAbi, Spec.typeName, natText, lit]
  | .uint n => by simp [write, writeForAbi, Spec.typeName, natText, lit]
  | .fixedBytes n => by simp [write, writeForAbi, Spec.typeName, natText, lit]
  | .array t => by
      have := write_eq_typeName t
      simp only [write] at this
      simp [write, writeForAbi, Spec.typeName, this, natText, lit]
  | .fixedArray t n => by
      have := write_eq_typeName t
      simp only [write] at this
      simp [write, writeForAbi, Spec.typeName, this, natText, lit]
  | .tuple ts => by
      have := writeAll_eq_typeNames ts
      simp [write, writeForAbi, Spec.typeName, join_eq_intercalate, this, lit]
theorem writeAll_eq_typeNames : ∀ (ts : List ParamType), writeAll true ts = (Spec.typeNames ts).map String.toList
  | [] => rfl
  | t :: ts => by
      have := write_eq_typeName t
      simp only [write] at this
      simp [writeAll, Spec.typeNames, this, writeAll_eq_typeNames ts]
end

theorem signatureText_eq (name : Str) (ts : List ParamType) :
    signatureText name ts = (Spec.signature (String.ofList name) ts).toList := by
  have := writeAll_eq_typeNames ts
  rw [writeAll_eq_map] at this
  have h : ts.map write = ts.map (writeForAbi true) := rfl
  simp [signatureText, Spec.signature, join_eq_intercalate, h, this, lit]

theorem writeForAbi_false : ∀ (t : ParamType), writeForAbi false t = (Spec.abiTypeName t).toList
  | .address => by decide
  | .bytes => by decide
  | .bool => by decide
  | .string => by decide
  | .tuple _ => by rw [writeForAbi, if_neg (by simp)]; rfl
  | .int n => write_eq_typeName (.int n)
  | .uint n => write_eq_typeName (.uint n)
  | .fixedBytes n => write_eq_typeName (.fixedBytes n)
  | .array t => by
      have := writeForAbi_false t
      simp [writeForAbi, Spec.abiTypeName, this, lit]
  | .fixedArray t n => by
      have := writeForAbi_false t
      simp [writeForAbi, Spec.abiTypeName, this, lit, natText]

end Ethabi

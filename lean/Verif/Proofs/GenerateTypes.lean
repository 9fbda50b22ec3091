import Verif.Proofs.GenerateText
/-!
# Lemmas: the texts of types
-/
namespace Ethabi.Spec

/-- number of commas in a text -/
def commaCount (c : Code) : Nat := c.countP fun t => match t with | .word s => s == lit "," | _ => false

theorem commaCount_append (a b : Code) : commaCount (a ++ b) = commaCount a + commaCount b := List.countP_append

theorem commaCount_num (n : Nat) : commaCount [.num n] = 0 := rfl

theorem commaCount_numbered (s : String) (i : Nat) (h : ∀ l : Str, lit s ++ l ≠ lit ",") : commaCount [.word (numbered s i)] = 0 := by
  have : (numbered s i == lit ",") = false := by
    rw [beq_eq_false_iff_ne]
    exact h _
  rw [commaCount, List.countP_cons_of_neg (by simp [this])]; rfl

theorem commaCount_T (i : Nat) : commaCount [.word (numbered "T" i)] = 0 :=
  commaCount_numbered _ _ fun l h => by
    have := congrArg List.head? h
    simp [lit] at this
theorem commaCount_U (i : Nat) : commaCount [.word (numbered "U" i)] = 0 :=
  commaCount_numbered _ _ fun l h => by
    have := congrArg List.head? h
    simp [lit] at this

theorem rtype_commas : ∀ r : RType, commaCount r.code = 0
  | .address => by decide
  | .bytes => by decide
  | .hash => by decide
  | .int => by decide
  | .uint => by decide
  | .bool => by decide
  | .string => by decide
  | .byteArray n => by
      rw [RType.code, commaCount_append, commaCount_append, commaCount_num]; decide
  | .vec t => by
      rw [RType.code, commaCount_append, commaCount_append, rtype_commas t]; decide
  | .array t n => by
      rw [RType.code, commaCount_append, commaCount_append, commaCount_append, commaCount_append, rtype_commas t, commaCount_num]
      decide

theorem typeCode_some : ∀ (t : ParamType) (r : RType), rtype t = some r → typeCode t = r.code
  | .address, _, h => by cases h; rfl
  | .bytes, _, h => by cases h; rfl
  | .int _, _, h => by cases h; rfl
  | .uint _, _, h => by cases h; rfl
  | .bool, _, h => by cases h; rfl
  | .string, _, h => by cases h; rfl
  | .fixedBytes n, _, h => by
      cases h
      rw [typeCode]; split <;> rfl
  | .array t, r, h => by
      rw [rtype, Option.map_eq_some_iff] at h
      obtain ⟨u, hu, rfl⟩ := h
      rw [typeCode, typeCode_some t u hu]; rfl
  | .fixedArray _ _, _, h => by cases h
  | .tuple _, _, h => by cases h

theorem typeCode_none : ∀ t : ParamType, tupleFree t = true → rtype t = none → 1 ≤ commaCount (typeCode t)
  | .address, _, h => by cases h
  | .bytes, _, h => by cases h
  | .int _, _, h => by cases h
  | .uint _, _, h => by cases h
  | .bool, _, h => by cases h
  | .string, _, h => by cases h
  | .fixedBytes n, _, h => by cases h
  | .array t, ht, h => by
      rw [rtype, Option.map_eq_none_iff] at h
      have := typeCode_none t ht h
      rw [typeCode, commaCount_append, commaCount_append]; omega
  | .fixedArray t n, _, _ => by
      have : commaCount (r! ",") = 1 := by decide
      rw [typeCode, commaCount_append, commaCount_append, commaCount_append, commaCount_append, this]; omega
  | .tuple _, ht, _ => by simp [tupleFree] at ht

theorem rtype_tupleFree : ∀ (t : ParamType) (r : RType), rtype t = some r → tupleFree t = true
  | .address, _, _ => rfl
  | .bytes, _, _ => rfl
  | .int _, _, _ => rfl
  | .uint _, _, _ => rfl
  | .bool, _, _ => rfl
  | .string, _, _ => rfl
  | .fixedBytes _, _, _ => rfl
  | .array t, r, h => by
      rw [rtype, Option.map_eq_some_iff] at h
      obtain ⟨u, hu, rfl⟩ := h
      exact rtype_tupleFree t u hu
  | .fixedArray _ _, _, h => by cases h
  | .tuple _, _, h => by cases h

theorem generic_commas (g : Generic) : commaCount g.code ≤ 1 := by
  cases g with
  | into i r => simp only [Generic.code, commaCount_append, commaCount_T, rtype_commas]; decide
  | items i r => simp only [Generic.code, commaCount_append, commaCount_T, commaCount_U, rtype_commas]; decide
  | array i n r => simp only [Generic.code, commaCount_append, commaCount_T, commaCount_U, rtype_commas, commaCount_num]; decide

theorem templateParamType_some (i : Nat) (t : ParamType) (g : Generic) (h : generic i t = some g) : templateParamType t i = .ok g.code := by
  cases t with
  | array t =>
      rw [generic, Option.map_eq_some_iff] at h
      obtain ⟨r, hr, rfl⟩ := h
      simp only [templateParamType, rustType_eq, if_pos (rtype_tupleFree t r hr), Res.ok_bind, typeCode_some t r hr, Generic.code]
  | fixedArray t n =>
      rw [generic, Option.map_eq_some_iff] at h
      obtain ⟨r, hr, rfl⟩ := h
      simp only [templateParamType, rustType_eq, if_pos (rtype_tupleFree t r hr), Res.ok_bind, typeCode_some t r hr, Generic.code]
  | tuple _ => cases h
  | fixedBytes n =>
      cases h
      simp only [templateParamType]
      by_cases hn : n = 32
      · simp only [if_pos hn]; rfl
      · simp only [if_neg hn]; rfl
  | _ => cases h; rfl

theorem templateParamType_none (i : Nat) (t : ParamType) (ht : tupleFree t = true) (h : generic i t = none) :
    ∃ c, templateParamType t i = .ok c ∧ 2 ≤ commaCount c := by
  cases t with
  | array t =>
      rw [generic, Option.map_eq_none_iff] at h
      have ht : tupleFree t = true := ht
      have := typeCode_none t ht h
      refine ⟨_, by simp only [templateParamType, rustType_eq, if_pos ht, Res.ok_bind]; rfl, ?_⟩
      have h1 : commaCount (r! "> ,") = 1 := by decide
      simp only [commaCount_append, h1]; omega
  | fixedArray t n =>
      rw [generic, Option.map_eq_none_iff] at h
      have ht : tupleFree t = true := ht
      have := typeCode_none t ht h
      refine ⟨_, by simp only [templateParamType, rustType_eq, if_pos ht, Res.ok_bind]; rfl, ?_⟩
      have h1 : commaCount (r! "] > ,") = 1 := by decide
      simp only [commaCount_append, h1]; omega
  | tuple _ => simp [tupleFree] at ht
  | _ => cases h

end Ethabi.Spec

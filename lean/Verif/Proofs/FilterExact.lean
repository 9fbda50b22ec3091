import Verif.Proofs.Filter
/-! # The in-place encoding and the ABI encoding (for C40) -/
namespace Ethabi.FilterExact
open Spec

theorem sum_le_layout : ∀ (ps : List Part), ((ps.map fun p => p.2.length).sum) ≤ (layout ps).length := by
  intro ps
  rw [length_layout]
  induction ps with
  | nil => simp
  | cons p ps ih =>
    obtain ⟨d, b⟩ := p
    cases d <;> simp only [List.map_cons, List.sum_cons, headSize, Spec.tails, List.length_append] <;> omega

mutual
theorem inPlace_le : ∀ (tok : Token) (t : ParamType), (inPlace tok t).length ≤ (enc tok t).length
  | .bytes b, t => by cases t <;> simp [inPlace, enc, length_word]
  | .string s, t => by cases t <;> simp [inPlace, enc, length_word]
  | .array ts, t => by
    cases t with
    | array t => have := inPlaceAll_le ts t; simp [inPlace, enc, length_word]; omega
    | _ => simp [inPlace]
  | .fixedArray ts, t => by
    cases t with
    | fixedArray t n => have := inPlaceAll_le ts t; simp [inPlace, enc]; omega
    | _ => simp [inPlace]
  | .tuple ts, t => by
    cases t with
    | tuple ps => have := inPlaceZip_le ts ps; simp [inPlace, enc]; omega
    | _ => simp [inPlace]
  | .address a, t => by simp [inPlace]
  | .uint a, t => by simp [inPlace]
  | .int a, t => by simp [inPlace]
  | .bool a, t => by simp [inPlace]
  | .fixedBytes a, t => by simp [inPlace]
theorem inPlaceAll_le : ∀ (ts : List Token) (t : ParamType), (inPlaceAll ts t).length ≤ (layout (encAll ts t)).length := by
  intro ts t
  refine Nat.le_trans ?_ (sum_le_layout _)
  exact inPlaceAll_sum ts t
theorem inPlaceAll_sum : ∀ (ts : List Token) (t : ParamType),
    (inPlaceAll ts t).length ≤ ((encAll ts t).map fun p => p.2.length).sum
  | [], t => by simp [inPlaceAll]
  | tok :: ts, t => by
    have h1 := inPlace_le tok t
    have h2 := inPlaceAll_sum ts t
    simp only [inPlaceAll, encAll, List.length_append, List.map_cons, List.sum_cons]
    omega
theorem inPlaceZip_le : ∀ (ts : List Token) (ps : List ParamType), (inPlaceZip ts ps).length ≤ (layout (encZip ts ps)).length := by
  intro ts ps
  refine Nat.le_trans ?_ (sum_le_layout _)
  exact inPlaceZip_sum ts ps
theorem inPlaceZip_sum : ∀ (ts : List Token) (ps : List ParamType),
    (inPlaceZip ts ps).length ≤ ((encZip ts ps).map fun p => p.2.length).sum
  | [], ps => by simp [inPlaceZip]
  | tok :: ts, [] => by simp [inPlaceZip]
  | tok :: ts, p :: ps => by
    have h1 := inPlace_le tok p
    have h2 := inPlaceZip_sum ts ps
    simp only [inPlaceZip, encZip, List.length_append, List.map_cons, List.sum_cons]
    omega
end

theorem preimage_le (tok : Token) (t : ParamType) : (topicPreimage tok t).length ≤ (enc tok t).length := by
  refine Nat.le_trans ?_ (inPlace_le tok t)
  cases tok <;> cases t <;> simp [topicPreimage, inPlace, length_padRight] <;> omega

theorem args_dynamic (tok : Token) (t : ParamType) (h : dynamic t = true) :
    encodeArgs [tok] [t] = word 32 ++ enc tok t := by
  simp [encodeArgs, encZip, h, layout, Spec.heads, Spec.tails, headSize]

theorem preimage_static (tok : Token) (t : ParamType) (h : dynamic t = false) : topicPreimage tok t = enc tok t := by
  have : topicPreimage tok t = inPlace tok t := by
    cases t <;> cases tok <;> first | rfl | simp [dynamic] at h
  rw [this, inPlace_static tok t h]

theorem valueType_static {t : ParamType} (h : valueType t = true) : dynamic t = false ∧ staticSize t = 32 := by
  cases t <;> first | exact ⟨rfl, rfl⟩ | cases h

/-- a hash with a given value at one place -/
theorem exists_hash (b : Bytes) (w v : Word) : ∃ hash : Bytes → Word, hash b = w ∧ ∀ c, c ≠ b → hash c = v :=
  ⟨fun c => if c = b then w else v, by simp, fun c h => by simp [h]⟩

theorem other_word (b : Bytes) : ∃ w : Word, w.1 ≠ b := by
  by_cases h : b = List.replicate 32 0
  · refine ⟨⟨List.replicate 32 1, rfl⟩, ?_⟩
    subst h; decide
  · exact ⟨⟨List.replicate 32 0, rfl⟩, fun e => h e.symm⟩

/-- when is the hash of the encoding, or the encoding itself if it is one word, the topic for every hash function? -/
theorem right_iff (tok : Token) (t : ParamType) (ht : hasType tok t = true) (hc : codable t = true) :
    (∀ hash : Bytes → Word, (if (encodeArgs [tok] [t]).length = 32 then encodeArgs [tok] [t]
        else (hash (encodeArgs [tok] [t])).1) = topicOf hash tok t) ↔
      (valueType t = true ∨ (dynamic t = false ∧ staticSize t ≠ 32)) := by
  constructor
  · intro h
    by_cases hv : valueType t = true
    · exact Or.inl hv
    right
    simp only [topicOf, if_neg hv] at h
    by_cases hd : dynamic t = true
    · exfalso
      have hne : topicPreimage tok t ≠ encodeArgs [tok] [t] := by
        intro e
        have h1 := preimage_le tok t
        have h2 := congrArg List.length (args_dynamic tok t hd)
        rw [← e, List.length_append, length_word] at h2
        omega
      obtain ⟨w, hw⟩ := other_word (encodeArgs [tok] [t])
      obtain ⟨v, hv'⟩ := other_word w.1
      by_cases hl : (encodeArgs [tok] [t]).length = 32
      · have := h (fun _ => w)
        rw [if_pos hl] at this
        exact hw this.symm
      · obtain ⟨hash, h1, h2⟩ := exists_hash (encodeArgs [tok] [t]) w v
        have := h hash
        rw [if_neg hl, h1, h2 _ hne] at this
        exact hv' this.symm
    · rw [Bool.not_eq_true] at hd
      refine ⟨hd, fun hs => ?_⟩
      have hl := staticSize_enc tok t ht hc hd
      rw [encodeArgs_value tok t hd] at h
      obtain ⟨w, hw⟩ := other_word (enc tok t)
      have := h (fun _ => w)
      rw [if_pos (by omega)] at this
      exact hw this.symm
  · rintro (hv | ⟨hd, hs⟩) hash
    · obtain ⟨hd, hs⟩ := valueType_static hv
      have hl := staticSize_enc tok t ht hc hd
      rw [encodeArgs_value tok t hd, if_pos (by omega), topicOf, if_pos hv]
    · have hl := staticSize_enc tok t ht hc hd
      have hv : valueType t = false := by
        cases h : valueType t with
        | false => rfl
        | true => exact absurd (valueType_static h).2 hs
      rw [encodeArgs_value tok t hd, if_neg (by omega), topicOf, if_neg (by simp [hv]), preimage_static tok t hd]

end Ethabi.FilterExact

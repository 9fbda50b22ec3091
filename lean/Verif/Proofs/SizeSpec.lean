import Verif.Proofs.Size
import Verif.Proofs.Encode
/-! The size of a value is the length of its specified encoding. -/
namespace Ethabi
open Spec (Part headSize layout dynamic dynamicAny enc encAll encZip hasType allHaveType haveTypes codable codableAll size sizeAll tailed
  tailedAny roundUp encodeArgs)

theorem length_layout_cons (p : Part) (ps : List Part) :
    (layout (p :: ps)).length = (if p.1 then 32 else 0) + p.2.length + (layout ps).length := by
  obtain ⟨d, b⟩ := p
  rw [length_layout, length_layout]
  cases d <;> simp [headSize, Spec.tails] <;> omega

mutual
theorem size_enc : ∀ (tok : Token) (t : ParamType), hasType tok t = true → codable t = true → size tok = (enc tok t).length
  | .address a, t => by cases t <;> simp [hasType, enc, size, a.2]
  | .uint _, t => by cases t <;> simp [hasType, enc, size]
  | .int _, t => by cases t <;> simp [hasType, enc, size]
  | .bool _, t => by cases t <;> simp [hasType, enc, size]
  | .fixedBytes _, t => by cases t <;> simp [hasType, enc, size, length_padRight, roundUp, Nat.mul_comm]
  | .bytes _, t => by cases t <;> simp [hasType, enc, size, length_padRight, roundUp, Nat.mul_comm]
  | .string _, t => by cases t <;> simp [hasType, enc, size, length_padRight, roundUp, Nat.mul_comm]
  | .array ts, t => by
      cases t with
      | array t =>
        simp only [hasType, codable, enc, size, List.length_append, length_word]
        intro h1 h2
        rw [size_encAll ts t h1 h2]
      | _ => simp [hasType]
  | .fixedArray ts, t => by
      cases t with
      | fixedArray t n =>
        simp only [hasType, codable, Bool.and_eq_true, enc, size]
        intro h1 h2
        exact size_encAll ts t h1.2 h2.1
      | _ => simp [hasType]
  | .tuple ts, t => by
      cases t with
      | tuple ps =>
        simp only [hasType, codable, enc, size]
        exact size_encZip ts ps
      | _ => simp [hasType]
theorem size_encAll : ∀ (toks : List Token) (t : ParamType), allHaveType toks t = true → codable t = true →
    sizeAll toks = (layout (encAll toks t)).length
  | [], _ => by simp [sizeAll, encAll, layout, headSize, Spec.heads, Spec.tails]
  | tok :: toks, t => by
      simp only [allHaveType, Bool.and_eq_true, sizeAll, encAll, and_imp]
      intro h1 h2 h3
      rw [length_layout_cons, ← size_enc tok t h1 h3, ← size_encAll toks t h2 h3, ← isDynamic_tailed, isDynamic_eq tok t h1 h3]
theorem size_encZip : ∀ (toks : List Token) (ts : List ParamType), haveTypes toks ts = true → codableAll ts = true →
    sizeAll toks = (layout (encZip toks ts)).length
  | [], [] => by simp [sizeAll, encZip, layout, headSize, Spec.heads, Spec.tails]
  | [], _ :: _ => by simp [haveTypes]
  | _ :: _, [] => by simp [haveTypes]
  | tok :: toks, t :: ts => by
      simp only [haveTypes, codableAll, Bool.and_eq_true, sizeAll, encZip, and_imp]
      intro h1 h2 h3 h4
      rw [length_layout_cons, ← size_enc tok t h1 h3, ← size_encZip toks ts h2 h4, ← isDynamic_tailed, isDynamic_eq tok t h1 h3]
end

theorem size_encodeArgs (toks : List Token) (ts : List ParamType) (ht : haveTypes toks ts = true) (hc : codableAll ts = true) :
    sizeAll toks = (encodeArgs toks ts).length := size_encZip toks ts ht hc

end Ethabi

import Verif.Spec.Abi
/-!
# Outcomes of type checking and decoding

What `Token::types_check` accepts and where it runs out of types; where the decoder runs out of data.
-/
namespace Ethabi.Spec

mutual
/-- Like `valueOf`, but members may be missing at the end of a tuple. -/
def shortOf : Token → ParamType → Bool
  | .address _, .address => true
  | .uint _, .uint _ => true
  | .int _, .int _ => true
  | .bool _, .bool => true
  | .fixedBytes b, .fixedBytes n => decide (b.length ≤ n)
  | .bytes _, .bytes => true
  | .string _, .string => true
  | .array ts, .array t => shortOfAll ts t
  | .fixedArray ts, .fixedArray t n => ts.length == n && shortOfAll ts t
  | .tuple ts, .tuple ps => shortOfs ts ps
  | _, _ => false
def shortOfAll : List Token → ParamType → Bool
  | [], _ => true
  | tok :: toks, t => shortOf tok t && shortOfAll toks t
def shortOfs : List Token → List ParamType → Bool
  | [], _ => true
  | tok :: toks, t :: ts => shortOf tok t && shortOfs toks ts
  | _ :: _, [] => false
end

/-- Going through the values from left to right, up to the first one that is not of its type, one meets a tuple with more
members than its type has. -/
inductive Surplus : Token → ParamType → Prop where
  | array {a b : List Token} {x : Token} {t : ParamType} : shortOfAll a t = true → Surplus x t →
      Surplus (.array (a ++ x :: b)) (.array t)
  | fixedArray {a b : List Token} {x : Token} {t : ParamType} {n : Nat} : (a ++ x :: b).length = n →
      shortOfAll a t = true → Surplus x t → Surplus (.fixedArray (a ++ x :: b)) (.fixedArray t n)
  | member {a b : List Token} {x : Token} {ps qs : List ParamType} {p : ParamType} : a.length = ps.length →
      shortOfs a ps = true → Surplus x p → Surplus (.tuple (a ++ x :: b)) (.tuple (ps ++ p :: qs))
  | tooMany {a b : List Token} {x : Token} {ps : List ParamType} : a.length = ps.length →
      shortOfs a ps = true → Surplus (.tuple (a ++ x :: b)) (.tuple ps)

/-- The same for a list of arguments, as many as there are types. -/
def SurplusArgs (toks : List Token) (ts : List ParamType) : Prop :=
  toks.length = ts.length ∧ ∃ a x b ps p qs, toks = a ++ x :: b ∧ ts = ps ++ p :: qs ∧ a.length = ps.length ∧
    shortOfs a ps = true ∧ Surplus x p

end Ethabi.Spec

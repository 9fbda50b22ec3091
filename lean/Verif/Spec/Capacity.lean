import Verif.Spec.Size
/-!
# Specification: how an encoding is divided

Bytes of the head area and of the tail area of an encoded argument list (Contract ABI, "Formal specification of the encoding").
Independent of the encoder.
-/
namespace Ethabi.Spec

/-- Bytes of the heads: the values that are stored in place, and 32 bytes for the offset of each other value. -/
def headBytes : List Token → Nat
  | [] => 0
  | t :: ts => (if tailed t then 32 else size t) + headBytes ts

/-- Bytes of the tails: the values that are stored behind the heads. -/
def tailBytes : List Token → Nat
  | [] => 0
  | t :: ts => (if tailed t then size t else 0) + tailBytes ts

end Ethabi.Spec

import Verif.Model.Types
/-!
# How large a value is to the encoder
-/
namespace Ethabi.Spec

/-- words of 32 bytes that hold so many bytes -/
def wordsFor (n : Nat) : Nat := (n + 31) / 32

mutual
/-- two for every number, address or flag, at least one for every other value, the words of payloads and lengths -/
def bulk : Token → Nat
  | .address _ => 2
  | .int _ => 2
  | .uint _ => 2
  | .bool _ => 2
  | .fixedBytes b => 1 + wordsFor b.length
  | .bytes b => 2 + wordsFor b.length
  | .string s => 2 + wordsFor (s.flatMap String.utf8EncodeChar).length
  | .array ts => 2 + bulkAll ts
  | .fixedArray ts => 1 + bulkAll ts
  | .tuple ts => 1 + bulkAll ts
def bulkAll : List Token → Nat
  | [] => 0
  | t :: ts => bulk t + bulkAll ts
end

mutual
/-- how deeply arrays and tuples are nested -/
def depthOf : Token → Nat
  | .array ts => 1 + depthAll ts
  | .fixedArray ts => 1 + depthAll ts
  | .tuple ts => 1 + depthAll ts
  | .address _ => 0
  | .int _ => 0
  | .uint _ => 0
  | .bool _ => 0
  | .fixedBytes _ => 0
  | .bytes _ => 0
  | .string _ => 0
def depthAll : List Token → Nat
  | [] => 0
  | t :: ts => max (depthOf t) (depthAll ts)
end

/-- `k` arrays, one inside the other -/
def nestedArrays : Nat → Token
  | 0 => .array []
  | k + 1 => .array [nestedArrays k]

end Ethabi.Spec

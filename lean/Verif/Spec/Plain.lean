import Verif.Spec.Abi
import Verif.Model.Utf8
/-!
# Layout and meaning of values

The types without meaning: a word is a number, a byte string is bytes.
-/
namespace Ethabi.Spec

mutual
/-- the type with the same layout whose words are numbers and whose byte strings are bytes -/
def plain : ParamType → ParamType
  | .address => .uint 256
  | .int _ => .uint 256
  | .uint _ => .uint 256
  | .bool => .uint 256
  | .fixedBytes n => if n = 32 then .uint 256 else .fixedBytes n
  | .bytes => .bytes
  | .string => .bytes
  | .array t => .array (plain t)
  | .fixedArray t n => .fixedArray (plain t) n
  | .tuple ts => .tuple (plainAll ts)
def plainAll : List ParamType → List ParamType
  | [] => []
  | t :: ts => plain t :: plainAll ts
end

/-- the last 20 bytes of a word -/
def lastTwenty (x : U256) : Address := ⟨(word x.toNat).drop 12, by simp [word]⟩

/-- all of them, or none -/
def allOf {α β : Type} (f : α → Option β) : List α → Option (List β)
  | [] => some []
  | x :: xs => match f x, allOf f xs with
      | some y, some ys => some (y :: ys)
      | _, _ => none

mutual
/-- the value that a number or byte string stands for; numbers of 256 and more are no bool, those other than 1 are false -/
def readAs : ParamType → Token → Option Token
  | .address, .uint x => some (.address (lastTwenty x))
  | .int _, .uint x => some (.int x)
  | .uint _, .uint x => some (.uint x)
  | .bool, .uint x => if x.toNat < 256 then some (.bool (decide (x.toNat = 1))) else none
  | .fixedBytes _, .uint x => some (.fixedBytes (word x.toNat))
  | .fixedBytes _, .fixedBytes b => some (.fixedBytes b)
  | .bytes, .bytes b => some (.bytes b)
  | .string, .bytes b => some (.string (fromUtf8Lossy b))
  | .array t, .array vs => (allOf (readAs t) vs).map .array
  | .fixedArray t _, .fixedArray vs => (allOf (readAs t) vs).map .fixedArray
  | .tuple ts, .tuple vs => (readAll ts vs).map .tuple
  | _, _ => none
def readAll : List ParamType → List Token → Option (List Token)
  | [], [] => some []
  | t :: ts, v :: vs => match readAs t v, readAll ts vs with
      | some w, some ws => some (w :: ws)
      | _, _ => none
  | _, _ => none
end

mutual
/-- there is no bool in the type -/
def boolFree : ParamType → Bool
  | .bool => false
  | .array t => boolFree t
  | .fixedArray t _ => boolFree t
  | .tuple ts => boolFreeAll ts
  | _ => true
def boolFreeAll : List ParamType → Bool
  | [] => true
  | t :: ts => boolFree t && boolFreeAll ts
end

/-- the number that bytes stand for, highest first -/
def number (b : Bytes) : Nat := b.foldl (fun n x => 256 * n + x.toNat) 0

mutual
/-- the value as numbers and bytes -/
def plainValue : Token → Token
  | .address a => .uint (BitVec.ofNat 256 (number a.1))
  | .int x => .uint x
  | .uint x => .uint x
  | .bool b => .uint (if b then 1 else 0)
  | .fixedBytes b => if b.length = 32 then .uint (BitVec.ofNat 256 (number b)) else .fixedBytes b
  | .bytes b => .bytes b
  | .string s => .bytes (s.flatMap String.utf8EncodeChar)
  | .array vs => .array (plainValues vs)
  | .fixedArray vs => .fixedArray (plainValues vs)
  | .tuple vs => .tuple (plainValues vs)
def plainValues : List Token → List Token
  | [] => []
  | v :: vs => plainValue v :: plainValues vs
end

end Ethabi.Spec

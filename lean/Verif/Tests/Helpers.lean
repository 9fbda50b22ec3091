import Verif.Model.Json
import Verif.Model.Hex
/-!
# Helpers of the tests

Used only by the files under Verif/Tests, which are generated from the unit tests of the Rust code.
-/
namespace Ethabi.Tests

/-- bytes of hex rows, 32 bytes per row except the last one, `len` bytes in all -/
def hx (len : Nat) : List Nat → Bytes
  | [] => []
  | [r] => beBytes len r
  | r :: rs => beBytes 32 r ++ hx (len - 32) rs

/-- twenty bytes as an address -/
def addr (b : Bytes) : Address :=
  if h : b.length = 20 then ⟨b, h⟩ else ⟨List.replicate 20 0, by simp⟩

/-- thirty-two bytes as a hash -/
def word (b : Bytes) : Word :=
  if h : b.length = 32 then ⟨b, h⟩ else ⟨List.replicate 32 0, by simp⟩

/-- `H256::from_str` on 64 hex digits -/
def parseHash (s : Str) : Res Word :=
  (hexDecode s).bind fun b => if h : b.length = 32 then .ok ⟨b, h⟩ else .err .hex

/-- `Result::is_ok` -/
def isOk {α : Type} : Res α → Bool
  | .ok _ => true
  | _ => false

/-- `Result::is_err`; a panic is not an error -/
def isErr {α : Type} : Res α → Bool
  | .err _ => true
  | _ => false

/-- insert an object entry by key -/
def insertEntry (e : Str × Json) : List (Str × Json) → List (Str × Json)
  | [] => [e]
  | f :: fs => if String.ofList e.1 ≤ String.ofList f.1 then e :: f :: fs else f :: insertEntry e fs

mutual
/-- object entries sorted by key: `serde_json::Value` equality ignores their order (tests.rs) -/
def Json.sorted : Json → Json
  | .arr js => .arr (sortedAll js)
  | .obj fs => .obj (sortedEntries fs)
  | j => j
def sortedAll : List Json → List Json
  | [] => []
  | j :: js => Json.sorted j :: sortedAll js
def sortedEntries : List (Str × Json) → List (Str × Json)
  | [] => []
  | (k, j) :: fs => insertEntry (k, Json.sorted j) (sortedEntries fs)
end

mutual
/-- equality test -/
def Json.beq : Json → Json → Bool
  | .null, .null => true
  | .bool a, .bool b => a == b
  | .num a, .num b => a == b
  | .str a, .str b => a == b
  | .arr a, .arr b => beqAll a b
  | .obj a, .obj b => beqEntries a b
  | _, _ => false
def beqAll : List Json → List Json → Bool
  | [], [] => true
  | a :: as, b :: bs => Json.beq a b && beqAll as bs
  | _, _ => false
def beqEntries : List (Str × Json) → List (Str × Json) → Bool
  | [], [] => true
  | (k, a) :: as, (l, b) :: bs => k == l && Json.beq a b && beqEntries as bs
  | _, _ => false
end

/-- tests.rs `assert_json_eq` -/
def sameJson (a b : Json) : Bool := Json.beq (Json.sorted a) (Json.sorted b)

end Ethabi.Tests

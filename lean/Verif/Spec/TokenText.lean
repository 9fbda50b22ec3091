import Verif.Spec.Tokenize
import Verif.Model.Tokenizer
import Mathlib.Data.List.Forall2
/-!
# Which value a text denotes

`denotes m p s tok`: the text `s` denotes the value `tok` of type `p`.  `breaks m p s`: reading `s` cuts it inside a
character.  Of the model only the data types are used (`Tokenizer` is the choice strict or lenient).

Lists are cut at commas and at the closing bracket, but the positions of these characters are used as *byte* positions.
-/
namespace Ethabi.Spec

/-- number of bytes -/
def bytesIn (s : Str) : Nat := (s.map Char.utf8Size).sum

/-- `u` is the part of `s` from byte `a` to byte `b` -/
def partOf (s : Str) (a b : Nat) (u : Str) : Prop :=
  ∃ before after, s = before ++ u ++ after ∧ bytesIn before = a ∧ bytesIn (before ++ u) = b

/-- the characters outside quotes; `q`: a quote is open -/
def outside (q : Bool) : Str → Str
  | [] => []
  | ch :: cs => if ch = '"' then outside (!q) cs else if q then outside q cs else ch :: outside q cs

/-- a quote is open at the end -/
def quoted (s : Str) : Bool := s.count '"' % 2 == 1

/-- brackets open at the end -/
def depth (o c : Char) (s : Str) : Int := ((outside false s).count o : Int) - (outside false s).count c

/-- nowhere up to position `i` more brackets are closed than opened -/
def sound (o c : Char) (s : Str) (i : Nat) : Bool := (List.range (i + 1)).all fun j => decide (0 ≤ depth o c (s.take j))

/-- the text is cut at position `i`: a comma or closing bracket with one bracket open, not quoted -/
def isCut (o c : Char) (s : Str) (i : Nat) : Bool :=
  (s[i]? == some ',' || s[i]? == some c) && !quoted (s.take i) && depth o c (s.take i) == 1 && sound o c s i

def cuts (o c : Char) (s : Str) : List Nat := (List.range s.length).filter (isCut o c s)

/-- from the first position to the first cut, from behind it to the next, … -/
def spans : Nat → List Nat → List (Nat × Nat)
  | _, [] => []
  | a, p :: ps => (a, p) :: spans (p + 1) ps

/-- the text begins and ends with the brackets -/
def bracketed (o c : Char) (s : Str) : Prop := s.head? = some o ∧ s.getLast? = some c

/-- the text is a list of the parts `us` -/
def listOf (o c : Char) (s : Str) (us : List Str) : Prop :=
  bracketed o c s ∧
    ((s.length = 2 ∧ us = []) ∨
      (s.length ≠ 2 ∧ sound o c s s.length = true ∧ quoted s = false ∧
        List.Forall₂ (fun ab u => partOf s ab.1 ab.2 u) (spans 1 (cuts o c s)) us))

/-- the parts `us` come first, then `next`; `none`: the cut is inside a character -/
def partsThen (o c : Char) (s : Str) (us : List Str) (next : Option Str) : Prop :=
  bracketed o c s ∧ s.length ≠ 2 ∧ ∃ now ab later, spans 1 (cuts o c s) = now ++ ab :: later ∧
    List.Forall₂ (fun ab u => partOf s ab.1 ab.2 u) now us ∧
    ∀ u, next = some u ↔ partOf s ab.1 ab.2 u

/-- two hexadecimal digits for each byte -/
def hexText (s : Str) (b : Bytes) : Prop := s.length = 2 * b.length ∧ hexadecimal s = some (beNat b)

mutual
def denotes (m : Tokenizer) : ParamType → Str → Token → Prop
  | .address, s, tok => ∃ a : Address, hexText s a.1 ∧ tok = .address a
  | .bytes, s, tok => ∃ b, hexText s b ∧ tok = .bytes b
  | .fixedBytes n, s, tok => ∃ b, hexText s b ∧ b.length = n ∧ tok = .fixedBytes b
  | .string, s, tok => tok = .string s
  | .bool, s, tok => (s = lit "true" ∨ s = lit "1") ∧ tok = .bool true ∨ (s = lit "false" ∨ s = lit "0") ∧ tok = .bool false
  | .uint _, s, tok => ∃ n, tok = .uint (BitVec.ofNat 256 n) ∧ (s.length = 64 ∧ hexadecimal s = some n ∨
      m = .lenient ∧ isFullHex s = false ∧ decimal s = some n ∧ n < 2 ^ 256)
  | .int _, s, tok => (∃ n, tok = .int (BitVec.ofNat 256 n) ∧ s.length = 64 ∧ hexadecimal s = some n) ∨
      ∃ i, tok = .int (BitVec.ofInt 256 i) ∧ m = .lenient ∧ isFullHex s = false ∧ signedDecimal s = some i ∧
        -2 ^ 255 ≤ i ∧ i < 2 ^ 255
  | .array p, s, tok => ∃ us ts, listOf '[' ']' s us ∧ List.Forall₂ (fun u t => denotes m p u t) us ts ∧ tok = .array ts
  | .fixedArray p n, s, tok => ∃ us ts, listOf '[' ']' s us ∧ List.Forall₂ (fun u t => denotes m p u t) us ts ∧
      ts.length = n ∧ tok = .fixedArray ts
  | .tuple ps, s, tok => ∃ us ts, listOf '(' ')' s us ∧ denotesEach m ps us ts ∧ tok = .tuple ts
/-- the parts denote values of the first types (there may be more types than parts) -/
def denotesEach (m : Tokenizer) : List ParamType → List Str → List Token → Prop
  | _, [], ts => ts = []
  | [], _ :: _, _ => False
  | p :: ps, u :: us, ts => ∃ t rest, denotes m p u t ∧ denotesEach m ps us rest ∧ ts = t :: rest
end

mutual
def breaks (m : Tokenizer) : ParamType → Str → Prop
  | .array p, s => ∃ us ts next, partsThen '[' ']' s us next ∧ List.Forall₂ (fun u t => denotes m p u t) us ts ∧
      (next = none ∨ ∃ u, next = some u ∧ breaks m p u)
  | .fixedArray p _, s => ∃ us ts next, partsThen '[' ']' s us next ∧ List.Forall₂ (fun u t => denotes m p u t) us ts ∧
      (next = none ∨ ∃ u, next = some u ∧ breaks m p u)
  | .tuple ps, s => ∃ us ts next, partsThen '(' ')' s us next ∧ denotesEach m ps us ts ∧
      (next = none ∨ ∃ u, next = some u ∧ breaksAt m ps us.length u)
  | _, _ => False
/-- the type at this place breaks -/
def breaksAt (m : Tokenizer) : List ParamType → Nat → Str → Prop
  | [], _, _ => False
  | p :: _, 0, u => breaks m p u
  | _ :: ps, i + 1, u => breaksAt m ps i u
end

end Ethabi.Spec

import Verif.Spec.AnyText
import Verif.Spec.RefusedText
/-!
# Why an ASCII type text is refused

The rules for suffixes and names are those of `Spec/RefusedText.lean`.  The text of a tuple is followed piece by piece as in
`Spec/AnyText.lean`; the first part that is refused gives the error.
-/
namespace Ethabi.Spec.AnyText

/-- Where a piece starts.
`inside n w`: within the tuple, `n` of its inner parentheses are open; `w` is the text from the last opening parenthesis on.
`outside w`: all parentheses are closed; `w` is the text behind the last one, without commas at its start.
`reopened w`: a parenthesis has been opened after that, and no other since; `w` is the same text with that parenthesis. -/
inductive Spot where
  | inside (n : Nat) (w : Str)
  | outside (w : Str)
  | reopened (w : Str)

/-- the text up to the next comma or closing parenthesis -/
def upToMark : List Cut → Str
  | [] => []
  | ⟨p, .opening⟩ :: r => p ++ "(".toList ++ upToMark r
  | ⟨p, .closing⟩ :: _ => p
  | ⟨p, .comma⟩ :: _ => p

/-- the cuts without that text -/
def behindMark : List Cut → List Cut
  | [] => []
  | ⟨_, .opening⟩ :: r => behindMark r
  | ⟨_, .closing⟩ :: r => ⟨[], .closing⟩ :: r
  | ⟨_, .comma⟩ :: r => ⟨[], .comma⟩ :: r

/-- nothing, or a type's text -/
def Fine (p : Str) : Prop := p = [] ∨ ∃ t, Text p t

mutual
/-- the texts that are refused, and the errors -/
inductive RefusedAny : Str → Err → Prop where
  /-- the last suffix holds something that is no number -/
  | size {s d : Str} : '[' ∉ d → d ≠ [] → notNumber d → RefusedAny (s ++ "[".toList ++ d ++ "]".toList) .parseInt
  /-- also if it is not opened -/
  | unopened {d : Str} : '[' ∉ d → d ≠ [] → notNumber d → RefusedAny (d ++ "]".toList) .parseInt
  | array {s : Str} {e : Err} : RefusedAny s e → RefusedAny (s ++ "[]".toList) e
  | fixedArray {s d : Str} {n : Nat} {e : Err} : RefusedAny s e → numberText d n →
      RefusedAny (s ++ "[".toList ++ d ++ "]".toList) e
  /-- a width that is no number -/
  | width {p d : Str} : p ∈ numbered → d ≠ [] → noSuffix (p ++ d) → notNumber d → RefusedAny (p ++ d) .parseInt
  /-- a name that is not known is given back -/
  | name {s : Str} : noSuffix s → s ∉ named → (∀ p ∈ numbered, ¬ p <+: s) → RefusedAny s (.invalidName s)
  /-- the end of a tuple without its start -/
  | notOpened {s : Str} : s.getLast? = some ')' → s.head? ≠ some '(' → RefusedAny s (.invalidName s)
  /-- a tuple -/
  | tuple {cs : List Cut} {e : Err} : Proper cs → Stops ("(".toList ++ cutsText cs) (.inside 0 "(".toList) cs e →
      RefusedAny ("(".toList ++ cutsText cs) e
/-- `Stops whole spot cuts e`: from this spot on reading the tuple's text `whole` ends with the error `e`. -/
inductive Stops : Str → Spot → List Cut → Err → Prop where
  /-- a member before a comma is refused -/
  | badMember {whole : Str} {n : Nat} {w p : Str} {r : List Cut} {e : Err} : RefusedAny p e → p ≠ [] →
      Stops whole (.inside n w) (⟨p, .comma⟩ :: r) e
  | member {whole : Str} {n : Nat} {w p : Str} {r : List Cut} {e : Err} : Fine p →
      Stops whole (.inside n (w ++ p ++ ",".toList)) r e → Stops whole (.inside n w) (⟨p, .comma⟩ :: r) e
  /-- text before an opening parenthesis is ignored -/
  | open {whole : Str} {n : Nat} {w p : Str} {r : List Cut} {e : Err} : Stops whole (.inside (n + 1) "(".toList) r e →
      Stops whole (.inside n w) (⟨p, .opening⟩ :: r) e
  /-- the last member of the tuple is refused -/
  | badLast {whole w p : Str} {r : List Cut} {e : Err} : RefusedAny p e → p ≠ [] →
      Stops whole (.inside 0 w) (⟨p, .closing⟩ :: r) e
  | last {whole w p : Str} {r : List Cut} {e : Err} : Fine p → Stops whole (.outside []) r e →
      Stops whole (.inside 0 w) (⟨p, .closing⟩ :: r) e
  /-- nothing between the last mark and a closing parenthesis -/
  | close {whole : Str} {n : Nat} {w : Str} {r : List Cut} {e : Err} : Stops whole (.inside n (w ++ ")".toList)) r e →
      Stops whole (.inside (n + 1) w) (⟨[], .closing⟩ :: r) e
  /-- the text from the last opening parenthesis to the next comma or parenthesis is refused -/
  | badGroup {whole : Str} {n : Nat} {w p : Str} {r : List Cut} {e : Err} : p ≠ [] →
      RefusedAny (w ++ p ++ ")".toList ++ upToMark r) e → Stops whole (.inside (n + 1) w) (⟨p, .closing⟩ :: r) e
  | group {whole : Str} {n : Nat} {w p : Str} {r : List Cut} {t : ParamType} {e : Err} : p ≠ [] →
      Text (w ++ p ++ ")".toList ++ upToMark r) t →
      Stops whole (.inside n (w ++ p ++ ")".toList ++ upToMark r)) (behindMark r) e →
      Stops whole (.inside (n + 1) w) (⟨p, .closing⟩ :: r) e
  /-- outside, a comma at the start is dropped -/
  | comma {whole : Str} {r : List Cut} {e : Err} : Stops whole (.outside []) r e →
      Stops whole (.outside []) (⟨[], .comma⟩ :: r) e
  | passed {whole w p : Str} {r : List Cut} {e : Err} : w ++ p ≠ [] → Stops whole (.outside (w ++ p ++ ",".toList)) r e →
      Stops whole (.outside w) (⟨p, .comma⟩ :: r) e
  | reopen {whole w p : Str} {r : List Cut} {e : Err} : Stops whole (.reopened (w ++ p ++ "(".toList)) r e →
      Stops whole (.outside w) (⟨p, .opening⟩ :: r) e
  /-- a parenthesis is closed that is not open -/
  | tooMany {whole w p : Str} {r : List Cut} : Stops whole (.outside w) (⟨p, .closing⟩ :: r) (.invalidName whole)
  /-- a comma or a closing parenthesis: what is behind the tuple is read, and refused -/
  | refused {whole w p : Str} {d : Mark} {r : List Cut} {e : Err} : d ≠ .opening → RefusedAny (w ++ p) e →
      Stops whole (.reopened w) (⟨p, d⟩ :: r) e
  | again {whole w p : Str} {r : List Cut} {e : Err} : Stops whole (.inside 1 "(".toList) r e →
      Stops whole (.reopened w) (⟨p, .opening⟩ :: r) e
end

end Ethabi.Spec.AnyText

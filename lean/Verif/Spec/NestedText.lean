import Verif.Spec.TypeText
/-!
# Tuple texts with tuples inside

Texts of a tuple whose members may contain one parenthesised list each, and how `Reader::read` understands them.
-/
namespace Ethabi.Spec

/-- a member of a tuple, as written: text without parentheses, or text with one parenthesised list in it.
`group before inside last after` is `before(inside1,…,insideN,last)after`. -/
inductive Piece where
  | plain (p : Str)
  | group (before : Str) (inside : List Str) (last : Str) (after : Str)

/-- the member's text -/
def Piece.text : Piece → Str
  | .plain p => p
  | .group before inside last after =>
      before ++ "(".toList ++ commaSeparated (inside ++ [last]) ++ ")".toList ++ after

/-- ASCII text without parentheses and commas -/
def NoDelimiter (s : Str) : Prop := ∀ c ∈ s, c.toNat < 128 ∧ c ≠ '(' ∧ c ≠ ')' ∧ c ≠ ','

/-- the parts of the member are ASCII texts without parentheses and commas -/
def Piece.Plain : Piece → Prop
  | .plain p => NoDelimiter p
  | .group before inside last after =>
      NoDelimiter before ∧ (∀ p ∈ inside, NoDelimiter p) ∧ NoDelimiter last ∧ NoDelimiter after

/-- What a member stands for.  Text before the parenthesis is ignored.  A list whose last piece is empty is
dropped, and text after it is a member of its own. -/
inductive PieceMembers : Piece → List ParamType → Prop where
  | nothing : PieceMembers (.plain []) []
  | plain {p : Str} {t : ParamType} : TypeText p t → PieceMembers (.plain p) [t]
  | group {before : Str} {inside : List Str} {last after : Str} {t : ParamType} : last ≠ [] →
      FlatText ("(".toList ++ commaSeparated (inside ++ [last]) ++ ")".toList ++ after) t →
      PieceMembers (.group before inside last after) [t]
  | dropped {before : Str} {inside : List Str} {ts : List ParamType} : Members inside ts →
      PieceMembers (.group before inside [] []) []
  | after {before : Str} {inside : List Str} {ts : List ParamType} {after : Str} {t : ParamType} :
      Members inside ts → TypeText after t → PieceMembers (.group before inside [] after) [t]

/-- the members, in order -/
inductive NestedMembers : List Piece → List ParamType → Prop where
  | nil : NestedMembers [] []
  | cons {p : Piece} {ps : List Piece} {ts us : List ParamType} : PieceMembers p ts → NestedMembers ps us →
      NestedMembers (p :: ps) (ts ++ us)

/-- a suffix without its opening bracket starts a member, or a member of the member, or the text after a dropped
list -/
inductive PieceUnopened : Piece → Prop where
  | plain {p : Str} : Unopened p → PieceUnopened (.plain p)
  | inside {before : Str} {ps qs : List Str} {p last after : Str} {ts : List ParamType} : Members ps ts → Unopened p →
      PieceUnopened (.group before (ps ++ p :: qs) last after)
  | group {before : Str} {inside : List Str} {last after : Str} : last ≠ [] →
      FlatUnopened ("(".toList ++ commaSeparated (inside ++ [last]) ++ ")".toList ++ after) →
      PieceUnopened (.group before inside last after)
  | after {before : Str} {inside : List Str} {ts : List ParamType} {after : Str} : Members inside ts →
      Unopened after → PieceUnopened (.group before inside [] after)

/-- the tuple's text -/
def tupleText (ps : List Piece) : Str := "(".toList ++ commaSeparated (ps.map Piece.text) ++ ")".toList

end Ethabi.Spec

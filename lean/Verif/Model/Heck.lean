import Verif.Model.Generate
/-!
# The case conversions of `heck`

derive/Cargo.toml:12 takes `to_snake_case` and `to_camel_case` from the crate `heck` 0.3.  Its source is not in the repository;
what follows is its algorithm as published, for names over the characters of Solidity identifiers: letters, digits, `_` and `$`.
The tests in `Tests/Heck.lean` are the examples of the crate's documentation.

For names with other characters the definitions below are not those of `heck`, which follows the word boundaries of Unicode; no
theorem uses them there.
-/
namespace Ethabi.Heck

/-- `WordMode` of heck 0.3 -/
inductive WordMode where
  | boundary | lowercase | uppercase
deriving DecidableEq

/-- the mode after the character `c` -/
def WordMode.next (mode : WordMode) (c : Char) : WordMode :=
  if c.isLower then .lowercase else if c.isUpper then .uppercase else mode

/-- The loop of `transform` of heck 0.3 over one word of Unicode; `cur` is `word[init..i]`.  An underscore is skipped at the start
of a piece.  A piece ends before an underscore, before a capital that follows a small letter, and before the last of a row of
capitals when a small letter follows. -/
def pieces : WordMode → Str → Str → List Str
  | _, _, [] => []
  | mode, cur, c :: rest =>
    if c = '_' then pieces mode (if cur.isEmpty then [] else cur ++ [c]) rest
    else match rest with
      | [] => [cur ++ [c]]
      | d :: _ =>
        if d = '_' || (mode.next c = .lowercase && d.isUpper) then (cur ++ [c]) :: pieces .boundary [] rest
        else if mode = .uppercase && c.isUpper && d.isLower then cur :: pieces .boundary [c] rest
        else pieces (mode.next c) (cur ++ [c]) rest

/-- `unicode_words` of the crate `unicode-segmentation` on the characters of Solidity identifiers: letters, digits and `_` stick
together, `$` is apart.  The crate drops words without letters and digits; `pieces` finds nothing in those. -/
def unicodeWords : Str → List Str
  | [] => [[]]
  | c :: s =>
    if c = '$' then [] :: unicodeWords s
    else match unicodeWords s with
      | [] => [[c]]
      | w :: ws => (c :: w) :: ws

/-- the pieces into which `transform` takes a name apart -/
def words (s : Str) : List Str := (unicodeWords s).flatMap (pieces .boundary [])

/-- `lowercase` of heck 0.3 -/
def lower (w : Str) : Str := w.map Char.toLower

/-- `capitalize` of heck 0.3: first character in upper case, the others in lower case -/
def capitalize : Str → Str
  | [] => []
  | c :: w => c.toUpper :: lower w

/-- pieces with `_` between them -/
def underscored : List Str → Str
  | [] => []
  | [w] => w
  | w :: v :: ws => w ++ '_' :: underscored (v :: ws)

/-- `SnakeCase::to_snake_case` -/
def snake (s : Str) : Str := underscored ((words s).map lower)

/-- `CamelCase::to_camel_case` -/
def camel (s : Str) : Str := (words s).flatMap capitalize

/-- `syn::Ident::new` on letters, digits and underscores: not empty and not starting with a digit.  Keywords are accepted. -/
def identOk : Str → Bool
  | [] => false
  | c :: s => (c.isAlpha || c = '_') && s.all fun d => d.isAlphanum || d = '_'

/-- the functions that the generator uses -/
def naming : Naming := ⟨snake, camel, identOk⟩

end Ethabi.Heck

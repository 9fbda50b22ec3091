import Verif.Model.Derive
import Verif.Spec.Generated
/-!
# Names in generated code

What the case conversions make of the names of an ABI, without the algorithm that takes names apart.
-/
namespace Ethabi.Names
open Spec

/-- letters, digits, `_` and `$`, the characters of Solidity identifiers -/
def identifier (s : Str) : Bool := s.all fun c => c.isAlphanum || c = '_' || c = '$'

/-- the letters and digits, in lower case -/
def letters (s : Str) : Str := (s.filter Char.isAlphanum).map Char.toLower

/-- the first letter or digit is a letter -/
def startsWithLetter (s : Str) : Bool := (s.find? Char.isAlphanum).any Char.isAlpha

/-- small letters and digits, with single underscores between them; `gap`: there may be no underscore here -/
def snakeShapedFrom : Bool → Str → Bool
  | gap, [] => !gap
  | gap, c :: s => if c = '_' then !gap && snakeShapedFrom true s else (c.isLower || c.isDigit) && snakeShapedFrom false s

/-- empty, or small letters and digits with single underscores between them -/
def snakeShaped (s : Str) : Bool := s.isEmpty || snakeShapedFrom true s

/-- Every capital follows a small letter, or follows a capital and is followed by a small letter, where digits in between do not
count; `last` is the last letter so far. -/
def camelShapedFrom : Option Char → Str → Bool
  | _, [] => true
  | last, c :: s =>
      c.isAlphanum && (!c.isUpper || last.any Char.isLower || (last.any Char.isUpper && s.head?.any Char.isLower)) &&
        camelShapedFrom (if c.isAlpha then some c else last) s

/-- letters and digits, the first not a small letter, and every further capital after a small letter or between a capital and
a small letter -/
def camelShaped : Str → Bool
  | [] => true
  | c :: s => c.isAlphanum && !c.isLower && camelShapedFrom (if c.isAlpha then some c else none) s

/-- Does a word start at the letter or digit `c`?  `prev` is the character before it, `last` the last letter before it since the
last `_` or `$`, and `rest` follows it.  A word starts after `_` and `$` and at the start of the name, at a capital after a small
letter, and at a capital after a capital if a small letter follows; digits in between do not count. -/
def startsWord (prev last : Option Char) (c : Char) (rest : Str) : Bool :=
  !prev.any Char.isAlphanum ||
    (c.isUpper && (last.any Char.isLower || (last.any Char.isUpper && rest.head?.any Char.isLower)))

/-- the letters and digits, each with the mark whether a word starts there -/
def marked : Option Char → Option Char → Str → List (Bool × Char)
  | _, _, [] => []
  | prev, last, c :: s =>
      if c.isAlphanum then (startsWord prev last c s, c) :: marked (some c) (if c.isAlpha then some c else last) s
      else marked (some c) none s

/-- in camel case: capitals where words start, small letters elsewhere -/
def camelText (s : Str) : Str := (marked none none s).map fun m => if m.1 then m.2.toUpper else m.2.toLower

/-- in snake case: small letters, with `_` before each word but the first -/
def snakeText (s : Str) : Str :=
  match marked none none s with
  | [] => []
  | m :: ms => m.2.toLower :: ms.flatMap fun m => if m.1 then ['_', m.2.toLower] else [m.2.toLower]

/-- the names of parameters, functions and events in a contract -/
def namesOf (c : Contract) : List Str :=
  (match c.constructor with | none => [] | some k => k.inputs.map (·.name)) ++
    c.allFunctions.flatMap (fun f => f.name :: f.inputs.map (·.name)) ++
    c.allEvents.flatMap (fun e => e.name :: e.inputs.map (·.name))

/-- A parameter may be without a name; functions and events may not. -/
def paramNameOk (s : Str) : Bool := s.isEmpty || startsWithLetter s

/-- contracts for which text is generated, if all names are over the characters of identifiers -/
def generates (c : Contract) : Bool :=
  (match c.constructor with
    | .none => true
    | .some k => k.inputs.all fun p => tupleFree p.kind && paramNameOk p.name) &&
  (c.allFunctions.all fun f =>
    (f.inputs.all fun p => tupleFree p.kind && paramNameOk p.name) &&
    (f.outputs.all fun p => tupleFree p.kind && indexable p.kind) && startsWithLetter f.name) &&
  (c.allEvents.all fun e =>
    (e.inputs.all fun p => tupleFree p.kind && indexable p.kind && paramNameOk p.name) && startsWithLetter e.name)

end Ethabi.Names

import Verif.Spec.NestedText
/-!
# Every ASCII type text

How `Reader::read` understands a tuple's text, whatever the parentheses in it.  The text after the first `(` is cut
at its parentheses and commas; the rules follow the cuts from left to right.
-/
namespace Ethabi.Spec.AnyText

/-- what ends a piece of the text -/
inductive Mark where
  | opening
  | closing
  | comma
deriving DecidableEq

/-- the mark's character -/
def Mark.char : Mark → Char
  | .opening => '('
  | .closing => ')'
  | .comma => ','

/-- a piece of text and the mark that ends it -/
structure Cut where
  text : Str
  mark : Mark

/-- the text cut into these pieces -/
def cutsText (cs : List Cut) : Str := cs.flatMap fun c => c.text ++ [c.mark.char]

/-- Where a piece starts.
`inside n g`: within the tuple, `n` of its inner parentheses are open; `g` is `some` of the pieces since the last
opening parenthesis, or `none` if that one has been closed.
`outside`: all parentheses are closed.
`reopened`: a parenthesis has been opened after that, and no other since. -/
inductive Place where
  | inside (n : Nat) (g : Option (List Str))
  | outside
  | reopened

/-- the place after an inner (`n + 1`) or the outer (`0`) parenthesis is closed -/
def closed : Nat → Place
  | 0 => .outside
  | n + 1 => .inside n none

/-- the text of the next piece -/
def nextText : List Cut → Str
  | [] => []
  | c :: _ => c.text

/-- the text of the next piece taken away -/
def withoutNext : List Cut → List Cut
  | [] => []
  | c :: cs => ⟨[], c.mark⟩ :: cs

/-- an innermost list with what follows it: `(ps1,…,psN,p)after` -/
def listText (ps : List Str) (p after : Str) : Str :=
  "(".toList ++ commaSeparated (ps ++ [p]) ++ ")".toList ++ after

/-- `Understood place kept cuts o`: from this place on the cuts contribute the types `ts` to the tuple
(`o = some ts`), or make the reader panic (`o = none`).  `kept` holds one list of types for every inner parenthesis
opened so far; the list at index `n` takes the members read while `n + 1` inner parentheses are open. -/
inductive Understood : Place → List (List ParamType) → List Cut → Option (List ParamType) → Prop where
  | done {pl : Place} {kept : List (List ParamType)} : Understood pl kept [] (some [])
  /-- an empty piece before a comma is skipped -/
  | skip {n : Nat} {g : Option (List Str)} {kept : List (List ParamType)} {r : List Cut} {o : Option (List ParamType)} :
      Understood (.inside n (g.map (· ++ [[]]))) kept r o →
      Understood (.inside n g) kept (⟨[], .comma⟩ :: r) o
  /-- a member of the tuple itself -/
  | member {g : Option (List Str)} {kept : List (List ParamType)} {p : Str} {t : ParamType} {r : List Cut}
      {o : Option (List ParamType)} : TypeText p t → Understood (.inside 0 (g.map (· ++ [p]))) kept r o →
      Understood (.inside 0 g) kept (⟨p, .comma⟩ :: r) (o.map (t :: ·))
  /-- a member within inner parentheses is kept -/
  | keep {n : Nat} {g : Option (List Str)} {kept : List (List ParamType)} {us : List ParamType} {p : Str}
      {t : ParamType} {r : List Cut} {o : Option (List ParamType)} : TypeText p t → kept[n]? = some us →
      Understood (.inside (n + 1) (g.map (· ++ [p]))) (kept.set n (us ++ [t])) r o →
      Understood (.inside (n + 1) g) kept (⟨p, .comma⟩ :: r) o
  /-- a member that makes the reader panic -/
  | badMember {n : Nat} {g : Option (List Str)} {kept : List (List ParamType)} {p : Str} {r : List Cut} :
      Unopened p → Understood (.inside n g) kept (⟨p, .comma⟩ :: r) none
  /-- text before an opening parenthesis is ignored -/
  | open {n : Nat} {g : Option (List Str)} {kept : List (List ParamType)} {p : Str} {r : List Cut}
      {o : Option (List ParamType)} : Understood (.inside (n + 1) (some [])) (kept ++ [[]]) r o →
      Understood (.inside n g) kept (⟨p, .opening⟩ :: r) o
  /-- nothing between the last mark and a closing parenthesis: only the parenthesis is closed -/
  | close {n : Nat} {g : Option (List Str)} {kept : List (List ParamType)} {r : List Cut}
      {o : Option (List ParamType)} : Understood (closed n) kept r o →
      Understood (.inside n g) kept (⟨[], .closing⟩ :: r) o
  /-- the last member of the tuple -/
  | last {g : Option (List Str)} {kept : List (List ParamType)} {p : Str} {t : ParamType} {r : List Cut}
      {o : Option (List ParamType)} : TypeText p t → Understood .outside kept r o →
      Understood (.inside 0 g) kept (⟨p, .closing⟩ :: r) (o.map (t :: ·))
  | badLast {g : Option (List Str)} {kept : List (List ParamType)} {p : Str} {r : List Cut} :
      Unopened p → Understood (.inside 0 g) kept (⟨p, .closing⟩ :: r) none
  /-- an innermost list directly in the tuple -/
  | group {kept : List (List ParamType)} {ps : List Str} {p : Str} {t : ParamType} {r : List Cut}
      {o : Option (List ParamType)} : p ≠ [] → (∀ c ∈ r.head?, c.mark ≠ .opening) →
      FlatText (listText ps p (nextText r)) t → Understood (.inside 0 none) kept (withoutNext r) o →
      Understood (.inside 1 (some ps)) kept (⟨p, .closing⟩ :: r) (o.map (t :: ·))
  /-- an innermost list further inside, put behind the members kept for the parenthesis around it -/
  | deepGroup {n : Nat} {kept : List (List ParamType)} {us : List ParamType} {ps : List Str} {p : Str}
      {t : ParamType} {r : List Cut} {o : Option (List ParamType)} : p ≠ [] →
      (∀ c ∈ r.head?, c.mark ≠ .opening) → FlatText (listText ps p (nextText r)) t → kept[n]? = some us →
      Understood (.inside (n + 1) none) (kept.set n []) (withoutNext r) o →
      Understood (.inside (n + 2) (some ps)) kept (⟨p, .closing⟩ :: r) (o.map (.tuple (us ++ [t]) :: ·))
  | badGroup {n : Nat} {kept : List (List ParamType)} {ps : List Str} {p : Str} {r : List Cut} : p ≠ [] →
      (∀ c ∈ r.head?, c.mark ≠ .opening) → FlatUnopened (listText ps p (nextText r)) →
      Understood (.inside (n + 1) (some ps)) kept (⟨p, .closing⟩ :: r) none
  /-- outside, pieces before commas are ignored -/
  | passed {kept : List (List ParamType)} {p : Str} {r : List Cut} {o : Option (List ParamType)} :
      Understood .outside kept r o → Understood .outside kept (⟨p, .comma⟩ :: r) o
  /-- and a parenthesis may be opened -/
  | reopen {kept : List (List ParamType)} {p : Str} {r : List Cut} {o : Option (List ParamType)} :
      Understood .reopened kept r o → Understood .outside kept (⟨p, .opening⟩ :: r) o
  /-- if another one follows -/
  | again {kept : List (List ParamType)} {p : Str} {r : List Cut} {o : Option (List ParamType)} :
      Understood (.inside 1 (some [])) (kept ++ [[]]) r o → Understood .reopened kept (⟨p, .opening⟩ :: r) o

/-- no parentheses and commas in the pieces, and the last mark is `)` -/
def Proper (cs : List Cut) : Prop :=
  (∀ c ∈ cs, NoDelimiter c.text) ∧ cs.getLast?.map Cut.mark = some .closing

/-- the texts that are accepted, and the types they stand for -/
inductive Text : Str → ParamType → Prop where
  | elementary {s : Str} {t : ParamType} : Elementary s t → Text s t
  | tuple {cs : List Cut} {ts : List ParamType} : Proper cs → Understood (.inside 0 (some [])) [] cs (some ts) →
      Text ("(".toList ++ cutsText cs) (.tuple ts)
  | array {s : Str} {t : ParamType} : Text s t → Text (s ++ "[]".toList) (.array t)
  | fixedArray {s d : Str} {t : ParamType} {n : Nat} : Text s t → numberText d n →
      Text (s ++ "[".toList ++ d ++ "]".toList) (.fixedArray t n)

/-- the texts on which the reader panics -/
inductive Crash : Str → Prop where
  | bare : Crash "]".toList
  | number {d : Str} {n : Nat} : numberText d n → Crash (d ++ "]".toList)
  | tuple {cs : List Cut} : Proper cs → Understood (.inside 0 (some [])) [] cs none →
      Crash ("(".toList ++ cutsText cs)
  | array {s : Str} : Crash s → Crash (s ++ "[]".toList)
  | fixedArray {s d : Str} {n : Nat} : Crash s → numberText d n → Crash (s ++ "[".toList ++ d ++ "]".toList)

end Ethabi.Spec.AnyText

import Verif.Model.Contract
/-!
# JSON documents that describe the same ABI

Two relations on documents, written without reference to the deserialisers: documents that differ in the order of
object entries (`Shuffled`), and documents without the entries that the ABI format does not define (`tidyContract`).
-/
namespace Ethabi

mutual
/-- the second document is the first one with the entries of any of its objects, at any depth, in another order -/
inductive Shuffled : Json → Json → Prop
  | refl (j : Json) : Shuffled j j
  | arr {xs ys : List Json} : ShuffledAll xs ys → Shuffled (.arr xs) (.arr ys)
  | obj {fs gs hs : List (Str × Json)} : ShuffledEntries fs gs → gs.Perm hs → Shuffled (.obj fs) (.obj hs)
/-- element by element -/
inductive ShuffledAll : List Json → List Json → Prop
  | nil : ShuffledAll [] []
  | cons {x y : Json} {xs ys : List Json} : Shuffled x y → ShuffledAll xs ys → ShuffledAll (x :: xs) (y :: ys)
/-- entry by entry, with equal keys -/
inductive ShuffledEntries : List (Str × Json) → List (Str × Json) → Prop
  | nil : ShuffledEntries [] []
  | cons {k : Str} {x y : Json} {xs ys : List (Str × Json)} : Shuffled x y → ShuffledEntries xs ys →
      ShuffledEntries ((k, x) :: xs) ((k, y) :: ys)
end

/-- keep the entries whose key is one of `keys`, with `sub` applied to their values -/
def tidyEntries (keys : List Str) (sub : Str → Json → Json) : List (Str × Json) → List (Str × Json)
  | [] => []
  | (k, v) :: fs => if k ∈ keys then (k, sub k v) :: tidyEntries keys sub fs else tidyEntries keys sub fs

/-- the elements of an array -/
def tidyArray (sub : Json → Json) : Json → Json
  | .arr xs => .arr (xs.map sub)
  | j => j

mutual
/-- a member of a tuple without undefined entries -/
def tidyMember : Json → Json
  | .obj fs => .obj (tidyMemberEntries fs)
  | j => j
/-- its entries -/
def tidyMemberEntries : List (Str × Json) → List (Str × Json)
  | [] => []
  | (k, v) :: fs =>
      if k = lit "components" then (k, tidyComponents v) :: tidyMemberEntries fs
      else if k ∈ [lit "name", lit "type", lit "internalType"] then (k, v) :: tidyMemberEntries fs
      else tidyMemberEntries fs
/-- the value of `components` -/
def tidyComponents : Json → Json
  | .arr xs => .arr (tidyMembers xs)
  | j => j
/-- its elements -/
def tidyMembers : List Json → List Json
  | [] => []
  | x :: xs => tidyMember x :: tidyMembers xs
end

/-- a parameter of a function or constructor without undefined entries -/
def tidyParam : Json → Json
  | .obj fs => .obj (tidyEntries [lit "name", lit "type", lit "internalType", lit "components"]
      (fun k v => if k = lit "components" then tidyComponents v else v) fs)
  | j => j

/-- a parameter of an event without undefined entries -/
def tidyEventParam : Json → Json
  | .obj fs => .obj (tidyEntries [lit "name", lit "type", lit "indexed", lit "components"]
      (fun k v => if k = lit "components" then tidyComponents v else v) fs)
  | j => j

/-- the keys defined for each type of operation -/
def operationKeys (type : Str) : List Str :=
  if type = lit "function" then
    [lit "type", lit "name", lit "inputs", lit "outputs", lit "constant", lit "stateMutability"]
  else if type = lit "event" then [lit "type", lit "name", lit "inputs", lit "anonymous"]
  else if type = lit "constructor" then [lit "type", lit "inputs"]
  else [lit "type"]

/-- the value of the entry `type` -/
def typeOf : List (Str × Json) → Option Str
  | [] => none
  | (k, v) :: fs => if k = lit "type" then (match v with | .str s => some s | _ => none) else typeOf fs

/-- the parameters of an operation written as an array, after its type -/
def tidyPlaces (type : Str) : List Json → List Json
  | [] => []
  | x :: xs =>
      if type = lit "constructor" then tidyArray tidyParam x :: xs
      else if type = lit "event" then x :: (xs.take 1).map (tidyArray tidyEventParam) ++ xs.drop 1
      else if type = lit "function" then x :: (xs.take 2).map (tidyArray tidyParam) ++ xs.drop 2
      else x :: xs

/-- an operation without undefined entries -/
def tidyOperation : Json → Json
  | .obj fs =>
      match typeOf fs with
      | some type => .obj (tidyEntries (operationKeys type)
          (fun k v =>
            if k = lit "inputs" then tidyArray (if type = lit "event" then tidyEventParam else tidyParam) v
            else if k = lit "outputs" then tidyArray tidyParam v
            else v) fs)
      | none => .obj fs
  | .arr (.str type :: xs) => .arr (.str type :: tidyPlaces type xs)
  | j => j

/-- a contract without undefined entries -/
def tidyContract : Json → Json := tidyArray tidyOperation

/-- `t` under the array suffixes `ds`, innermost first; `none` is `[]`, `some k` is `[k]` -/
def wrap : List (Option Nat) → ParamType → ParamType
  | [], t => t
  | none :: ds, t => wrap ds (.array t)
  | some k :: ds, t => wrap ds (.fixedArray t k)

/-- the text of array suffixes -/
def suffixText : List (Option Nat) → Str
  | [] => []
  | none :: ds => lit "[]" ++ suffixText ds
  | some k :: ds => (s!"[{k}]").toList ++ suffixText ds

end Ethabi

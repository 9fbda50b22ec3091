import Verif.Model.Reader
/-!
# The work of `Reader::read`

The reader of Model/Reader.lean once more, with a count of the characters its calls go through: `readStepCount` is
reader.rs:16-166 with the recursive calls replaced by `rec`, which yields a result and the work done for it.  The
results are those of Model/Reader.lean (`Proofs/ReaderCount.lean`).

One call on a text counts as one more than the text has characters.  A call does a bounded amount of work for every
character: the loop (32-116) advances in each turn, `num` and `count` (122-125) are computed in one pass each, slices
are not copied, and number parsing and `name.to_owned()` take one pass.
-/
namespace Ethabi

/-- a result and the work done for it -/
structure Counted (α : Type) where
  res : Res α
  work : Nat

namespace Counted

def bind {α β : Type} (x : Counted α) (f : α → Counted β) : Counted β :=
  match x.res with
  | .ok a => ⟨(f a).res, x.work + (f a).work⟩
  | .err e => ⟨.err e, x.work⟩
  | .panic => ⟨.panic, x.work⟩

instance : Monad Counted where
  pure a := ⟨.ok a, 0⟩
  bind := bind

/-- no call in it -/
def free {α : Type} (x : Res α) : Counted α := ⟨x, 0⟩

end Counted
open Counted

/-- reader.rs:44-91, the case `')'` -/
def readCloseCount (rec : Str → Counted ParamType) (name : Str) (rest : Str) (pos : Nat) (st : ReadSt) :
    Counted (ReadSt × Nat) :=
  let nested := st.nested - 1
  if nested < 0 then free (.err (.invalidName name))
  else do
    let item ← free (strSlice name st.lastItem pos)
    if item = [] then free (.ok ({ st with nested := nested, lastItem := pos + 1 }, 0))
    else if nested = 0 then
      let subtype ← rec item
      free (.ok ({ st with nested := nested, subtypes := st.subtypes ++ [subtype], lastItem := pos + 1 }, 0))
    else
      let k := trailing rest
      let pos := pos + k
      let inner ← free (strSlice name st.topOpen (pos + 1))
      let subtype ← rec inner
      if nested > 1 then
        let subtuple ← free (indexVec st.subtuples (nested - 2))
        free (.ok ({ st with
                nested := nested
                subtuples := st.subtuples.set (nested - 2).toNat []
                subtypes := st.subtypes ++ [.tuple (subtuple ++ [subtype])]
                lastItem := pos + 1 }, k))
      else
        free (.ok ({ st with nested := nested, subtypes := st.subtypes ++ [subtype], lastItem := pos + 1 }, k))

/-- reader.rs:92-113, the case `','` -/
def readCommaCount (rec : Str → Counted ParamType) (name : Str) (pos : Nat) (st : ReadSt) : Counted ReadSt := do
  let item ← free (strSlice name st.lastItem pos)
  if item = [] then free (.ok { st with lastItem := pos + 1 })
  else if st.nested = 1 then
    let subtype ← rec item
    free (.ok { st with subtypes := st.subtypes ++ [subtype], lastItem := pos + 1 })
  else if st.nested > 1 then
    let subtype ← rec item
    let subtuple ← free (indexVec st.subtuples (st.nested - 2))
    free (.ok { st with
            subtuples := st.subtuples.set (st.nested - 2).toNat (subtuple ++ [subtype])
            lastItem := pos + 1 })
  else free (.ok st)

/-- reader.rs:32-116, the loop -/
def readLoopCount (rec : Str → Counted ParamType) (name : Str) : Str → Nat → Nat → ReadSt → Counted ReadSt
  | [], _, _, st => free (.ok st)
  | _ :: cs, pos, skip + 1, st => readLoopCount rec name cs (pos + 1) skip st
  | c :: cs, pos, 0, st =>
      if c = '(' then readLoopCount rec name cs (pos + 1) 0 (readOpen pos st)
      else if c = ')' then do
        let (st', k) ← readCloseCount rec name cs pos st
        readLoopCount rec name cs (pos + 1) k st'
      else if c = ',' then do
        let st' ← readCommaCount rec name pos st
        readLoopCount rec name cs (pos + 1) 0 st'
      else readLoopCount rec name cs (pos + 1) 0 st

/-- what one call does, without counting the call itself -/
def readBodyCount (rec : Str → Counted ParamType) (name : Str) : Counted ParamType :=
  if name.getLast? = some ')' then
    if !startsWith (lit "(") name then free (.err (.invalidName name))
    else do
      let st ← readLoopCount rec name name 0 0
        { subtypes := [], subtuples := [], nested := 0, topOpen := 0, lastItem := 1 }
      free (.ok (.tuple st.subtypes))
  else if name.getLast? = some ']' then
    let num := arrayNum name
    let count := name.length
    if num = [] then do
      let e ← free (indexSub count 2)
      let sub ← free (strSlice name 0 e)
      let subtype ← rec sub
      free (.ok (.array subtype))
    else do
      let len ← free (parseUsize num)
      let e1 ← free (indexSub count (byteLen num))
      let e ← free (indexSub e1 2)
      let sub ← free (strSlice name 0 e)
      let subtype ← rec sub
      free (.ok (.fixedArray subtype len))
  else free (readElementary name)

/-- reader.rs:16-166 `Reader::read` with its recursive calls abstracted -/
def readStepCount (rec : Str → Counted ParamType) (name : Str) : Counted ParamType :=
  ⟨(readBodyCount rec name).res, name.length + 1 + (readBodyCount rec name).work⟩

/-- iterated `readStepCount`, with room for so many calls; one call more would yield `beyond` -/
def readFuelCount (beyond : Counted ParamType) : Nat → Str → Counted ParamType
  | 0, _ => beyond
  | n + 1, name => readStepCount (readFuelCount beyond n) name

end Ethabi

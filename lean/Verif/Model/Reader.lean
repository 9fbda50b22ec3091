import Verif.Model.Types
import Verif.Model.Text
/-!
# Type strings: `Reader`

`Reader::read` is recursive.  `readStep rec` is its body with the recursive calls replaced by `rec`;
`read` iterates it often enough (`Proofs/Reader.lean` proves that every recursive call is on a shorter
string and hence that `read` satisfies the equation `read name = readStep read name`).
-/
namespace Ethabi

/-- local variables of the tuple loop (reader.rs:24-28) -/
structure ReadSt where
  /-- `subtypes` -/
  subtypes : List ParamType
  /-- `subtuples` -/
  subtuples : List (List ParamType)
  /-- `nested` (`isize`) -/
  nested : Int
  /-- `top_level_paren_open` -/
  topOpen : Nat
  /-- `last_item` -/
  lastItem : Nat

/-- `v[i]` with an `isize as usize` index: panics when out of range -/
def indexVec {α : Type} (v : List α) (i : Int) : Res α :=
  if i < 0 then .panic else match v[i.toNat]? with
    | some a => .ok a
    | none => .panic

/-- the inner `loop` (reader.rs:67-76): how many characters are consumed before `,`, `)` or the end -/
def trailing : Str → Nat
  | [] => 0
  | c :: cs => if c = ',' ∨ c = ')' then 0 else trailing cs + 1

/-- reader.rs:44-91, the case `')'`; returns the state and how many characters the inner loop consumed. -/
def readClose (rec : Str → Res ParamType) (name : Str) (rest : Str) (pos : Nat) (st : ReadSt) :
    Res (ReadSt × Nat) :=
  let nested := st.nested - 1
  if nested < 0 then .err (.invalidName name)
  else do
    let item ← strSlice name st.lastItem pos
    if item = [] then .ok ({ st with nested := nested, lastItem := pos + 1 }, 0)
    else if nested = 0 then
      let subtype ← rec item
      .ok ({ st with nested := nested, subtypes := st.subtypes ++ [subtype], lastItem := pos + 1 }, 0)
    else
      let k := trailing rest
      let pos := pos + k
      let inner ← strSlice name st.topOpen (pos + 1)
      let subtype ← rec inner
      if nested > 1 then
        let subtuple ← indexVec st.subtuples (nested - 2)
        .ok ({ st with
                nested := nested
                subtuples := st.subtuples.set (nested - 2).toNat []
                subtypes := st.subtypes ++ [.tuple (subtuple ++ [subtype])]
                lastItem := pos + 1 }, k)
      else
        .ok ({ st with nested := nested, subtypes := st.subtypes ++ [subtype], lastItem := pos + 1 }, k)

/-- reader.rs:92-113, the case `','`. -/
def readComma (rec : Str → Res ParamType) (name : Str) (pos : Nat) (st : ReadSt) : Res ReadSt := do
  let item ← strSlice name st.lastItem pos
  if item = [] then .ok { st with lastItem := pos + 1 }
  else if st.nested = 1 then
    let subtype ← rec item
    .ok { st with subtypes := st.subtypes ++ [subtype], lastItem := pos + 1 }
  else if st.nested > 1 then
    let subtype ← rec item
    let subtuple ← indexVec st.subtuples (st.nested - 2)
    .ok { st with
            subtuples := st.subtuples.set (st.nested - 2).toNat (subtuple ++ [subtype])
            lastItem := pos + 1 }
  else .ok st

/-- reader.rs:34-43, the case `'('`. -/
def readOpen (pos : Nat) (st : ReadSt) : ReadSt :=
  let nested := st.nested + 1
  if nested > 1 then
    { st with topOpen := pos, nested := nested, subtuples := st.subtuples ++ [[]], lastItem := pos + 1 }
  else { st with topOpen := pos, nested := nested }

/-- reader.rs:32-116, the `while let` loop over `name.chars().enumerate()`.  `skip` counts the characters
still to be dropped because the inner loop (67-76) has consumed them. -/
def readLoop (rec : Str → Res ParamType) (name : Str) : Str → Nat → Nat → ReadSt → Res ReadSt
  | [], _, _, st => .ok st
  | _ :: cs, pos, skip + 1, st => readLoop rec name cs (pos + 1) skip st
  | c :: cs, pos, 0, st =>
      if c = '(' then readLoop rec name cs (pos + 1) 0 (readOpen pos st)
      else if c = ')' then do
        let (st', k) ← readClose rec name cs pos st
        readLoop rec name cs (pos + 1) k st'
      else if c = ',' then do
        let st' ← readComma rec name pos st
        readLoop rec name cs (pos + 1) 0 st'
      else readLoop rec name cs (pos + 1) 0 st

/-- reader.rs:122-123: the characters before the final `]`, back to the last `[` -/
def arrayNum (name : Str) : Str := ((name.reverse.drop 1).takeWhile (· != '[')).reverse

/-- reader.rs:140-165: elementary types -/
def readElementary (name : Str) : Res ParamType :=
  if name = lit "address" then .ok .address
  else if name = lit "bytes" then .ok .bytes
  else if name = lit "bool" then .ok .bool
  else if name = lit "string" then .ok .string
  else if name = lit "int" then .ok (.int 256)
  else if name = lit "tuple" then .ok (.tuple [])
  else if name = lit "uint" then .ok (.uint 256)
  else if startsWith (lit "int") name then do
    let len ← parseUsize (name.drop 3)
    .ok (.int len)
  else if startsWith (lit "uint") name then do
    let len ← parseUsize (name.drop 4)
    .ok (.uint len)
  else if startsWith (lit "bytes") name then do
    let len ← parseUsize (name.drop 5)
    .ok (.fixedBytes len)
  else .err (.invalidName name)

/-- reader.rs:16-166 `Reader::read` with its recursive calls abstracted. `num.len()` (133) is a byte length. -/
def readStep (rec : Str → Res ParamType) (name : Str) : Res ParamType :=
  if name.getLast? = some ')' then
    if !startsWith (lit "(") name then .err (.invalidName name)
    else do
      let st ← readLoop rec name name 0 0
        { subtypes := [], subtuples := [], nested := 0, topOpen := 0, lastItem := 1 }
      .ok (.tuple st.subtypes)
  else if name.getLast? = some ']' then
    let num := arrayNum name
    let count := name.length
    if num = [] then do
      let e ← indexSub count 2
      let sub ← strSlice name 0 e
      let subtype ← rec sub
      .ok (.array subtype)
    else do
      let len ← parseUsize num
      let e1 ← indexSub count (byteLen num)
      let e ← indexSub e1 2
      let sub ← strSlice name 0 e
      let subtype ← rec sub
      .ok (.fixedArray subtype len)
  else readElementary name

/-- iterated `readStep`; `0` is never reached from `read` -/
def readFuel : Nat → Str → Res ParamType
  | 0, _ => .panic
  | n + 1, name => readStep (readFuel n) name

/-- reader.rs:16-166 `Reader::read`. -/
def read (name : Str) : Res ParamType := readFuel (byteLen name + 1) name

end Ethabi

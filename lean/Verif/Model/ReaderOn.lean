import Verif.Model.Reader
/-!
# Type strings on targets whose `usize` has `bits` bits

The same source lines as Model/Reader.lean, with `parse::<usize>` on `bits` bits instead of 64.  The tuple loop
(reader.rs:32-116) counts characters of a text in memory and is the same.  `C94_same_code` proves that this is
Model/Reader.lean for `bits = 64`.
-/
namespace Ethabi

/-- `str::parse::<usize>()`: optional `+`, at least one digit, value below `2^bits`. -/
def parseUsizeOn (bits : Nat) (s : Str) : Res Nat :=
  let ds := stripPlus s
  if ds ≠ [] ∧ ds.all isDigit ∧ digitsVal ds < 2 ^ bits then .ok (digitsVal ds) else .err .parseInt

/-- reader.rs:140-165: elementary types -/
def readElementaryOn (bits : Nat) (name : Str) : Res ParamType :=
  if name = lit "address" then .ok .address
  else if name = lit "bytes" then .ok .bytes
  else if name = lit "bool" then .ok .bool
  else if name = lit "string" then .ok .string
  else if name = lit "int" then .ok (.int 256)
  else if name = lit "tuple" then .ok (.tuple [])
  else if name = lit "uint" then .ok (.uint 256)
  else if startsWith (lit "int") name then do
    let len ← parseUsizeOn bits (name.drop 3)
    .ok (.int len)
  else if startsWith (lit "uint") name then do
    let len ← parseUsizeOn bits (name.drop 4)
    .ok (.uint len)
  else if startsWith (lit "bytes") name then do
    let len ← parseUsizeOn bits (name.drop 5)
    .ok (.fixedBytes len)
  else .err (.invalidName name)

/-- reader.rs:16-166 `Reader::read` with its recursive calls abstracted -/
def readStepOn (bits : Nat) (rec : Str → Res ParamType) (name : Str) : Res ParamType :=
  if name.getLast? = some ')' then
    if !startsWith (lit "(") name then .err (.invalidName name)
    else do
      let st ← readLoop rec name name 0 0
        { subtypes := [], subtuples := [], nested := 0, topOpen := 0, lastItem := 1 }
      .ok (.tuple st.subtypes)
  else if name.getLast? = some ']' then
    let num := arrayNum name
    let count := name.length
    if num = [] then do
      let e ← indexSub count 2
      let sub ← strSlice name 0 e
      let subtype ← rec sub
      .ok (.array subtype)
    else do
      let len ← parseUsizeOn bits num
      let e1 ← indexSub count (byteLen num)
      let e ← indexSub e1 2
      let sub ← strSlice name 0 e
      let subtype ← rec sub
      .ok (.fixedArray subtype len)
  else readElementaryOn bits name

/-- iterated `readStepOn`; `0` is never reached from `readOn` -/
def readFuelOn (bits : Nat) : Nat → Str → Res ParamType
  | 0, _ => .panic
  | n + 1, name => readStepOn bits (readFuelOn bits n) name

/-- reader.rs:16-166 `Reader::read`. -/
def readOn (bits : Nat) (name : Str) : Res ParamType := readFuelOn bits (byteLen name + 1) name

end Ethabi

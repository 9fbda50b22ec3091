import Verif.Model.Hex
import Verif.Model.Types
/-!
# Text to tokens and back

token/mod.rs (`Tokenizer`), token/strict.rs, token/lenient.rs and `Display for Token`.
-/
namespace Ethabi

/-- which `Tokenizer` implementation: strict.rs:12 `StrictTokenizer`, lenient.rs:17 `LenientTokenizer` -/
inductive Tokenizer where
  | strict
  | lenient
deriving DecidableEq, Repr

/-! ### StrictTokenizer -/

/-- strict.rs:15-25 `tokenize_address` -/
def strictAddress (value : Str) : Res Address := do
  let hex ← hexDecode value
  if h : hex.length = 20 then .ok ⟨hex, h⟩ else .err .invalidData

/-- strict.rs:27-29 `tokenize_string` -/
def strictString (value : Str) : Res Str := .ok value

/-- strict.rs:31-37 `tokenize_bool` -/
def strictBool (value : Str) : Res Bool :=
  if value = lit "true" ∨ value = lit "1" then .ok true
  else if value = lit "false" ∨ value = lit "0" then .ok false
  else .err .invalidData

/-- strict.rs:39-41 `tokenize_bytes` -/
def strictBytes (value : Str) : Res Bytes := hexDecode value

/-- strict.rs:43-49 `tokenize_fixed_bytes` -/
def strictFixedBytes (value : Str) (len : Nat) : Res Bytes := do
  let hex ← hexDecode value
  if hex.length = len then .ok hex else .err .invalidData

/-- strict.rs:51-61 `tokenize_uint` -/
def strictUint (value : Str) : Res Word := do
  let hex ← hexDecode value
  if h : hex.length = 32 then .ok ⟨hex, h⟩ else .err .invalidData

/-- strict.rs:63-65 `tokenize_int` -/
def strictInt (value : Str) : Res Word := strictUint value

/-! ### LenientTokenizer -/

/-- the digit loop of `U256::from_dec_str` (crate `uint`): `res * 10 + digit`, an error when it overflows -/
def decLoop : Str → Nat → Res Nat
  | [], res => .ok res
  | c :: cs, res =>
      if res * 10 + (c.toNat - '0'.toNat) < 2 ^ 256 then decLoop cs (res * 10 + (c.toNat - '0'.toNat))
      else .err .other

/-- `U256::from_dec_str` (crate `uint`, documented behaviour; no repo line): every byte must be an ASCII digit,
the empty text is zero, overflow is an error.  Both errors become `Error::Other`, errors.rs:42-51. -/
def fromDecStr (value : Str) : Res U256 :=
  if value.all isDigit then do
    let n ← decLoop value 0
    .ok (BitVec.ofNat 256 n)
  else .err .other

/-- lenient.rs:40-48 `tokenize_uint` -/
def lenientUint (value : Str) : Res Word :=
  match strictUint value with
  | .ok w => .ok w
  | .panic => .panic
  | .err _ => do
      let uint ← fromDecStr value
      .ok (U256.toWord uint)

/-- `U256::max_value() / 2`, lenient.rs:60 -/
def int256Max : U256 := BitVec.allOnes 256 / 2#256

/-- lenient.rs:53-75 `tokenize_int`.  `value.trim_start_matches('-')` is `dropWhile`; `!abs + 1` (line 67) cannot
overflow since `abs` is not zero. -/
def lenientInt (value : Str) : Res Word :=
  match strictInt value with
  | .ok w => .ok w
  | .panic => .panic
  | .err _ => do
      let abs ← fromDecStr (value.dropWhile (· == '-'))
      if startsWith (lit "-") value then
        if abs = 0#256 then .ok (U256.toWord abs)
        else if abs > int256Max + 1#256 then .err .other
        else .ok (U256.toWord (~~~abs + 1#256))
      else if abs > int256Max then .err .other
      else .ok (U256.toWord abs)

/-- `tokenize_uint` of the implementation: strict.rs:51, lenient.rs:40 -/
def tokenizeUint : Tokenizer → Str → Res Word
  | .strict, v => strictUint v
  | .lenient, v => lenientUint v

/-- `tokenize_int` of the implementation: strict.rs:63, lenient.rs:53 -/
def tokenizeInt : Tokenizer → Str → Res Word
  | .strict, v => strictInt v
  | .lenient, v => lenientInt v

/-! ### Tokenizer: arrays, tuples, dispatch -/

/-- The loops token/mod.rs:62-100 (`tokenize_struct`, brackets `(` `)`) and token/mod.rs:117-154 (`tokenize_array`,
brackets `[` `]`), which differ only in the brackets and in where the piece's type comes from.  `item i sub`
tokenizes the `i`-th piece.  Arguments: remaining characters, `pos`/`i` (a *character* count), `nested`, `ignore`,
`last_item`, `result`.  `&value[last_item..pos]` (lines 75, 87, 129, 141) indexes *bytes*. -/
def pieceLoop (opn cls : Char) (value : Str) (item : Nat → Str → Res Token) :
    Str → Nat → Int → Bool → Nat → List Token → Res (List Token)
  | [], _, _, ignore, _, result => if ignore then .err .invalidData else .ok result
  | ch :: cs, pos, nested, ignore, lastItem, result =>
      if ch = opn ∧ ignore = false then
        pieceLoop opn cls value item cs (pos + 1) (nested + 1) ignore lastItem result
      else if ch = cls ∧ ignore = false then
        if nested - 1 < 0 then .err .invalidData
        else if nested - 1 = 0 then do
          let sub ← strSlice value lastItem pos
          let token ← item result.length sub
          pieceLoop opn cls value item cs (pos + 1) (nested - 1) ignore (pos + 1) (result ++ [token])
        else pieceLoop opn cls value item cs (pos + 1) (nested - 1) ignore lastItem result
      else if ch = '"' then
        pieceLoop opn cls value item cs (pos + 1) nested (!ignore) lastItem result
      else if ch = ',' ∧ nested = 1 ∧ ignore = false then do
        let sub ← strSlice value lastItem pos
        let token ← item result.length sub
        pieceLoop opn cls value item cs (pos + 1) nested ignore (pos + 1) (result ++ [token])
      else pieceLoop opn cls value item cs (pos + 1) nested ignore lastItem result

/-- the common frame of `tokenize_struct` (token/mod.rs:48-60) and `tokenize_array` (104-116): bracket check,
two-character text, loop -/
def tokenizePieces (opn cls : Char) (value : Str) (item : Nat → Str → Res Token) : Res (List Token) :=
  if ¬ (value.head? = some opn) ∨ ¬ (value.getLast? = some cls) then .err .invalidData
  else if value.length = 2 then .ok []
  else pieceLoop opn cls value item value 0 0 false 1 []

/-- token/mod.rs:104-155 `tokenize_array`; `f` is `Self::tokenize(param, _)` -/
def tokenizeArray (value : Str) (f : Str → Res Token) : Res (List Token) :=
  tokenizePieces '[' ']' value fun _ sub => f sub

/-- token/mod.rs:39-45 `tokenize_fixed_array` -/
def tokenizeFixedArray (value : Str) (f : Str → Res Token) (len : Nat) : Res (List Token) := do
  let result ← tokenizeArray value f
  if result.length = len then .ok result else .err .invalidData

/-- token/mod.rs:48-101 `tokenize_struct`; `fs` is `Self::tokenize(p, _)` for the members `p`.  The iterator
`params` advances exactly when `result` grows, so the next type is the one at index `result.len()`. -/
def tokenizeStruct (value : Str) (fs : List (Str → Res Token)) : Res (List Token) :=
  tokenizePieces '(' ')' value fun i sub =>
    match fs[i]? with
    | none => .err .invalidData
    | some f => f sub

mutual
/-- token/mod.rs:23-36 `Tokenizer::tokenize` -/
def tokenize (m : Tokenizer) : ParamType → Str → Res Token
  | .address, v => Token.address <$> strictAddress v
  | .string, v => Token.string <$> strictString v
  | .bool, v => Token.bool <$> strictBool v
  | .bytes, v => Token.bytes <$> strictBytes v
  | .fixedBytes len, v => Token.fixedBytes <$> strictFixedBytes v len
  | .uint _, v => (fun w => Token.uint (U256.ofWord w)) <$> tokenizeUint m v
  | .int _, v => (fun w => Token.int (U256.ofWord w)) <$> tokenizeInt m v
  | .array p, v => Token.array <$> tokenizeArray v (tokenize m p)
  | .fixedArray p len, v => Token.fixedArray <$> tokenizeFixedArray v (tokenize m p) len
  | .tuple ps, v => Token.tuple <$> tokenizeStruct v (tokenizers m ps)
/-- the members' tokenizers, in order -/
def tokenizers (m : Tokenizer) : List ParamType → List (Str → Res Token)
  | [] => []
  | p :: ps => tokenize m p :: tokenizers m ps
end

/-! ### Display -/

mutual
/-- token.rs:66-86 `Display for Token` -/
def Token.display : Token → Str
  | .bool b => if b then lit "true" else lit "false"
  | .string s => s
  | .address a => hexEncode a.1
  | .bytes b => hexEncode b
  | .fixedBytes b => hexEncode b
  | .uint i => hexNat i.toNat
  | .int i => hexNat i.toNat
  | .array ts => lit "[" ++ join (lit ",") (Token.displayAll ts) ++ lit "]"
  | .fixedArray ts => lit "[" ++ join (lit ",") (Token.displayAll ts) ++ lit "]"
  | .tuple ts => lit "(" ++ join (lit ",") (Token.displayAll ts) ++ lit ")"
/-- `arr.iter().map(|ref t| format!("{}", t)).collect::<Vec<String>>()`, token.rs:75,80 -/
def Token.displayAll : List Token → List Str
  | [] => []
  | t :: ts => t.display :: Token.displayAll ts
end

end Ethabi

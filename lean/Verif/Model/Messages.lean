import Verif.Model.CliExecute
/-!
# What errors say

The tokenizers (token/mod.rs, strict.rs, lenient.rs) and the command line tool (cli/src/main.rs) again, with the error values
kept instead of only their variant, and the texts of these values (errors.rs:16-51, `to_string`).  Of the errors that other
crates make, those of `hex` 0.4 and of `U256::from_dec_str` are modelled from the crates' documentation; the rest (`foreign`)
keeps the variant only: errors of `serde_json`, of integers in type texts, of hashes, of files.
-/
namespace Ethabi

/-- `hex::FromHexError` as `hex::decode` returns it: an odd number of bytes, or the first byte that is no digit -/
inductive HexReason where
  | odd
  | character (byte : UInt8) (index : Nat)
deriving DecidableEq, Repr

/-- the error values -/
inductive Reason where
  /-- errors.rs:20-21 -/
  | invalidName (name : Str)
  /-- errors.rs:23-24 -/
  | invalidData
  /-- errors.rs:35-36, from the tokenizers -/
  | hex (r : HexReason)
  /-- a `hex::FromHexError` that the tool passes on itself, main.rs:201, 220, 235 -/
  | plainHex (r : HexReason)
  /-- errors.rs:42-51, `InvalidCharacter` -/
  | decCharacter
  /-- errors.rs:42-51, `InvalidLength` -/
  | decLength
  /-- lenient.rs:65 -/
  | underflow
  /-- lenient.rs:70 -/
  | overflow
  /-- main.rs:110 -/
  | unknownFunction (signature : Str)
  /-- main.rs:143 -/
  | unknownEvent (signature : Word)
  /-- main.rs:119-122, 152-155 (the same text for functions and events) -/
  | ambiguous (name : Str)
  /-- `File::open`, main.rs:96, 129 -/
  | notOpened (path : Str)
  /-- an error of another crate, or from the reader of types, of which the variant is kept -/
  | foreign (e : Err)
deriving DecidableEq, Repr

/-- the variant, as the other models keep it -/
def Reason.kind : Reason → Err
  | .invalidName n => .invalidName n
  | .invalidData => .invalidData
  | .hex _ => .hex
  | .plainHex _ => .hex
  | .foreign e => e
  | _ => .other

/-- an error of a part of the library that is modelled without details -/
def Reason.ofErr : Err → Reason
  | .invalidName n => .invalidName n
  | .invalidData => .invalidData
  | e => .foreign e

/-- texts made by other crates: `{:?}` of a character below 256, the texts of foreign errors, the text of `File::open`'s error -/
structure Texts where
  quoted : UInt8 → Str
  foreign : Err → Str
  notOpened : Str → Str

/-- `Display for FromHexError` (crate `hex`) -/
def HexReason.text (ts : Texts) : HexReason → Str
  | .odd => lit "Odd number of digits"
  | .character b i => lit "Invalid character " ++ ts.quoted b ++ lit " at position " ++ Nat.toDigits 10 i

/-- `Display for H256` (crate `fixed-hash`): the first two and the last two bytes -/
def abbreviated (w : Word) : Str := lit "0x" ++ hexEncode (w.1.take 2) ++ lit "…" ++ hexEncode (w.1.drop 30)

/-- `to_string` of the error, errors.rs:16-51, lenient.rs:65, 70, main.rs:110, 119-122, 143, 152-155 -/
def Reason.text (ts : Texts) : Reason → Str
  | .invalidName n => lit "Invalid name: " ++ n
  | .invalidData => lit "Invalid data"
  | .hex r => lit "Hex parsing error: " ++ r.text ts
  | .plainHex r => r.text ts
  | .decCharacter => lit "Uint parse error: InvalidCharacter"
  | .decLength => lit "Uint parse error: InvalidLength"
  | .underflow => lit "int256 parse error: Underflow"
  | .overflow => lit "int256 parse error: Overflow"
  | .unknownFunction s => lit "invalid function signature `" ++ s ++ lit "`"
  | .unknownEvent w => lit "Invalid signature `" ++ abbreviated w ++ lit "`"
  | .ambiguous n => lit "More than one function found for name `" ++ n ++ lit "`, try providing the full signature"
  | .notOpened p => ts.notOpened p
  | .foreign e => ts.foreign e

/-- the result of a computation that can fail with an error value, or panic -/
inductive Told (ε α : Type) where
  | ok (a : α)
  | err (e : ε)
  | panic
deriving DecidableEq, Repr

namespace Told

/-- the `?` operator -/
def bind {ε α β : Type} : Told ε α → (α → Told ε β) → Told ε β
  | .ok a, f => f a
  | .err e, _ => .err e
  | .panic, _ => .panic

instance {ε : Type} : Monad (Told ε) where
  pure := .ok
  bind := Told.bind

/-- `From` for errors -/
def mapErr {ε δ α : Type} (f : ε → δ) : Told ε α → Told δ α
  | .ok a => .ok a
  | .err e => .err (f e)
  | .panic => .panic

/-- the error values replaced by `Err`s -/
def coded {ε α : Type} (f : ε → Err) : Told ε α → Res α
  | .ok a => .ok a
  | .err e => .err (f e)
  | .panic => .panic

end Told

/-- the result of a part of the library that is modelled without details -/
def told {α : Type} : Res α → Told Reason α
  | .ok a => .ok a
  | .err e => .err (Reason.ofErr e)
  | .panic => .panic

/-! ### `hex::decode` -/

/-- `hex`'s `val`, on bytes -/
def hexByteVal (b : UInt8) : Option Nat :=
  let n := b.toNat
  if 48 ≤ n ∧ n ≤ 57 then some (n - 48)
  else if 97 ≤ n ∧ n ≤ 102 then some (n - 87)
  else if 65 ≤ n ∧ n ≤ 70 then some (n - 55)
  else none

/-- the pairs of bytes, the first one at this index -/
def hexPairs : Nat → Bytes → Told HexReason Bytes
  | i, a :: b :: bs =>
      match hexByteVal a with
      | none => .err (.character a i)
      | some x => match hexByteVal b with
        | none => .err (.character b (i + 1))
        | some y => do
            let rest ← hexPairs (i + 2) bs
            .ok (UInt8.ofNat (x * 16 + y) :: rest)
  | _, _ => .ok []

/-- `hex::decode` -/
def hexDecodeTold (s : Str) : Told HexReason Bytes :=
  if (strBytes s).length % 2 ≠ 0 then .err .odd else hexPairs 0 (strBytes s)

/-! ### StrictTokenizer -/

/-- `hex::decode(value)?` in the library, errors.rs:35-36 -/
def hexDecodeLib (s : Str) : Told Reason Bytes := (hexDecodeTold s).mapErr .hex

/-- strict.rs:15-25 `tokenize_address` -/
def strictAddressTold (value : Str) : Told Reason Address := do
  let hex ← hexDecodeLib value
  if h : hex.length = 20 then .ok ⟨hex, h⟩ else .err .invalidData

/-- strict.rs:31-37 `tokenize_bool` -/
def strictBoolTold (value : Str) : Told Reason Bool :=
  if value = lit "true" ∨ value = lit "1" then .ok true
  else if value = lit "false" ∨ value = lit "0" then .ok false
  else .err .invalidData

/-- strict.rs:43-49 `tokenize_fixed_bytes` -/
def strictFixedBytesTold (value : Str) (len : Nat) : Told Reason Bytes := do
  let hex ← hexDecodeLib value
  if hex.length = len then .ok hex else .err .invalidData

/-- strict.rs:51-65 `tokenize_uint`, `tokenize_int` -/
def strictUintTold (value : Str) : Told Reason Word := do
  let hex ← hexDecodeLib value
  if h : hex.length = 32 then .ok ⟨hex, h⟩ else .err .invalidData

/-! ### LenientTokenizer -/

/-- the digit loop of `U256::from_dec_str` -/
def decLoopTold : Str → Nat → Told Reason Nat
  | [], res => .ok res
  | c :: cs, res =>
      if res * 10 + (c.toNat - '0'.toNat) < 2 ^ 256 then decLoopTold cs (res * 10 + (c.toNat - '0'.toNat))
      else .err .decLength

/-- `U256::from_dec_str` (crate `uint`): characters are checked first -/
def fromDecStrTold (value : Str) : Told Reason U256 :=
  if value.all isDigit then do
    let n ← decLoopTold value 0
    .ok (BitVec.ofNat 256 n)
  else .err .decCharacter

/-- lenient.rs:40-48 `tokenize_uint` -/
def lenientUintTold (value : Str) : Told Reason Word :=
  match strictUintTold value with
  | .ok w => .ok w
  | .panic => .panic
  | .err _ => do
      let uint ← fromDecStrTold value
      .ok (U256.toWord uint)

/-- lenient.rs:53-75 `tokenize_int` -/
def lenientIntTold (value : Str) : Told Reason Word :=
  match strictUintTold value with
  | .ok w => .ok w
  | .panic => .panic
  | .err _ => do
      let abs ← fromDecStrTold (value.dropWhile (· == '-'))
      if startsWith (lit "-") value then
        if abs = 0#256 then .ok (U256.toWord abs)
        else if abs > int256Max + 1#256 then .err .underflow
        else .ok (U256.toWord (~~~abs + 1#256))
      else if abs > int256Max then .err .overflow
      else .ok (U256.toWord abs)

/-- `tokenize_uint` of the implementation: strict.rs:51, lenient.rs:40 -/
def tokenizeUintTold : Tokenizer → Str → Told Reason Word
  | .strict, v => strictUintTold v
  | .lenient, v => lenientUintTold v

/-- `tokenize_int` of the implementation: strict.rs:63, lenient.rs:53 -/
def tokenizeIntTold : Tokenizer → Str → Told Reason Word
  | .strict, v => strictUintTold v
  | .lenient, v => lenientIntTold v

/-! ### Tokenizer -/

/-- token/mod.rs:62-100, 117-154, as `pieceLoop` (Model/Tokenizer.lean) -/
def pieceLoopTold (opn cls : Char) (value : Str) (item : Nat → Str → Told Reason Token) :
    Str → Nat → Int → Bool → Nat → List Token → Told Reason (List Token)
  | [], _, _, ignore, _, result => if ignore then .err .invalidData else .ok result
  | ch :: cs, pos, nested, ignore, lastItem, result =>
      if ch = opn ∧ ignore = false then
        pieceLoopTold opn cls value item cs (pos + 1) (nested + 1) ignore lastItem result
      else if ch = cls ∧ ignore = false then
        if nested - 1 < 0 then .err .invalidData
        else if nested - 1 = 0 then do
          let sub ← told (strSlice value lastItem pos)
          let token ← item result.length sub
          pieceLoopTold opn cls value item cs (pos + 1) (nested - 1) ignore (pos + 1) (result ++ [token])
        else pieceLoopTold opn cls value item cs (pos + 1) (nested - 1) ignore lastItem result
      else if ch = '"' then
        pieceLoopTold opn cls value item cs (pos + 1) nested (!ignore) lastItem result
      else if ch = ',' ∧ nested = 1 ∧ ignore = false then do
        let sub ← told (strSlice value lastItem pos)
        let token ← item result.length sub
        pieceLoopTold opn cls value item cs (pos + 1) nested ignore (pos + 1) (result ++ [token])
      else pieceLoopTold opn cls value item cs (pos + 1) nested ignore lastItem result

/-- token/mod.rs:48-60, 104-116: bracket check, two-character text, loop -/
def tokenizePiecesTold (opn cls : Char) (value : Str) (item : Nat → Str → Told Reason Token) : Told Reason (List Token) :=
  if ¬ (value.head? = some opn) ∨ ¬ (value.getLast? = some cls) then .err .invalidData
  else if value.length = 2 then .ok []
  else pieceLoopTold opn cls value item value 0 0 false 1 []

/-- token/mod.rs:104-155 `tokenize_array` -/
def tokenizeArrayTold (value : Str) (f : Str → Told Reason Token) : Told Reason (List Token) :=
  tokenizePiecesTold '[' ']' value fun _ sub => f sub

/-- token/mod.rs:39-45 `tokenize_fixed_array` -/
def tokenizeFixedArrayTold (value : Str) (f : Str → Told Reason Token) (len : Nat) : Told Reason (List Token) := do
  let result ← tokenizeArrayTold value f
  if result.length = len then .ok result else .err .invalidData

/-- token/mod.rs:48-101 `tokenize_struct` -/
def tokenizeStructTold (value : Str) (fs : List (Str → Told Reason Token)) : Told Reason (List Token) :=
  tokenizePiecesTold '(' ')' value fun i sub =>
    match fs[i]? with
    | none => .err .invalidData
    | some f => f sub

mutual
/-- token/mod.rs:23-36 `Tokenizer::tokenize` -/
def tokenizeTold (m : Tokenizer) : ParamType → Str → Told Reason Token
  | .address, v => do let a ← strictAddressTold v; .ok (.address a)
  | .string, v => .ok (.string v)
  | .bool, v => do let b ← strictBoolTold v; .ok (.bool b)
  | .bytes, v => do let b ← hexDecodeLib v; .ok (.bytes b)
  | .fixedBytes len, v => do let b ← strictFixedBytesTold v len; .ok (.fixedBytes b)
  | .uint _, v => do let w ← tokenizeUintTold m v; .ok (.uint (U256.ofWord w))
  | .int _, v => do let w ← tokenizeIntTold m v; .ok (.int (U256.ofWord w))
  | .array p, v => do let ts ← tokenizeArrayTold v (tokenizeTold m p); .ok (.array ts)
  | .fixedArray p len, v => do let ts ← tokenizeFixedArrayTold v (tokenizeTold m p) len; .ok (.fixedArray ts)
  | .tuple ps, v => do let ts ← tokenizeStructTold v (tokenizersTold m ps); .ok (.tuple ts)
/-- the members' tokenizers, in order -/
def tokenizersTold (m : Tokenizer) : List ParamType → List (Str → Told Reason Token)
  | [] => []
  | p :: ps => tokenizeTold m p :: tokenizersTold m ps
end

/-! ### the command line tool -/

/-- main.rs:98-126: the function of a loaded contract -/
def selectFunctionTold (contract : Contract) (nameOrSignature : Str) : Told Reason Function :=
  match signatureName nameOrSignature with
  | some name => do
      let fs ← told (contract.functionsByName name)
      match fs.find? fun f => f.signature == nameOrSignature with
      | some f => .ok f
      | none => .err (.unknownFunction nameOrSignature)
  | none => do
      let fs ← told (contract.functionsByName nameOrSignature)
      match fs with
      | [] => .panic
      | [f] => .ok f
      | _ => .err (.ambiguous nameOrSignature)

/-- main.rs:131-159: the event of a loaded contract -/
def selectEventTold (hash : Bytes → Word) (contract : Contract) (nameOrSignature : Str) : Told Reason Event :=
  match signatureName nameOrSignature with
  | some name => do
      let signature := hashSignature hash nameOrSignature
      let es ← told (contract.eventsByName name)
      match es.find? fun e => e.signature hash == signature with
      | some e => .ok e
      | none => .err (.unknownEvent signature)
  | none => do
      let es ← told (contract.eventsByName nameOrSignature)
      match es with
      | [] => .panic
      | [e] => .ok e
      | _ => .err (.ambiguous nameOrSignature)

/-- main.rs:96-97, 129-130: the contract in a file -/
def loadTold (file : Str → Option (Option Json)) (path : Str) : Told Reason Contract :=
  match file path with
  | none => .err (.notOpened path)
  | some none => .err (.foreign .serdeJson)
  | some (some j) => told (deContract j)

/-- main.rs:161-170 `parse_tokens` -/
def parseTokensTold (lenient : Bool) : List (ParamType × Str) → Told Reason (List Token)
  | [] => .ok []
  | (p, v) :: ps => do
      let t ← tokenizeTold (tokenizerOf lenient) p v
      let ts ← parseTokensTold lenient ps
      .ok (t :: ts)

/-- `hex::decode(&data)?` in the tool, main.rs:201, 220, 235 -/
def hexDecodeCli (s : Str) : Told Reason Bytes := (hexDecodeTold s).mapErr .plainHex

/-- main.rs:172-182 `encode_input` -/
def encodeInputTold (hash : Bytes → Word) (prof : Profile) (file : Str → Option (Option Json)) (path nameOrSignature : Str)
    (values : List Str) (lenient : Bool) : Told Reason Str := do
  let contract ← loadTold file path
  let function ← selectFunctionTold contract nameOrSignature
  let tokens ← parseTokensTold lenient ((function.inputs.map (·.kind)).zip values)
  let result ← told (function.encodeInput hash prof tokens)
  .ok (hexEncode result)

/-- main.rs:184-197 `encode_params` -/
def encodeParamsTold (prof : Profile) (params : List Str) (lenient : Bool) : Told Reason Str :=
  if params.length % 2 ≠ 0 then .panic
  else do
    let params ← told (readPairs params)
    let tokens ← parseTokensTold lenient params
    let result ← told (encode prof tokens)
    .ok (hexEncode result)

/-- main.rs:199-215 `decode_call_output` -/
def decodeOutputTold (prof : Profile) (file : Str → Option (Option Json)) (path nameOrSignature data : Str) : Told Reason Str := do
  let contract ← loadTold file path
  let function ← selectFunctionTold contract nameOrSignature
  let data ← hexDecodeCli data
  let tokens ← told (function.decodeOutput prof data)
  if function.outputs.length ≠ tokens.length then .panic
  else .ok (join (lit "\n") (typedLines (function.outputs.map (·.kind)) tokens))

/-- main.rs:217-230 `decode_params` -/
def decodeParamsTold (prof : Profile) (types : List Str) (data : Str) : Told Reason Str := do
  let types ← told (readAll types)
  let data ← hexDecodeCli data
  let tokens ← told (decode prof types data)
  if types.length ≠ tokens.length then .panic
  else .ok (join (lit "\n") (typedLines types tokens))

/-- main.rs:232-246 `decode_log` -/
def decodeLogTold (hash : Bytes → Word) (parseHash : Str → Res Word) (prof : Profile) (file : Str → Option (Option Json))
    (path nameOrSignature : Str) (topics : List Str) (data : Str) : Told Reason Str := do
  let contract ← loadTold file path
  let event ← selectEventTold hash contract nameOrSignature
  let topics ← told (parseHashes parseHash topics)
  let data ← hexDecodeCli data
  let decoded ← told (event.parseLog hash prof { topics := topics, data := data })
  .ok (join (lit "\n") (decoded.params.map fun p => p.name ++ lit " " ++ p.value.display))

/-- main.rs:73-93 `execute` -/
def executeTold (hash : Bytes → Word) (parseHash : Str → Res Word) (prof : Profile) (file : Str → Option (Option Json)) :
    Command → Told Reason Str
  | .encodeFunction path name params lenient => encodeInputTold hash prof file path name params lenient
  | .encodeParams params lenient => encodeParamsTold prof params lenient
  | .decodeFunction path name data => decodeOutputTold prof file path name data
  | .decodeParams types data => decodeParamsTold prof types data
  | .decodeLog path name topics data => decodeLogTold hash parseHash prof file path name topics data

end Ethabi

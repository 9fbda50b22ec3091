import Verif.Model.Tokenizer
import Verif.Model.DecoderCount
/-!
# The work of the tokenizers

The tokenizers of Model/Tokenizer.lean once more, with a count of the work.  The results are those of Model/Tokenizer.lean
(`Proofs/TokenizerCount.lean`).  Counted are one for every call of `tokenize` and one for every byte of a text each time it
is gone through: by `hex::decode`, by `to_owned` (strict.rs:28), by `from_dec_str` after the failure of `hex::decode`
(lenient.rs:45, 58), by `trim_start_matches` (lenient.rs:58), by `chars().count()` (mod.rs:53, 109) and by the loops
(mod.rs:62, 117).  Slices are not copied.
-/
namespace Ethabi
open Counted

/-- how often `tokenize_uint` goes through the text: strict.rs:51-61, lenient.rs:40-48 -/
def uintPasses (m : Tokenizer) (value : Str) : Nat :=
  match m, strictUint value with
  | .lenient, .err _ => 2
  | _, _ => 1

/-- how often `tokenize_int` goes through the text: strict.rs:63-65, lenient.rs:53-75 -/
def intPasses (m : Tokenizer) (value : Str) : Nat :=
  match m, strictInt value with
  | .lenient, .err _ => 3
  | _, _ => 1

/-- the loops token/mod.rs:62-100 and 117-154 -/
def pieceLoopCount (opn cls : Char) (value : Str) (item : Nat → Str → Counted Token) :
    Str → Nat → Int → Bool → Nat → List Token → Counted (List Token)
  | [], _, _, ignore, _, result => if ignore then free (.err .invalidData) else free (.ok result)
  | ch :: cs, pos, nested, ignore, lastItem, result => do
      spend (utf8Char ch).length
      if ch = opn ∧ ignore = false then
        pieceLoopCount opn cls value item cs (pos + 1) (nested + 1) ignore lastItem result
      else if ch = cls ∧ ignore = false then
        if nested - 1 < 0 then free (.err .invalidData)
        else if nested - 1 = 0 then do
          let sub ← free (strSlice value lastItem pos)
          let token ← item result.length sub
          pieceLoopCount opn cls value item cs (pos + 1) (nested - 1) ignore (pos + 1) (result ++ [token])
        else pieceLoopCount opn cls value item cs (pos + 1) (nested - 1) ignore lastItem result
      else if ch = '"' then
        pieceLoopCount opn cls value item cs (pos + 1) nested (!ignore) lastItem result
      else if ch = ',' ∧ nested = 1 ∧ ignore = false then do
        let sub ← free (strSlice value lastItem pos)
        let token ← item result.length sub
        pieceLoopCount opn cls value item cs (pos + 1) nested ignore (pos + 1) (result ++ [token])
      else pieceLoopCount opn cls value item cs (pos + 1) nested ignore lastItem result

/-- token/mod.rs:48-60, 104-116 -/
def tokenizePiecesCount (opn cls : Char) (value : Str) (item : Nat → Str → Counted Token) : Counted (List Token) :=
  if ¬ (value.head? = some opn) ∨ ¬ (value.getLast? = some cls) then free (.err .invalidData)
  else do
    spend (byteLen value)
    if value.length = 2 then free (.ok []) else pieceLoopCount opn cls value item value 0 0 false 1 []

/-- token/mod.rs:104-155 `tokenize_array` -/
def tokenizeArrayCount (value : Str) (f : Str → Counted Token) : Counted (List Token) :=
  tokenizePiecesCount '[' ']' value fun _ sub => f sub

/-- token/mod.rs:39-45 `tokenize_fixed_array` -/
def tokenizeFixedArrayCount (value : Str) (f : Str → Counted Token) (len : Nat) : Counted (List Token) := do
  let result ← tokenizeArrayCount value f
  if result.length = len then free (.ok result) else free (.err .invalidData)

/-- token/mod.rs:48-101 `tokenize_struct` -/
def tokenizeStructCount (value : Str) (fs : List (Str → Counted Token)) : Counted (List Token) :=
  tokenizePiecesCount '(' ')' value fun i sub =>
    match fs[i]? with
    | none => free (.err .invalidData)
    | some f => f sub

mutual
/-- token/mod.rs:23-36 `Tokenizer::tokenize` -/
def tokenizeCount (m : Tokenizer) : ParamType → Str → Counted Token
  | .address, v => do spend (1 + byteLen v); free (Token.address <$> strictAddress v)
  | .string, v => do spend (1 + byteLen v); free (Token.string <$> strictString v)
  | .bool, v => do spend (1 + byteLen v); free (Token.bool <$> strictBool v)
  | .bytes, v => do spend (1 + byteLen v); free (Token.bytes <$> strictBytes v)
  | .fixedBytes len, v => do spend (1 + byteLen v); free (Token.fixedBytes <$> strictFixedBytes v len)
  | .uint _, v => do
      spend (1 + uintPasses m v * byteLen v)
      free ((fun w => Token.uint (U256.ofWord w)) <$> tokenizeUint m v)
  | .int _, v => do
      spend (1 + intPasses m v * byteLen v)
      free ((fun w => Token.int (U256.ofWord w)) <$> tokenizeInt m v)
  | .array p, v => do
      spend 1
      let ts ← tokenizeArrayCount v (tokenizeCount m p)
      free (.ok (.array ts))
  | .fixedArray p len, v => do
      spend 1
      let ts ← tokenizeFixedArrayCount v (tokenizeCount m p) len
      free (.ok (.fixedArray ts))
  | .tuple ps, v => do
      spend 1
      let ts ← tokenizeStructCount v (tokenizersCount m ps)
      free (.ok (.tuple ts))
/-- the members' tokenizers, in order -/
def tokenizersCount (m : Tokenizer) : List ParamType → List (Str → Counted Token)
  | [] => []
  | p :: ps => tokenizeCount m p :: tokenizersCount m ps
end

end Ethabi

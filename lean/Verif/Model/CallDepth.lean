import Verif.Model.Decoder
import Verif.Model.Tokenizer
/-!
# `decode` and `tokenize` with room on the stack for so many calls only

`decodeStep rec` is the body of `decode_param` (decoder.rs:89-216) with `rec` for its calls of itself; `decodeWithin beyond n`
is `decode_param` where at most `n` calls of it can be under way at a time: what would be one call more yields `beyond` instead
of being made.  Likewise for `Tokenizer::tokenize` (token/mod.rs:23-155).
-/
namespace Ethabi

/-- the loops over type lists (decoder.rs:56-60, 199-203) -/
def decodeSeq (rec : ParamType → Bytes → Nat → Res (Token × Nat)) : List ParamType → Bytes → Nat → Res (List Token × Nat)
  | [], _, offset => .ok ([], offset)
  | t :: ts, data, offset => do
      let (tok, off1) ← rec t data offset
      let (toks, off2) ← decodeSeq rec ts data off1
      .ok (tok :: toks, off2)

/-- the body of `decode_param` -/
def decodeStep (prof : Profile) (rec : ParamType → Bytes → Nat → Res (Token × Nat)) : ParamType → Bytes → Nat → Res (Token × Nat)
  | .array t, data, offset => do
      let w ← peek32 prof data offset
      let lenOffset ← asUsize w
      let lw ← peek32 prof data lenOffset
      let len ← asUsize lw
      let tailOffset ← usizeAdd prof lenOffset 32
      let tail ← sliceFrom data tailOffset
      let (toks, _) ← decodeLoop (fun o => rec t tail o) len 0
      let off ← usizeAdd prof offset 32
      .ok (.array toks, off)
  | .fixedArray t len, data, offset => do
      if t.isDynamic then
        let w ← peek32 prof data offset
        let o ← asUsize w
        let tail ← sliceFrom data o
        let (toks, _) ← decodeLoop (fun o => rec t tail o) len 0
        let off ← usizeAdd prof offset 32
        .ok (.fixedArray toks, off)
      else
        let (toks, off) ← decodeLoop (fun o => rec t data o) len offset
        .ok (.fixedArray toks, off)
  | .tuple ts, data, offset => do
      if ParamType.anyDynamic ts then
        let w ← peek32 prof data offset
        let o ← asUsize w
        if o > data.length then .err .invalidData
        else
          let tail ← sliceFrom data o
          let (toks, _) ← decodeSeq rec ts tail 0
          let off ← usizeAdd prof offset 32
          .ok (.tuple toks, off)
      else
        let (toks, off) ← decodeSeq rec ts data offset
        .ok (.tuple toks, off)
  | .address, data, offset => decodeParam prof .address data offset
  | .bytes, data, offset => decodeParam prof .bytes data offset
  | .int m, data, offset => decodeParam prof (.int m) data offset
  | .uint m, data, offset => decodeParam prof (.uint m) data offset
  | .bool, data, offset => decodeParam prof .bool data offset
  | .string, data, offset => decodeParam prof .string data offset
  | .fixedBytes k, data, offset => decodeParam prof (.fixedBytes k) data offset

/-- `decode_param` with at most `n` calls under way -/
def decodeWithin (prof : Profile) (beyond : Res (Token × Nat)) : Nat → ParamType → Bytes → Nat → Res (Token × Nat)
  | 0, _, _, _ => beyond
  | n + 1, t, data, offset => decodeStep prof (decodeWithin prof beyond n) t data offset

/-- `decode` (decoder.rs:41-63) with at most `n` calls of `decode_param` under way -/
def decodeAllWithin (prof : Profile) (beyond : Res (Token × Nat)) (n : Nat) (types : List ParamType) (data : Bytes) :
    Res (List Token) :=
  if !(types.all ParamType.isEmptyBytesValidEncoding) && data.isEmpty then .err (.invalidName emptyDataMsg)
  else do
    let (toks, _) ← decodeSeq (decodeWithin prof beyond n) types data 0
    .ok toks

/-- the body of `tokenize` -/
def tokenizeStep (m : Tokenizer) (rec : ParamType → Str → Res Token) : ParamType → Str → Res Token
  | .array p, v => Token.array <$> tokenizeArray v (rec p)
  | .fixedArray p len, v => Token.fixedArray <$> tokenizeFixedArray v (rec p) len
  | .tuple ps, v => Token.tuple <$> tokenizeStruct v (ps.map rec)
  | .address, v => tokenize m .address v
  | .bytes, v => tokenize m .bytes v
  | .int k, v => tokenize m (.int k) v
  | .uint k, v => tokenize m (.uint k) v
  | .bool, v => tokenize m .bool v
  | .string, v => tokenize m .string v
  | .fixedBytes k, v => tokenize m (.fixedBytes k) v

/-- `tokenize` with at most `n` calls under way -/
def tokenizeWithin (m : Tokenizer) (beyond : Res Token) : Nat → ParamType → Str → Res Token
  | 0, _, _ => beyond
  | n + 1, t, v => tokenizeStep m (tokenizeWithin m beyond n) t v

end Ethabi

import Verif.Model.Decoder
import Verif.Model.ReaderCount
/-!
# The work of `decode`

The decoder of Model/Decoder.lean once more, with a count of the work.  The results are those of Model/Decoder.lean
(`Proofs/DecoderCount.lean`).  Counted are

* one for every call of `decode_param` (decoder.rs:89),
* one for every byte that `take_bytes` copies (81-87), and once more for those of a string, which
  `from_utf8_lossy` goes through (128),
* one for every type that `is_dynamic` looks at (param_type.rs:58-65), called for every fixed array and tuple that is
  decoded (decoder.rs:163, 186),
* one for every type in the list (42).

Everything else takes bounded time for each call (a slice is not a copy), except that a vector that grows is moved now
and then, which costs no more than what is pushed.
-/
namespace Ethabi
open Counted

/-- so much work -/
def spend (n : Nat) : Counted Unit := ⟨.ok (), n⟩

mutual
/-- how many types `is_dynamic` looks at, param_type.rs:58-65 -/
def dynamicWork : ParamType → Nat
  | .fixedArray t _ => 1 + dynamicWork t
  | .tuple ts => 1 + anyDynamicWork ts
  | .address => 1
  | .bytes => 1
  | .int _ => 1
  | .uint _ => 1
  | .bool => 1
  | .string => 1
  | .array _ => 1
  | .fixedBytes _ => 1
/-- `any` stops at the first dynamic one, param_type.rs:62 -/
def anyDynamicWork : List ParamType → Nat
  | [] => 0
  | t :: ts => dynamicWork t + if t.isDynamic then 0 else anyDynamicWork ts
end

/-- decoder.rs:151-155, 169-173 -/
def decodeLoopCount (f : Nat → Counted (Token × Nat)) : Nat → Nat → Counted (List Token × Nat)
  | 0, off => free (.ok ([], off))
  | n + 1, off => do
      let (tok, off1) ← f off
      let (toks, off2) ← decodeLoopCount f n off1
      free (.ok (tok :: toks, off2))

mutual
/-- decoder.rs:89-216 `decode_param` -/
def decodeParamCount (prof : Profile) : ParamType → Bytes → Nat → Counted (Token × Nat)
  | .address, data, offset => do
      spend 1
      let w ← free (peek32 prof data offset)
      let off ← free (usizeAdd prof offset 32)
      free (.ok (.address (wordAddress w), off))
  | .int _, data, offset => do
      spend 1
      let w ← free (peek32 prof data offset)
      let off ← free (usizeAdd prof offset 32)
      free (.ok (.int (U256.ofWord w), off))
  | .uint _, data, offset => do
      spend 1
      let w ← free (peek32 prof data offset)
      let off ← free (usizeAdd prof offset 32)
      free (.ok (.uint (U256.ofWord w), off))
  | .bool, data, offset => do
      spend 1
      let w ← free (peek32 prof data offset)
      let b ← free (asBool w)
      let off ← free (usizeAdd prof offset 32)
      free (.ok (.bool b, off))
  | .fixedBytes len, data, offset => do
      spend 1
      let bs ← free (takeBytes prof data offset len)
      spend bs.length
      let off ← free (usizeAdd prof offset 32)
      free (.ok (.fixedBytes bs, off))
  | .bytes, data, offset => do
      spend 1
      let w ← free (peek32 prof data offset)
      let dyn ← free (asUsize w)
      let lw ← free (peek32 prof data dyn)
      let len ← free (asUsize lw)
      let start ← free (usizeAdd prof dyn 32)
      let bs ← free (takeBytes prof data start len)
      spend bs.length
      let off ← free (usizeAdd prof offset 32)
      free (.ok (.bytes bs, off))
  | .string, data, offset => do
      spend 1
      let w ← free (peek32 prof data offset)
      let dyn ← free (asUsize w)
      let lw ← free (peek32 prof data dyn)
      let len ← free (asUsize lw)
      let start ← free (usizeAdd prof dyn 32)
      let bs ← free (takeBytes prof data start len)
      spend (2 * bs.length)
      let off ← free (usizeAdd prof offset 32)
      free (.ok (.string (fromUtf8Lossy bs), off))
  | .array t, data, offset => do
      spend 1
      let w ← free (peek32 prof data offset)
      let lenOffset ← free (asUsize w)
      let lw ← free (peek32 prof data lenOffset)
      let len ← free (asUsize lw)
      let tailOffset ← free (usizeAdd prof lenOffset 32)
      let tail ← free (sliceFrom data tailOffset)
      let (toks, _) ← decodeLoopCount (fun o => decodeParamCount prof t tail o) len 0
      let off ← free (usizeAdd prof offset 32)
      free (.ok (.array toks, off))
  | .fixedArray t len, data, offset => do
      spend (1 + dynamicWork (.fixedArray t len))
      if t.isDynamic then
        let w ← free (peek32 prof data offset)
        let o ← free (asUsize w)
        let tail ← free (sliceFrom data o)
        let (toks, _) ← decodeLoopCount (fun o => decodeParamCount prof t tail o) len 0
        let off ← free (usizeAdd prof offset 32)
        free (.ok (.fixedArray toks, off))
      else
        let (toks, off) ← decodeLoopCount (fun o => decodeParamCount prof t data o) len offset
        free (.ok (.fixedArray toks, off))
  | .tuple ts, data, offset => do
      spend (1 + dynamicWork (.tuple ts))
      if ParamType.anyDynamic ts then
        let w ← free (peek32 prof data offset)
        let o ← free (asUsize w)
        if o > data.length then free (.err .invalidData)
        else
          let tail ← free (sliceFrom data o)
          let (toks, _) ← decodeParamsCount prof ts tail 0
          let off ← free (usizeAdd prof offset 32)
          free (.ok (.tuple toks, off))
      else
        let (toks, off) ← decodeParamsCount prof ts data offset
        free (.ok (.tuple toks, off))
/-- decoder.rs:56-60, 199-203 -/
def decodeParamsCount (prof : Profile) : List ParamType → Bytes → Nat → Counted (List Token × Nat)
  | [], _, offset => free (.ok ([], offset))
  | t :: ts, data, offset => do
      let (tok, off1) ← decodeParamCount prof t data offset
      let (toks, off2) ← decodeParamsCount prof ts data off1
      free (.ok (tok :: toks, off2))
end

/-- decoder.rs:41-63 `pub fn decode` -/
def decodeCount (prof : Profile) (types : List ParamType) (data : Bytes) : Counted (List Token) := do
  spend types.length
  if !(types.all ParamType.isEmptyBytesValidEncoding) && data.isEmpty then
    free (.err (.invalidName emptyDataMsg))
  else
    let (toks, _) ← decodeParamsCount prof types data 0
    free (.ok toks)

end Ethabi

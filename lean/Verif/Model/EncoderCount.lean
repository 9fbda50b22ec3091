import Verif.Model.Encoder
import Verif.Model.DecoderCount
/-!
# The work of `encode`

The encoder of Model/Encoder.lean once more, with a count of the work.  The results are those of Model/Encoder.lean
(`Proofs/EncoderCount.lean`).  Counted are one for every call of `encode_token`, `head_len`, `tail_len`, `head`, `tail` and
`encode_head_tail`, one for every token that `is_dynamic` looks at (token.rs:216-223), and one for every word (of 32 bytes)
each time it is made or copied: by `pad_bytes` and the like, `clone` (77, 90), `collect` (78), `extend` (111, 116, 120, 99) and
the conversion to bytes at the end (127).  A vector that grows is moved now and then, which costs no more than what is
added to it.
-/
namespace Ethabi
open Counted

mutual
/-- how many tokens `is_dynamic` looks at, token.rs:216-223 -/
def tokenDynamicWork : Token → Nat
  | .fixedArray ts => 1 + anyTokenDynamicWork ts
  | .tuple ts => 1 + anyTokenDynamicWork ts
  | .address _ => 1
  | .bytes _ => 1
  | .int _ => 1
  | .uint _ => 1
  | .bool _ => 1
  | .string _ => 1
  | .array _ => 1
  | .fixedBytes _ => 1
/-- `any` stops at the first dynamic one, token.rs:219-220 -/
def anyTokenDynamicWork : List Token → Nat
  | [] => 0
  | t :: ts => tokenDynamicWork t + if t.isDynamic then 0 else anyTokenDynamicWork ts
end

mutual
/-- encoder.rs:52-61 `head_len` -/
def Mediate.headLenCount (prof : Profile) : Mediate → Counted Nat
  | .raw ws => do spend 1; free (u32mul prof 32 (asU32 ws.length))
  | .rawTuple ms => do spend 1; Mediate.sumHeadLenCount prof ms 0
  | .prefixed _ => do spend 1; free (.ok 32)
  | .prefixedArray _ => do spend 1; free (.ok 32)
  | .prefixedArrayWithLength _ => do spend 1; free (.ok 32)
  | .prefixedTuple _ => do spend 1; free (.ok 32)
/-- encoder.rs:55, 106 -/
def Mediate.sumHeadLenCount (prof : Profile) : List Mediate → Nat → Counted Nat
  | [], acc => free (.ok acc)
  | m :: ms, acc => do
      let h ← m.headLenCount prof
      let acc' ← free (u32add prof acc h)
      Mediate.sumHeadLenCount prof ms acc'
end

mutual
/-- encoder.rs:63-73 `tail_len` -/
def Mediate.tailLenCount (prof : Profile) : Mediate → Counted Nat
  | .raw _ => do spend 1; free (.ok 0)
  | .rawTuple _ => do spend 1; free (.ok 0)
  | .prefixed ws => do spend 1; free (u32mul prof (asU32 ws.length) 32)
  | .prefixedArray ms => do spend 1; Mediate.sumLenCount prof ms 0
  | .prefixedArrayWithLength ms => do spend 1; Mediate.sumLenCount prof ms 32
  | .prefixedTuple ms => do spend 1; Mediate.sumLenCount prof ms 0
/-- encoder.rs:67-71 -/
def Mediate.sumLenCount (prof : Profile) : List Mediate → Nat → Counted Nat
  | [], acc => free (.ok acc)
  | m :: ms, acc => do
      let h ← m.headLenCount prof
      let acc1 ← free (u32add prof acc h)
      let t ← m.tailLenCount prof
      let acc2 ← free (u32add prof acc1 t)
      Mediate.sumLenCount prof ms acc2
end

mutual
/-- encoder.rs:75-84 `head`: the work (it cannot fail) -/
def Mediate.headWork : Mediate → Nat
  | .raw ws => 1 + ws.length
  | .rawTuple ms => 1 + Mediate.headsZeroWork ms + (Mediate.headsZero ms).length
  | .prefixed _ => 2
  | .prefixedArray _ => 2
  | .prefixedArrayWithLength _ => 2
  | .prefixedTuple _ => 2
/-- encoder.rs:78 -/
def Mediate.headsZeroWork : List Mediate → Nat
  | [] => 0
  | m :: ms => m.headWork + Mediate.headsZeroWork ms
end

/-- encoder.rs:109-112 -/
def Mediate.headsCount (prof : Profile) : List Mediate → List Word → Nat → Counted (List Word × Nat)
  | [], acc, offset => free (.ok (acc, offset))
  | m :: ms, acc, offset => do
      spend (m.headWork + (m.head offset).length)
      let t ← m.tailLenCount prof
      let offset' ← free (u32add prof offset t)
      Mediate.headsCount prof ms (acc ++ m.head offset) offset'

/-- encoder.rs:105-121 -/
def Mediate.assembleCount (prof : Profile) (ms : List Mediate) (tails : Counted (List Word)) : Counted (List Word) := do
  spend 1
  let headsLen ← Mediate.sumHeadLenCount prof ms 0
  let (result, _) ← Mediate.headsCount prof ms [] headsLen
  let ts ← tails
  spend ts.length
  free (.ok (result ++ ts))

mutual
/-- encoder.rs:86-102 `tail` -/
def Mediate.tailCount (prof : Profile) : Mediate → Counted (List Word)
  | .raw _ => do spend 1; free (.ok [])
  | .rawTuple _ => do spend 1; free (.ok [])
  | .prefixedTuple ms => do spend 1; Mediate.assembleCount prof ms (Mediate.tailsCount prof ms)
  | .prefixed ws => do spend (1 + ws.length); free (.ok ws)
  | .prefixedArray ms => do spend 1; Mediate.assembleCount prof ms (Mediate.tailsCount prof ms)
  | .prefixedArrayWithLength ms => do
      spend 2
      let headTail ← Mediate.assembleCount prof ms (Mediate.tailsCount prof ms)
      spend headTail.length
      free (.ok (padU32 (asU32 ms.length) :: headTail))
/-- encoder.rs:114-117 -/
def Mediate.tailsCount (prof : Profile) : List Mediate → Counted (List Word)
  | [] => free (.ok [])
  | m :: ms => do
      let t ← m.tailCount prof
      spend t.length
      let ts ← Mediate.tailsCount prof ms
      free (.ok (t ++ ts))
end

/-- encoder.rs:105-121 `encode_head_tail` -/
def encodeHeadTailCount (prof : Profile) (ms : List Mediate) : Counted (List Word) :=
  Mediate.assembleCount prof ms (Mediate.tailsCount prof ms)

mutual
/-- encoder.rs:130-174 `encode_token` -/
def encodeTokenCount (prof : Profile) : Token → Counted Mediate
  | .address a => do spend 2; free (.ok (.raw [padAddress a]))
  | .bytes b => do spend (1 + (padBytes b).length); free (.ok (.prefixed (padBytes b)))
  | .string s => do spend (1 + (padBytes (utf8 s)).length); free (.ok (.prefixed (padBytes (utf8 s))))
  | .fixedBytes b => do spend (1 + (padFixedBytes b).length); free (.ok (.raw (padFixedBytes b)))
  | .int v => do spend 2; free (.ok (.raw [U256.toWord v]))
  | .uint v => do spend 2; free (.ok (.raw [U256.toWord v]))
  | .bool b => do spend 2; free (.ok (.raw [padBool b]))
  | .array ts => do
      spend 1
      let ms ← encodeTokensCount prof ts
      free (.ok (.prefixedArrayWithLength ms))
  | .fixedArray ts => do
      spend 1
      let ms ← encodeTokensCount prof ts
      spend (tokenDynamicWork (.fixedArray ts))
      if Token.anyDynamic ts then free (.ok (.prefixedArray ms))
      else do
        let ws ← encodeHeadTailCount prof ms
        free (.ok (.raw ws))
  | .tuple ts => do
      spend (1 + tokenDynamicWork (.tuple ts))
      let ms ← encodeTokensCount prof ts
      if Token.anyDynamic ts then free (.ok (.prefixedTuple ms)) else free (.ok (.rawTuple ms))
/-- encoder.rs:125, 150, 155, 164, 169 -/
def encodeTokensCount (prof : Profile) : List Token → Counted (List Mediate)
  | [] => free (.ok [])
  | t :: ts => do
      let m ← encodeTokenCount prof t
      let ms ← encodeTokensCount prof ts
      free (.ok (m :: ms))
end

/-- encoder.rs:124-128 `pub fn encode` -/
def encodeCount (prof : Profile) (tokens : List Token) : Counted Bytes := do
  spend 1
  let ms ← encodeTokensCount prof tokens
  let ws ← encodeHeadTailCount prof ms
  spend ws.length
  free (.ok (flattenWords ws))

end Ethabi

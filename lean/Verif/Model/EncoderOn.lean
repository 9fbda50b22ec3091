import Verif.Model.Encoder
import Verif.Model.Function
/-!
# The encoder on targets whose `usize` has `bits` bits

The same source lines as Model/Encoder.lean, together with the two `Vec::with_capacity` calls of `encode_head_tail`
(encoder.rs:109 and 114), which Model/Encoder.lean leaves out.  `Vec::with_capacity(n)` of a `Vec<Word>` asks for `32 * n` bytes
and panics ("capacity overflow") when these are more than `isize::MAX = 2^(bits-1) - 1`; the code passes numbers of *bytes* where
numbers of words are meant.  Not modelled: that memory may run out (which aborts the program).  The capacity of
`pad_fixed_bytes` (encoder.rs:21) is too large only for byte strings that take 2^(bits-1) bytes as words, for which the calls
modelled here panic as well; vectors that grow later stay below 2^(bits-1) bytes once both calls have succeeded.
`C103_same_code` proves that this is Model/Encoder.lean for `bits = 64`.
-/
namespace Ethabi

/-- `Vec::<Word>::with_capacity(count)` -/
def wordCapacityOn (bits count : Nat) : Res Unit := if 2 ^ (bits - 1) ≤ 32 * count then .panic else .ok ()

/-- `u32 - u32` -/
def u32sub (prof : Profile) (a b : Nat) : Res Nat :=
  if b ≤ a then .ok (a - b)
  else match prof with
    | .debug => .panic
    | .release => .ok (a + 2 ^ 32 - b)

/-- Body of encoder.rs:105-121 `encode_head_tail`, with the tails (encoder.rs:114-117) passed in already computed. -/
def Mediate.assembleOn (bits : Nat) (prof : Profile) (ms : List Mediate) (tails : Res (List Word)) : Res (List Word) := do
  let headsLen ← Mediate.sumHeadLen prof ms 0
  wordCapacityOn bits headsLen
  let (result, len) ← Mediate.heads prof ms [] headsLen
  let tailsLen ← u32sub prof len headsLen
  wordCapacityOn bits tailsLen
  let ts ← tails
  .ok (result ++ ts)

mutual
/-- encoder.rs:86-102 `Mediate::tail`. -/
def Mediate.tailOn (bits : Nat) (prof : Profile) : Mediate → Res (List Word)
  | .raw _ => .ok []
  | .rawTuple _ => .ok []
  | .prefixedTuple ms => Mediate.assembleOn bits prof ms (Mediate.tailsOn bits prof ms)
  | .prefixed ws => .ok ws
  | .prefixedArray ms => Mediate.assembleOn bits prof ms (Mediate.tailsOn bits prof ms)
  | .prefixedArrayWithLength ms => do
      let headTail ← Mediate.assembleOn bits prof ms (Mediate.tailsOn bits prof ms)
      .ok (padU32 (asU32 ms.length) :: headTail)
/-- `mediates.iter().fold(.., |mut acc, m| { acc.extend(m.tail()); acc })`, encoder.rs:114-117. -/
def Mediate.tailsOn (bits : Nat) (prof : Profile) : List Mediate → Res (List Word)
  | [] => .ok []
  | m :: ms => do
      let t ← m.tailOn bits prof
      let ts ← Mediate.tailsOn bits prof ms
      .ok (t ++ ts)
end

/-- encoder.rs:105-121 `encode_head_tail`. -/
def encodeHeadTailOn (bits : Nat) (prof : Profile) (ms : List Mediate) : Res (List Word) :=
  Mediate.assembleOn bits prof ms (Mediate.tailsOn bits prof ms)

mutual
/-- encoder.rs:130-174 `encode_token`. -/
def encodeTokenOn (bits : Nat) (prof : Profile) : Token → Res Mediate
  | .address a => .ok (.raw [padAddress a])
  | .bytes b => .ok (.prefixed (padBytes b))
  | .string s => .ok (.prefixed (padBytes (utf8 s)))
  | .fixedBytes b => .ok (.raw (padFixedBytes b))
  | .int v => .ok (.raw [U256.toWord v])
  | .uint v => .ok (.raw [U256.toWord v])
  | .bool b => .ok (.raw [padBool b])
  | .array ts => do
      let ms ← encodeTokensOn bits prof ts
      .ok (.prefixedArrayWithLength ms)
  | .fixedArray ts => do
      let ms ← encodeTokensOn bits prof ts
      if Token.anyDynamic ts then .ok (.prefixedArray ms)
      else do
        let ws ← encodeHeadTailOn bits prof ms
        .ok (.raw ws)
  | .tuple ts => do
      let ms ← encodeTokensOn bits prof ts
      if Token.anyDynamic ts then .ok (.prefixedTuple ms) else .ok (.rawTuple ms)
/-- `tokens.iter().map(encode_token).collect()`, encoder.rs:125,150,155,164,169. -/
def encodeTokensOn (bits : Nat) (prof : Profile) : List Token → Res (List Mediate)
  | [] => .ok []
  | t :: ts => do
      let m ← encodeTokenOn bits prof t
      let ms ← encodeTokensOn bits prof ts
      .ok (m :: ms)
end

/-- encoder.rs:124-128 `pub fn encode`. -/
def encodeOn (bits : Nat) (prof : Profile) (tokens : List Token) : Res Bytes := do
  let ms ← encodeTokensOn bits prof tokens
  let ws ← encodeHeadTailOn bits prof ms
  .ok (flattenWords ws)

/-- function.rs:51-61 `Function::encode_input`. -/
def Function.encodeInputOn (bits : Nat) (hash : Bytes → Word) (prof : Profile) (f : Function) (tokens : List Token) : Res Bytes := do
  let params := f.inputParamTypes
  let okay ← Token.typesCheck tokens params
  if !okay then .err .invalidData
  else
    let signed := shortSignature hash f.name params
    let encoded ← encodeOn bits prof tokens
    .ok (signed ++ encoded)

/-- constructor.rs:27-35 `Constructor::encode_input`. -/
def Constructor.encodeInputOn (bits : Nat) (prof : Profile) (c : Constructor) (code : Bytes) (tokens : List Token) : Res Bytes := do
  let okay ← Token.typesCheck tokens c.paramTypes
  if okay then
    let e ← encodeOn bits prof tokens
    .ok (code ++ e)
  else .err .invalidData

end Ethabi

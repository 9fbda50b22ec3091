import Verif.Model.Types
import Verif.Model.Utf8
/-!
# ABI encoder — ethabi/src/encoder.rs and ethabi/src/util.rs
-/
namespace Ethabi

/-- ethabi/src/util.rs:14-18 `pad_u32`: 28 zero bytes then the four big-endian bytes.
`value` is a `u32`, i.e. `value < 2^32`. -/
def padU32 (value : Nat) : Word := ⟨List.replicate 28 0 ++ beBytes 4 value, by simp⟩

/-- one iteration of the loop of encoder.rs:22-36: 32 zero bytes with `to_copy` bytes of
`bytes[offset..]` copied over the front, where `to_copy` is 32 except possibly in the last chunk. -/
def padChunk (bytes : Bytes) (len i : Nat) : Word :=
  let toCopy := if i = len - 1 then (if bytes.length % 32 = 0 then 32 else bytes.length % 32) else 32
  let chunk := ((bytes.drop (32 * i)).take toCopy).take 32
  ⟨chunk ++ List.replicate (32 - chunk.length) 0, by
    have : chunk.length ≤ 32 := List.length_take_le _ _
    simp only [List.length_append, List.length_replicate]; omega⟩

/-- encoder.rs:19-39 `pad_fixed_bytes`.  (`bytes.len() + 31` cannot overflow: Rust
allocations are at most `isize::MAX` bytes.) -/
def padFixedBytes (bytes : Bytes) : List Word :=
  let len := (bytes.length + 31) / 32
  (List.range len).map (padChunk bytes len)

/-- encoder.rs:13-17 `pad_bytes`: length word (`bytes.len() as u32`) then the padded bytes. -/
def padBytes (bytes : Bytes) : List Word :=
  padU32 (asU32 bytes.length) :: padFixedBytes bytes

/-- encoder.rs:41-49 `enum Mediate`. -/
inductive Mediate where
  | raw (ws : List Word)
  | prefixed (ws : List Word)
  | prefixedArray (ms : List Mediate)
  | prefixedArrayWithLength (ms : List Mediate)
  | rawTuple (ms : List Mediate)
  | prefixedTuple (ms : List Mediate)

mutual
/-- encoder.rs:52-61 `Mediate::head_len`. -/
def Mediate.headLen (prof : Profile) : Mediate → Res Nat
  | .raw ws => u32mul prof 32 (asU32 ws.length)
  | .rawTuple ms => Mediate.sumHeadLen prof ms 0
  | .prefixed _ => .ok 32
  | .prefixedArray _ => .ok 32
  | .prefixedArrayWithLength _ => .ok 32
  | .prefixedTuple _ => .ok 32
/-- `mediates.iter().map(|mediate| mediate.head_len()).sum()` (encoder.rs:55) and
`mediates.iter().fold(0, |acc, m| acc + m.head_len())` (encoder.rs:106). -/
def Mediate.sumHeadLen (prof : Profile) : List Mediate → Nat → Res Nat
  | [], acc => .ok acc
  | m :: ms, acc => do
      let h ← m.headLen prof
      let acc' ← u32add prof acc h
      Mediate.sumHeadLen prof ms acc'
end

mutual
/-- encoder.rs:63-73 `Mediate::tail_len`. -/
def Mediate.tailLen (prof : Profile) : Mediate → Res Nat
  | .raw _ => .ok 0
  | .rawTuple _ => .ok 0
  | .prefixed ws => u32mul prof (asU32 ws.length) 32
  | .prefixedArray ms => Mediate.sumLen prof ms 0
  | .prefixedArrayWithLength ms => Mediate.sumLen prof ms 32
  | .prefixedTuple ms => Mediate.sumLen prof ms 0
/-- `mediates.iter().fold(acc, |acc, m| acc + m.head_len() + m.tail_len())`, encoder.rs:67-71. -/
def Mediate.sumLen (prof : Profile) : List Mediate → Nat → Res Nat
  | [], acc => .ok acc
  | m :: ms, acc => do
      let h ← m.headLen prof
      let acc1 ← u32add prof acc h
      let t ← m.tailLen prof
      let acc2 ← u32add prof acc1 t
      Mediate.sumLen prof ms acc2
end

mutual
/-- encoder.rs:75-84 `Mediate::head`. -/
def Mediate.head : Mediate → (suffixOffset : Nat) → List Word
  | .raw ws, _ => ws
  | .rawTuple ms, _ => Mediate.headsZero ms
  | .prefixed _, off => [padU32 off]
  | .prefixedArray _, off => [padU32 off]
  | .prefixedArrayWithLength _, off => [padU32 off]
  | .prefixedTuple _, off => [padU32 off]
/-- `raw.iter().map(|mediate| mediate.head(0)).flatten().collect()`, encoder.rs:78. -/
def Mediate.headsZero : List Mediate → List Word
  | [] => []
  | m :: ms => m.head 0 ++ Mediate.headsZero ms
end

/-- encoder.rs:109-112: fold of heads, threading the offset `offset + m.tail_len()`. -/
def Mediate.heads (prof : Profile) : List Mediate → List Word → Nat → Res (List Word × Nat)
  | [], acc, offset => .ok (acc, offset)
  | m :: ms, acc, offset => do
      let t ← m.tailLen prof
      let offset' ← u32add prof offset t
      Mediate.heads prof ms (acc ++ m.head offset) offset'

/-- Body of encoder.rs:105-121 `encode_head_tail`, with the tails (encoder.rs:114-117) passed in
already computed, so that the recursion below is structural.  The two `Vec::with_capacity`
arguments only pre-allocate memory and are not modelled (`len - heads_len` cannot underflow
unless an addition overflowed before). -/
def Mediate.assemble (prof : Profile) (ms : List Mediate) (tails : Res (List Word)) : Res (List Word) := do
  let headsLen ← Mediate.sumHeadLen prof ms 0
  let (result, _) ← Mediate.heads prof ms [] headsLen
  let ts ← tails
  .ok (result ++ ts)

mutual
/-- encoder.rs:86-102 `Mediate::tail`. -/
def Mediate.tail (prof : Profile) : Mediate → Res (List Word)
  | .raw _ => .ok []
  | .rawTuple _ => .ok []
  | .prefixedTuple ms => Mediate.assemble prof ms (Mediate.tails prof ms)
  | .prefixed ws => .ok ws
  | .prefixedArray ms => Mediate.assemble prof ms (Mediate.tails prof ms)
  | .prefixedArrayWithLength ms => do
      let headTail ← Mediate.assemble prof ms (Mediate.tails prof ms)
      .ok (padU32 (asU32 ms.length) :: headTail)
/-- `mediates.iter().fold(.., |mut acc, m| { acc.extend(m.tail()); acc })`, encoder.rs:114-117. -/
def Mediate.tails (prof : Profile) : List Mediate → Res (List Word)
  | [] => .ok []
  | m :: ms => do
      let t ← m.tail prof
      let ts ← Mediate.tails prof ms
      .ok (t ++ ts)
end

/-- encoder.rs:105-121 `encode_head_tail`. -/
def encodeHeadTail (prof : Profile) (ms : List Mediate) : Res (List Word) :=
  Mediate.assemble prof ms (Mediate.tails prof ms)

/-- encoder.rs:133-135: `padded[12..].copy_from_slice(address)`. -/
def padAddress (a : Address) : Word := ⟨List.replicate 12 0 ++ a.1, by simp [a.2]⟩

/-- encoder.rs:142-148: 32 zero bytes, last one 1 for `true`. -/
def padBool (b : Bool) : Word := ⟨List.replicate 31 0 ++ [if b then 1 else 0], by simp⟩

mutual
/-- encoder.rs:130-174 `encode_token`. -/
def encodeToken (prof : Profile) : Token → Res Mediate
  | .address a => .ok (.raw [padAddress a])
  | .bytes b => .ok (.prefixed (padBytes b))
  | .string s => .ok (.prefixed (padBytes (utf8 s)))
  | .fixedBytes b => .ok (.raw (padFixedBytes b))
  | .int v => .ok (.raw [U256.toWord v])
  | .uint v => .ok (.raw [U256.toWord v])
  | .bool b => .ok (.raw [padBool b])
  | .array ts => do
      let ms ← encodeTokens prof ts
      .ok (.prefixedArrayWithLength ms)
  | .fixedArray ts => do
      let ms ← encodeTokens prof ts
      if Token.anyDynamic ts then .ok (.prefixedArray ms)
      else do
        let ws ← encodeHeadTail prof ms
        .ok (.raw ws)
  | .tuple ts => do
      let ms ← encodeTokens prof ts
      if Token.anyDynamic ts then .ok (.prefixedTuple ms) else .ok (.rawTuple ms)
/-- `tokens.iter().map(encode_token).collect()`, encoder.rs:125,150,155,164,169. -/
def encodeTokens (prof : Profile) : List Token → Res (List Mediate)
  | [] => .ok []
  | t :: ts => do
      let m ← encodeToken prof t
      let ms ← encodeTokens prof ts
      .ok (m :: ms)
end

/-- `.iter().flat_map(|word| word.to_vec())`, encoder.rs:127. -/
def flattenWords (ws : List Word) : Bytes := ws.flatMap (·.1)

/-- encoder.rs:124-128 `pub fn encode`. -/
def encode (prof : Profile) (tokens : List Token) : Res Bytes := do
  let ms ← encodeTokens prof tokens
  let ws ← encodeHeadTail prof ms
  .ok (flattenWords ws)

end Ethabi

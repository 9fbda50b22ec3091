import Verif.Model.Types
import Verif.Model.Utf8
/-!
# ABI decoder — ethabi/src/decoder.rs
-/
namespace Ethabi

/-- the four shifted bytes of decoder.rs:24-27 -/
def wordLow (w : Word) : Nat :=
  (w.1.getD 28 0).toNat * 2 ^ 24 + (w.1.getD 29 0).toNat * 2 ^ 16
    + (w.1.getD 30 0).toNat * 2 ^ 8 + (w.1.getD 31 0).toNat

/-- decoder.rs:19-30 `as_usize`. -/
def asUsize (w : Word) : Res Nat :=
  if (w.1.take 28).all (· == 0) then .ok (wordLow w) else .err .invalidData

/-- decoder.rs:32-38 `as_bool`. -/
def asBool (w : Word) : Res Bool :=
  if (w.1.take 31).all (· == 0) then .ok (w.1.getD 31 0 == 1) else .err .invalidData

/-- decoder.rs:65-71 `peek`. -/
def peek (prof : Profile) (data : Bytes) (offset len : Nat) : Res Bytes := do
  let e ← usizeAdd prof offset len
  if e > data.length then .err .invalidData else slice data offset e

/-- `let mut out = [0u8; 32]; out.copy_from_slice(&x[0..32])` (decoder.rs:75-77); panics
unless 32 bytes are there. -/
def copyWord (x : Bytes) : Res Word :=
  if h : (x.take 32).length = 32 then .ok ⟨x.take 32, h⟩ else .panic

/-- decoder.rs:73-79 `peek_32_bytes`. -/
def peek32 (prof : Profile) (data : Bytes) (offset : Nat) : Res Word := do
  let x ← peek prof data offset 32
  copyWord x

/-- decoder.rs:81-87 `take_bytes`. -/
def takeBytes (prof : Profile) (data : Bytes) (offset len : Nat) : Res Bytes := do
  let e ← usizeAdd prof offset len
  if e > data.length then .err .invalidData else slice data offset e

/-- decoder.rs:93-95: last 20 bytes of the word. -/
def wordAddress (w : Word) : Address := ⟨w.1.drop 12, by simp [w.2]⟩

/-- The loop `for _ in 0..len { let res = decode_param(t, tail, new_offset)?; .. }`
(decoder.rs:151-155, 169-173). -/
def decodeLoop (f : Nat → Res (Token × Nat)) : Nat → Nat → Res (List Token × Nat)
  | 0, off => .ok ([], off)
  | n + 1, off => do
      let (tok, off1) ← f off
      let (toks, off2) ← decodeLoop f n off1
      .ok (tok :: toks, off2)

mutual
/-- decoder.rs:89-216 `decode_param`; the pair is `DecodeResult { token, new_offset }`. -/
def decodeParam (prof : Profile) : ParamType → Bytes → Nat → Res (Token × Nat)
  | .address, data, offset => do
      let w ← peek32 prof data offset
      let off ← usizeAdd prof offset 32
      .ok (.address (wordAddress w), off)
  | .int _, data, offset => do
      let w ← peek32 prof data offset
      let off ← usizeAdd prof offset 32
      .ok (.int (U256.ofWord w), off)
  | .uint _, data, offset => do
      let w ← peek32 prof data offset
      let off ← usizeAdd prof offset 32
      .ok (.uint (U256.ofWord w), off)
  | .bool, data, offset => do
      let w ← peek32 prof data offset
      let b ← asBool w
      let off ← usizeAdd prof offset 32
      .ok (.bool b, off)
  | .fixedBytes len, data, offset => do
      let bs ← takeBytes prof data offset len
      let off ← usizeAdd prof offset 32
      .ok (.fixedBytes bs, off)
  | .bytes, data, offset => do
      let w ← peek32 prof data offset
      let dyn ← asUsize w
      let lw ← peek32 prof data dyn
      let len ← asUsize lw
      let start ← usizeAdd prof dyn 32
      let bs ← takeBytes prof data start len
      let off ← usizeAdd prof offset 32
      .ok (.bytes bs, off)
  | .string, data, offset => do
      let w ← peek32 prof data offset
      let dyn ← asUsize w
      let lw ← peek32 prof data dyn
      let len ← asUsize lw
      let start ← usizeAdd prof dyn 32
      let bs ← takeBytes prof data start len
      let off ← usizeAdd prof offset 32
      .ok (.string (fromUtf8Lossy bs), off)
  | .array t, data, offset => do
      let w ← peek32 prof data offset
      let lenOffset ← asUsize w
      let lw ← peek32 prof data lenOffset
      let len ← asUsize lw
      let tailOffset ← usizeAdd prof lenOffset 32
      let tail ← sliceFrom data tailOffset
      let (toks, _) ← decodeLoop (fun o => decodeParam prof t tail o) len 0
      let off ← usizeAdd prof offset 32
      .ok (.array toks, off)
  | .fixedArray t len, data, offset => do
      if t.isDynamic then
        let w ← peek32 prof data offset
        let o ← asUsize w
        let tail ← sliceFrom data o
        let (toks, _) ← decodeLoop (fun o => decodeParam prof t tail o) len 0
        let off ← usizeAdd prof offset 32
        .ok (.fixedArray toks, off)
      else
        let (toks, off) ← decodeLoop (fun o => decodeParam prof t data o) len offset
        .ok (.fixedArray toks, off)
  | .tuple ts, data, offset => do
      if ParamType.anyDynamic ts then
        let w ← peek32 prof data offset
        let o ← asUsize w
        if o > data.length then .err .invalidData
        else
          let tail ← sliceFrom data o
          let (toks, _) ← decodeParams prof ts tail 0
          let off ← usizeAdd prof offset 32
          .ok (.tuple toks, off)
      else
        let (toks, off) ← decodeParams prof ts data offset
        .ok (.tuple toks, off)
/-- the loops `for param in t { .. }` over a type list (decoder.rs:56-60, 199-203). -/
def decodeParams (prof : Profile) : List ParamType → Bytes → Nat → Res (List Token × Nat)
  | [], _, offset => .ok ([], offset)
  | t :: ts, data, offset => do
      let (tok, off1) ← decodeParam prof t data offset
      let (toks, off2) ← decodeParams prof ts data off1
      .ok (tok :: toks, off2)
end

/-- the message of decoder.rs:45-49 -/
def emptyDataMsg : Str :=
  ("please ensure the contract and method you're calling exist! failed to decode empty bytes. " ++
   "if you're using jsonrpc this is likely due to jsonrpc returning `0x` in case contract or " ++
   "method don't exist").toList

/-- decoder.rs:41-63 `pub fn decode`. -/
def decode (prof : Profile) (types : List ParamType) (data : Bytes) : Res (List Token) :=
  if !(types.all ParamType.isEmptyBytesValidEncoding) && data.isEmpty then
    .err (.invalidName emptyDataMsg)
  else do
    let (toks, _) ← decodeParams prof types data 0
    .ok toks

end Ethabi

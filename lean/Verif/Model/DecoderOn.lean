import Verif.Model.Decoder
/-!
# The decoder on targets whose `usize` has `bits` bits

The same source lines as Model/Decoder.lean, with `usize` additions on `bits` bits instead of 64.  `as_usize` (decoder.rs:19-30)
puts four bytes together and fits in 32 bits.  `C87_same_code` proves that this is Model/Decoder.lean for `bits = 64`.
-/
namespace Ethabi

/-- `usize + usize` -/
def usizeAddOn (bits : Nat) (prof : Profile) (a b : Nat) : Res Nat := machine prof bits (a + b)

/-- decoder.rs:65-71 `peek`. -/
def peekOn (bits : Nat) (prof : Profile) (data : Bytes) (offset len : Nat) : Res Bytes := do
  let e ← usizeAddOn bits prof offset len
  if e > data.length then .err .invalidData else slice data offset e

/-- decoder.rs:73-79 `peek_32_bytes`. -/
def peek32On (bits : Nat) (prof : Profile) (data : Bytes) (offset : Nat) : Res Word := do
  let x ← peekOn bits prof data offset 32
  copyWord x

/-- decoder.rs:81-87 `take_bytes`. -/
def takeBytesOn (bits : Nat) (prof : Profile) (data : Bytes) (offset len : Nat) : Res Bytes := do
  let e ← usizeAddOn bits prof offset len
  if e > data.length then .err .invalidData else slice data offset e

mutual
/-- decoder.rs:89-216 `decode_param`; the pair is `DecodeResult { token, new_offset }`. -/
def decodeParamOn (bits : Nat) (prof : Profile) : ParamType → Bytes → Nat → Res (Token × Nat)
  | .address, data, offset => do
      let w ← peek32On bits prof data offset
      let off ← usizeAddOn bits prof offset 32
      .ok (.address (wordAddress w), off)
  | .int _, data, offset => do
      let w ← peek32On bits prof data offset
      let off ← usizeAddOn bits prof offset 32
      .ok (.int (U256.ofWord w), off)
  | .uint _, data, offset => do
      let w ← peek32On bits prof data offset
      let off ← usizeAddOn bits prof offset 32
      .ok (.uint (U256.ofWord w), off)
  | .bool, data, offset => do
      let w ← peek32On bits prof data offset
      let b ← asBool w
      let off ← usizeAddOn bits prof offset 32
      .ok (.bool b, off)
  | .fixedBytes len, data, offset => do
      let bs ← takeBytesOn bits prof data offset len
      let off ← usizeAddOn bits prof offset 32
      .ok (.fixedBytes bs, off)
  | .bytes, data, offset => do
      let w ← peek32On bits prof data offset
      let dyn ← asUsize w
      let lw ← peek32On bits prof data dyn
      let len ← asUsize lw
      let start ← usizeAddOn bits prof dyn 32
      let bs ← takeBytesOn bits prof data start len
      let off ← usizeAddOn bits prof offset 32
      .ok (.bytes bs, off)
  | .string, data, offset => do
      let w ← peek32On bits prof data offset
      let dyn ← asUsize w
      let lw ← peek32On bits prof data dyn
      let len ← asUsize lw
      let start ← usizeAddOn bits prof dyn 32
      let bs ← takeBytesOn bits prof data start len
      let off ← usizeAddOn bits prof offset 32
      .ok (.string (fromUtf8Lossy bs), off)
  | .array t, data, offset => do
      let w ← peek32On bits prof data offset
      let lenOffset ← asUsize w
      let lw ← peek32On bits prof data lenOffset
      let len ← asUsize lw
      let tailOffset ← usizeAddOn bits prof lenOffset 32
      let tail ← sliceFrom data tailOffset
      let (toks, _) ← decodeLoop (fun o => decodeParamOn bits prof t tail o) len 0
      let off ← usizeAddOn bits prof offset 32
      .ok (.array toks, off)
  | .fixedArray t len, data, offset => do
      if t.isDynamic then
        let w ← peek32On bits prof data offset
        let o ← asUsize w
        let tail ← sliceFrom data o
        let (toks, _) ← decodeLoop (fun o => decodeParamOn bits prof t tail o) len 0
        let off ← usizeAddOn bits prof offset 32
        .ok (.fixedArray toks, off)
      else
        let (toks, off) ← decodeLoop (fun o => decodeParamOn bits prof t data o) len offset
        .ok (.fixedArray toks, off)
  | .tuple ts, data, offset => do
      if ParamType.anyDynamic ts then
        let w ← peek32On bits prof data offset
        let o ← asUsize w
        if o > data.length then .err .invalidData
        else
          let tail ← sliceFrom data o
          let (toks, _) ← decodeParamsOn bits prof ts tail 0
          let off ← usizeAddOn bits prof offset 32
          .ok (.tuple toks, off)
      else
        let (toks, off) ← decodeParamsOn bits prof ts data offset
        .ok (.tuple toks, off)
/-- the loops `for param in t { .. }` over a type list (decoder.rs:56-60, 199-203). -/
def decodeParamsOn (bits : Nat) (prof : Profile) : List ParamType → Bytes → Nat → Res (List Token × Nat)
  | [], _, offset => .ok ([], offset)
  | t :: ts, data, offset => do
      let (tok, off1) ← decodeParamOn bits prof t data offset
      let (toks, off2) ← decodeParamsOn bits prof ts data off1
      .ok (tok :: toks, off2)
end

/-- decoder.rs:41-63 `pub fn decode`. -/
def decodeOn (bits : Nat) (prof : Profile) (types : List ParamType) (data : Bytes) : Res (List Token) :=
  if !(types.all ParamType.isEmptyBytesValidEncoding) && data.isEmpty then
    .err (.invalidName emptyDataMsg)
  else do
    let (toks, _) ← decodeParamsOn bits prof types data 0
    .ok toks

end Ethabi

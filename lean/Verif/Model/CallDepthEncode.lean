import Verif.Model.Encoder
import Verif.Model.Tokenizer
import Verif.Model.Writer
/-!
# `encode`, `type_check`, `Display` and `Writer` with room on the stack for so many calls only

Each recursive function of the code has a limit on the calls of it that can be under way at a time; what would be one call more
yields `beyond` instead of being made.  Functions of the model that are plain functions are `Res`-valued here, since a call can
now fail.
-/
namespace Ethabi

/-- `iter().map(f).collect()` with an `f` that can fail -/
def collectRes {α β : Type} (f : α → Res β) : List α → Res (List β)
  | [] => .ok []
  | a :: as => do
      let b ← f a
      let bs ← collectRes f as
      .ok (b :: bs)

/-- `iter().any(f)` with an `f` that can fail -/
def anyRes {α : Type} (f : α → Res Bool) : List α → Res Bool
  | [] => .ok false
  | a :: as => do
      let b ← f a
      if b then .ok true else anyRes f as

/-- token.rs:216-223 `Token::is_dynamic` -/
def dynamicWithin (beyond : ∀ α, Res α) : Nat → Token → Res Bool
  | 0, _ => beyond _
  | n + 1, .fixedArray ts => anyRes (dynamicWithin beyond n) ts
  | n + 1, .tuple ts => anyRes (dynamicWithin beyond n) ts
  | _ + 1, .bytes _ => .ok true
  | _ + 1, .string _ => .ok true
  | _ + 1, .array _ => .ok true
  | _ + 1, _ => .ok false

/-- the folds of encoder.rs:55 and 106 -/
def sumHeadsWith (prof : Profile) (headLen : Mediate → Res Nat) : List Mediate → Nat → Res Nat
  | [], acc => .ok acc
  | m :: ms, acc => do
      let h ← headLen m
      let acc' ← u32add prof acc h
      sumHeadsWith prof headLen ms acc'

/-- encoder.rs:52-61 `Mediate::head_len` -/
def headLenWithin (prof : Profile) (beyond : ∀ α, Res α) : Nat → Mediate → Res Nat
  | 0, _ => beyond _
  | n + 1, .rawTuple ms => sumHeadsWith prof (headLenWithin prof beyond n) ms 0
  | _ + 1, .raw ws => u32mul prof 32 (asU32 ws.length)
  | _ + 1, _ => .ok 32

/-- the folds of encoder.rs:67-71 -/
def sumLensWith (prof : Profile) (headLen tailLen : Mediate → Res Nat) : List Mediate → Nat → Res Nat
  | [], acc => .ok acc
  | m :: ms, acc => do
      let h ← headLen m
      let acc1 ← u32add prof acc h
      let t ← tailLen m
      let acc2 ← u32add prof acc1 t
      sumLensWith prof headLen tailLen ms acc2

/-- encoder.rs:63-73 `Mediate::tail_len`, with `head_len` given -/
def tailLenWithin (prof : Profile) (beyond : ∀ α, Res α) (headLen : Mediate → Res Nat) : Nat → Mediate → Res Nat
  | 0, _ => beyond _
  | _ + 1, .raw _ => .ok 0
  | _ + 1, .rawTuple _ => .ok 0
  | _ + 1, .prefixed ws => u32mul prof (asU32 ws.length) 32
  | n + 1, .prefixedArray ms => sumLensWith prof headLen (tailLenWithin prof beyond headLen n) ms 0
  | n + 1, .prefixedArrayWithLength ms => sumLensWith prof headLen (tailLenWithin prof beyond headLen n) ms 32
  | n + 1, .prefixedTuple ms => sumLensWith prof headLen (tailLenWithin prof beyond headLen n) ms 0

/-- encoder.rs:75-84 `Mediate::head` -/
def headWithin (beyond : ∀ α, Res α) : Nat → Mediate → (suffixOffset : Nat) → Res (List Word)
  | 0, _, _ => beyond _
  | n + 1, .rawTuple ms, _ => List.flatten <$> collectRes (fun m => headWithin beyond n m 0) ms
  | _ + 1, .raw ws, _ => .ok ws
  | _ + 1, _, off => .ok [padU32 off]

/-- encoder.rs:109-112 -/
def headsWith (prof : Profile) (tailLen : Mediate → Res Nat) (head : Mediate → Nat → Res (List Word)) :
    List Mediate → List Word → Nat → Res (List Word × Nat)
  | [], acc, offset => .ok (acc, offset)
  | m :: ms, acc, offset => do
      let h ← head m offset
      let t ← tailLen m
      let offset' ← u32add prof offset t
      headsWith prof tailLen head ms (acc ++ h) offset'

/-- encoder.rs:105-121 `encode_head_tail`, with room for `n` calls of each of `head_len`, `tail_len` and `head`; `tail` given -/
def headTailWith (prof : Profile) (beyond : ∀ α, Res α) (n : Nat) (tail : Mediate → Res (List Word)) (ms : List Mediate) :
    Res (List Word) := do
  let headsLen ← sumHeadsWith prof (headLenWithin prof beyond n) ms 0
  let (result, _) ← headsWith prof (tailLenWithin prof beyond (headLenWithin prof beyond n) n) (headWithin beyond n) ms [] headsLen
  let ts ← collectRes tail ms
  .ok (result ++ ts.flatten)

/-- encoder.rs:86-102 `Mediate::tail`: `k` for its own calls, `n` for those of the other functions -/
def tailWithin (prof : Profile) (beyond : ∀ α, Res α) (n : Nat) : Nat → Mediate → Res (List Word)
  | 0, _ => beyond _
  | _ + 1, .raw _ => .ok []
  | _ + 1, .rawTuple _ => .ok []
  | k + 1, .prefixedTuple ms => headTailWith prof beyond n (tailWithin prof beyond n k) ms
  | _ + 1, .prefixed ws => .ok ws
  | k + 1, .prefixedArray ms => headTailWith prof beyond n (tailWithin prof beyond n k) ms
  | k + 1, .prefixedArrayWithLength ms => do
      let headTail ← headTailWith prof beyond n (tailWithin prof beyond n k) ms
      .ok (padU32 (asU32 ms.length) :: headTail)

/-- encoder.rs:130-174 `encode_token`: `k` for its own calls, `n` for those of the other functions -/
def encodeTokenWithin (prof : Profile) (beyond : ∀ α, Res α) (n : Nat) : Nat → Token → Res Mediate
  | 0, _ => beyond _
  | k + 1, .array ts => do
      let ms ← collectRes (encodeTokenWithin prof beyond n k) ts
      .ok (.prefixedArrayWithLength ms)
  | k + 1, .fixedArray ts => do
      let ms ← collectRes (encodeTokenWithin prof beyond n k) ts
      let dynamic ← dynamicWithin beyond n (.fixedArray ts)
      if dynamic then .ok (.prefixedArray ms)
      else do
        let ws ← headTailWith prof beyond n (tailWithin prof beyond n n) ms
        .ok (.raw ws)
  | k + 1, .tuple ts => do
      let dynamic ← dynamicWithin beyond n (.tuple ts)
      let ms ← collectRes (encodeTokenWithin prof beyond n k) ts
      if dynamic then .ok (.prefixedTuple ms) else .ok (.rawTuple ms)
  | _ + 1, t => encodeToken prof t

/-- encoder.rs:124-128 `encode` with room for `n` calls of each of `encode_token`, `is_dynamic`, `head_len`, `tail_len`, `head`
and `tail` -/
def encodeWithin (prof : Profile) (beyond : ∀ α, Res α) (n : Nat) (tokens : List Token) : Res Bytes := do
  let ms ← collectRes (encodeTokenWithin prof beyond n n) tokens
  let ws ← headTailWith prof beyond n (tailWithin prof beyond n n) ms
  .ok (flattenWords ws)

/-- `iter().all(f)`, token.rs:114, 121 -/
def allCheckWith (rec : Token → ParamType → Res Bool) : List Token → ParamType → Res Bool
  | [], _ => .ok true
  | t :: ts, p => do
      let b ← rec t p
      if b then allCheckWith rec ts p else .ok false

/-- token.rs:128 -/
def tupleCheckWith (rec : Token → ParamType → Res Bool) : List Token → List ParamType → Res Bool
  | [], _ => .ok true
  | _ :: _, [] => .panic
  | t :: ts, p :: ps => do
      let b ← rec t p
      if b then tupleCheckWith rec ts ps else .ok false

/-- token.rs:93-134 `Token::type_check` -/
def typeCheckWithin (beyond : ∀ α, Res α) : Nat → Token → ParamType → Res Bool
  | 0, _, _ => beyond _
  | n + 1, .array ts, p => match p with
      | .array q => allCheckWith (typeCheckWithin beyond n) ts q
      | _ => .ok false
  | n + 1, .fixedArray ts, p => match p with
      | .fixedArray q size => if size == ts.length then allCheckWith (typeCheckWithin beyond n) ts q else .ok false
      | _ => .ok false
  | n + 1, .tuple ts, p => match p with
      | .tuple qs => tupleCheckWith (typeCheckWithin beyond n) ts qs
      | _ => .ok false
  | _ + 1, t, p => Token.typeCheck t p

/-- token.rs:66-86 `Display for Token` -/
def displayWithin (beyond : ∀ α, Res α) : Nat → Token → Res Str
  | 0, _ => beyond _
  | n + 1, .array ts => do
      let s ← collectRes (displayWithin beyond n) ts
      .ok (lit "[" ++ join (lit ",") s ++ lit "]")
  | n + 1, .fixedArray ts => do
      let s ← collectRes (displayWithin beyond n) ts
      .ok (lit "[" ++ join (lit ",") s ++ lit "]")
  | n + 1, .tuple ts => do
      let s ← collectRes (displayWithin beyond n) ts
      .ok (lit "(" ++ join (lit ",") s ++ lit ")")
  | _ + 1, t => .ok t.display

/-- writer.rs:23-51 `Writer::write_for_abi` -/
def writeWithin (beyond : ∀ α, Res α) (contents : Bool) : Nat → ParamType → Res Str
  | 0, _ => beyond _
  | n + 1, .fixedArray t len => do
      let s ← writeWithin beyond contents n t
      .ok (s ++ lit "[" ++ natText len ++ lit "]")
  | n + 1, .array t => do
      let s ← writeWithin beyond contents n t
      .ok (s ++ lit "[]")
  | n + 1, .tuple ts =>
      if contents then do
        let s ← collectRes (writeWithin beyond contents n) ts
        .ok (lit "(" ++ join (lit ",") s ++ lit ")")
      else .ok (lit "tuple")
  | _ + 1, t => .ok (writeForAbi contents t)

end Ethabi

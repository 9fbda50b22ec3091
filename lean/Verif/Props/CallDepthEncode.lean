import Verif.Proofs.CallDepthEncode
/-!
# C117: how many calls of the functions on values and types are under way at a time

`Model/CallDepthEncode.lean` has the functions with a limit on the calls under way; being equal to the function without limit
for every behaviour beyond the limit means that the call that exceeds it is not made.  `CallDepth.stop` makes it a panic.
-/
namespace Ethabi.Props
open Spec CallDepth

/-- **C117**, `encode`: not more calls of `encode_token`, `is_dynamic`, `head_len`, `tail_len`, `head` and of `tail` each than
the values are nested, -/
theorem C117_encode (prof : Profile) (beyond : ∀ α, Res α) (tokens : List Token) (n : Nat) (h : tokenDepthAll tokens ≤ n) :
    encodeWithin prof beyond n tokens = encode prof tokens :=
  encode_enough prof beyond n tokens h

/-- and as many of `encode_token`: with less room no value is encoded. -/
theorem C117_encode_exactly (prof : Profile) (tokens : List Token) (n : Nat) (h : n < tokenDepthAll tokens) :
    encodeWithin prof stop n tokens = .panic :=
  encode_stops prof n tokens h

/-- **C117**, `type_check`: not more calls than the value, and not more than the type, is nested, -/
theorem C117_type_check (beyond : ∀ α, Res α) (t : Token) (p : ParamType) (n : Nat) (h : tokenDepth t ≤ n ∨ storeys p ≤ n) :
    typeCheckWithin beyond n t p = Token.typeCheck t p :=
  typeCheck_enough beyond n t p (by omega)

/-- and as many as the value is nested if the value is of the type. -/
theorem C117_type_check_exactly (t : Token) (p : ParamType) (n : Nat) (hok : Token.typeCheck t p = .ok true)
    (h : n < tokenDepth t) : typeCheckWithin stop n t p = .panic :=
  typeCheck_found n t p hok h

/-- **C117**, `Display for Token`: exactly as many calls as the value is nested. -/
theorem C117_display (t : Token) (n : Nat) :
    (tokenDepth t ≤ n → ∀ beyond : ∀ α, Res α, displayWithin beyond n t = .ok t.display) ∧
    (n < tokenDepth t → displayWithin stop n t = .panic) :=
  ⟨fun h beyond => display_enough beyond n t h, display_stops n t⟩

/-- **C117**, `Writer::write` and `Display for ParamType`: exactly as many calls as the type is nested, -/
theorem C117_write (t : ParamType) (n : Nat) :
    (storeys t ≤ n → ∀ beyond : ∀ α, Res α, writeWithin beyond true n t = .ok (write t)) ∧
    (n < storeys t → writeWithin stop true n t = .panic) :=
  ⟨fun h beyond => write_enough beyond n t h, write_stops n t⟩

/-- and without the members of tuples exactly one call and one for each pair of brackets. -/
theorem C117_write_for_abi (t : ParamType) (n : Nat) :
    (brackets t ≤ n → ∀ beyond : ∀ α, Res α, writeWithin beyond false n t = .ok (writeForAbi false t)) ∧
    (n < brackets t → writeWithin stop false n t = .panic) :=
  ⟨fun h beyond => write_short_enough beyond n t h, write_short_stops n t⟩

/-- **C117**, a consequence: there is no number of calls that is enough for all values; a bool in `k` tuples is encoded in 32
bytes and takes `k + 1` calls. -/
theorem C117_no_bound (prof : Profile) (k : Nat) : encode prof [valueIn k] = .ok (word 1) ∧
    encodeWithin prof stop k [valueIn k] = .panic := by
  have hnest : ∀ k, tokenDepth (valueIn k) = k + 1 := by
    intro k
    induction k with
    | zero => rfl
    | succ k ih => simp [valueIn, tokenDepth, tokenDepthAll, ih]
  have hdyn : ∀ k, (valueIn k).isDynamic = false := by
    intro k
    induction k with
    | zero => rfl
    | succ k ih => simp [valueIn, Token.isDynamic, Token.anyDynamic, ih]
  have htok : ∀ k, ∃ m, encodeToken prof (valueIn k) = .ok m ∧ m.headLen prof = .ok 32 ∧ m.tailLen prof = .ok 0 ∧
      (∀ o, m.head o = [padBool true]) ∧ m.tail prof = .ok [] := by
    intro k
    induction k with
    | zero => exact ⟨.raw [padBool true], by simp [valueIn, encodeToken], by cases prof <;> decide +kernel, by simp [Mediate.tailLen],
        by simp [Mediate.head], by simp [Mediate.tail]⟩
    | succ k ih =>
      obtain ⟨m, e, hl, tl, hd, ht⟩ := ih
      refine ⟨.rawTuple [m], ?_, ?_, by simp [Mediate.tailLen], by simp [Mediate.head, Mediate.headsZero, hd],
        by simp [Mediate.tail]⟩
      · rw [valueIn, encodeToken, encodeTokens, e, encodeTokens]
        simp only [Token.anyDynamic, hdyn k, Bool.or_self]
        rfl
      · simp only [Mediate.headLen, Mediate.sumHeadLen, hl]
        cases prof <;> rfl
  obtain ⟨m, e, hl, tl, hd, ht⟩ := htok k
  refine ⟨?_, C117_encode_exactly prof _ k (by simp [tokenDepthAll, hnest])⟩
  unfold encode
  rw [encodeTokens, e, encodeTokens]
  show (encodeHeadTail prof [m] >>= fun ws => .ok (flattenWords ws)) = _
  unfold encodeHeadTail Mediate.assemble
  simp only [Mediate.sumHeadLen, hl, Mediate.tails, ht]
  have h32 : (Res.ok 32 >>= fun h => u32add prof 0 h >>= fun a => Res.ok a) = Res.ok 32 := by cases prof <;> rfl
  rw [h32]
  show ((Mediate.heads prof [m] [] 32 >>= _) >>= _) = _
  simp only [Mediate.heads, tl, hd]
  cases prof <;> decide +kernel

/-- the limit is not idle: an array of two tuples is nested 3 deep; three calls are enough and two are not -/
example : tokenDepthAll [.array [.tuple [.uint 5, .string (lit "ab")], .tuple [.uint 6, .string []]]] = 3 ∧
    encodeWithin .debug stop 3 [.array [.tuple [.uint 5, .string (lit "ab")], .tuple [.uint 6, .string []]]] =
      encode .debug [.array [.tuple [.uint 5, .string (lit "ab")], .tuple [.uint 6, .string []]]] ∧
    encodeWithin .debug stop 2 [.array [.tuple [.uint 5, .string (lit "ab")], .tuple [.uint 6, .string []]]] = .panic ∧
    encode .debug [.array [.tuple [.uint 5, .string (lit "ab")], .tuple [.uint 6, .string []]]] ≠ .panic := by decide +kernel

/-- an ill-typed value can need fewer: the first element decides -/
example : Token.typeCheck (.array [.bool true, .tuple [.bool true]]) (.array (.uint 8)) = .ok false ∧
    typeCheckWithin stop 2 (.array [.bool true, .tuple [.bool true]]) (.array (.uint 8)) = .ok false ∧
    Token.typeCheck (.array [.tuple [.bool true]]) (.array (.tuple [.bool])) = .ok true ∧
    typeCheckWithin stop 2 (.array [.tuple [.bool true]]) (.array (.tuple [.bool])) = .panic := by decide +kernel

example : displayWithin stop 2 (.array [.tuple []]) = .ok (lit "[()]") ∧ displayWithin stop 1 (.array [.tuple []]) = .panic ∧
    writeWithin stop true 3 (.array (.tuple [.bool, .array .string])) = .panic ∧
    writeWithin stop true 4 (.array (.tuple [.bool, .array .string])) = .ok (lit "(bool,string[])[]") ∧
    writeWithin stop false 2 (.array (.tuple [.bool, .array .string])) = .ok (lit "tuple[]") := by decide +kernel

end Ethabi.Props

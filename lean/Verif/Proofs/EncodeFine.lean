import Verif.Model.Encoder
import Verif.Proofs.DecodeFacts
/-! `encode` never returns an error, and never panics in release builds. -/
namespace Ethabi

/-- not an error; not a panic in release builds -/
def Fine {α : Type} (prof : Profile) (x : Res α) : Prop := (∀ e, x ≠ .err e) ∧ (prof = .release → x ≠ .panic)

theorem fine_ok {α : Type} (prof : Profile) (a : α) : Fine prof (Res.ok a) := ⟨by simp, by simp⟩

theorem fine_bind {α β : Type} {prof : Profile} {x : Res α} {f : α → Res β} (h1 : Fine prof x) (h2 : ∀ a, Fine prof (f a)) :
    Fine prof (x >>= f) := by
  cases x with
  | ok a => exact h2 a
  | err e => exact absurd rfl (h1.1 e)
  | panic => exact ⟨by simp, fun h => absurd rfl (h1.2 h)⟩

theorem fine_machine (prof : Profile) (bits n : Nat) : Fine prof (machine prof bits n) := by
  unfold machine
  split
  · exact fine_ok _ _
  · cases prof <;> exact ⟨by simp, by simp⟩

mutual
theorem fine_headLen (prof : Profile) : ∀ m : Mediate, Fine prof (m.headLen prof)
  | .raw ws => fine_machine _ _ _
  | .rawTuple ms => by rw [Mediate.headLen]; exact fine_sumHeadLen prof ms 0
  | .prefixed _ => fine_ok _ _
  | .prefixedArray _ => fine_ok _ _
  | .prefixedArrayWithLength _ => fine_ok _ _
  | .prefixedTuple _ => fine_ok _ _
theorem fine_sumHeadLen (prof : Profile) : ∀ (ms : List Mediate) (acc : Nat), Fine prof (Mediate.sumHeadLen prof ms acc)
  | [], acc => fine_ok _ _
  | m :: ms, acc => by
      rw [Mediate.sumHeadLen]
      refine fine_bind (fine_headLen prof m) fun h => ?_
      refine fine_bind (fine_machine _ _ _) fun acc' => ?_
      exact fine_sumHeadLen prof ms acc'
end

mutual
theorem fine_tailLen (prof : Profile) : ∀ m : Mediate, Fine prof (m.tailLen prof)
  | .raw _ => fine_ok _ _
  | .rawTuple _ => fine_ok _ _
  | .prefixed ws => fine_machine _ _ _
  | .prefixedArray ms => by rw [Mediate.tailLen]; exact fine_sumLen prof ms _
  | .prefixedArrayWithLength ms => by rw [Mediate.tailLen]; exact fine_sumLen prof ms _
  | .prefixedTuple ms => by rw [Mediate.tailLen]; exact fine_sumLen prof ms _
theorem fine_sumLen (prof : Profile) : ∀ (ms : List Mediate) (acc : Nat), Fine prof (Mediate.sumLen prof ms acc)
  | [], acc => fine_ok _ _
  | m :: ms, acc => by
      rw [Mediate.sumLen]
      refine fine_bind (fine_headLen prof m) fun h => ?_
      refine fine_bind (fine_machine _ _ _) fun acc1 => ?_
      refine fine_bind (fine_tailLen prof m) fun t => ?_
      refine fine_bind (fine_machine _ _ _) fun acc2 => ?_
      exact fine_sumLen prof ms acc2
end

theorem fine_heads (prof : Profile) : ∀ (ms : List Mediate) (acc : List Word) (off : Nat), Fine prof (Mediate.heads prof ms acc off)
  | [], acc, off => fine_ok _ _
  | m :: ms, acc, off => by
      rw [Mediate.heads]
      refine fine_bind (fine_tailLen prof m) fun t => ?_
      refine fine_bind (fine_machine _ _ _) fun off' => ?_
      exact fine_heads prof ms _ off'

theorem fine_assemble (prof : Profile) (ms : List Mediate) (ts : Res (List Word)) (h : Fine prof ts) :
    Fine prof (Mediate.assemble prof ms ts) := by
  unfold Mediate.assemble
  refine fine_bind (fine_sumHeadLen prof ms 0) fun hl => ?_
  refine fine_bind (fine_heads prof ms [] hl) fun r => ?_
  exact fine_bind h fun _ => fine_ok _ _

mutual
theorem fine_tail (prof : Profile) : ∀ m : Mediate, Fine prof (m.tail prof)
  | .raw _ => fine_ok _ _
  | .rawTuple _ => fine_ok _ _
  | .prefixed ws => fine_ok _ _
  | .prefixedArray ms => by rw [Mediate.tail]; exact fine_assemble prof ms _ (fine_tails prof ms)
  | .prefixedTuple ms => by rw [Mediate.tail]; exact fine_assemble prof ms _ (fine_tails prof ms)
  | .prefixedArrayWithLength ms => by
      rw [Mediate.tail]
      exact fine_bind (fine_assemble prof ms _ (fine_tails prof ms)) fun _ => fine_ok _ _
theorem fine_tails (prof : Profile) : ∀ ms : List Mediate, Fine prof (Mediate.tails prof ms)
  | [] => fine_ok _ _
  | m :: ms => by
      rw [Mediate.tails]
      refine fine_bind (fine_tail prof m) fun t => ?_
      exact fine_bind (fine_tails prof ms) fun _ => fine_ok _ _
end

theorem fine_encodeHeadTail (prof : Profile) (ms : List Mediate) : Fine prof (encodeHeadTail prof ms) :=
  fine_assemble prof ms _ (fine_tails prof ms)

mutual
theorem fine_encodeToken (prof : Profile) : ∀ t : Token, Fine prof (encodeToken prof t)
  | .address _ => fine_ok _ _
  | .bytes _ => fine_ok _ _
  | .string _ => fine_ok _ _
  | .fixedBytes _ => fine_ok _ _
  | .int _ => fine_ok _ _
  | .uint _ => fine_ok _ _
  | .bool _ => fine_ok _ _
  | .array ts => by
      rw [encodeToken]
      exact fine_bind (fine_encodeTokens prof ts) fun _ => fine_ok _ _
  | .fixedArray ts => by
      rw [encodeToken]
      refine fine_bind (fine_encodeTokens prof ts) fun ms => ?_
      split
      · exact fine_ok _ _
      · exact fine_bind (fine_encodeHeadTail prof ms) fun _ => fine_ok _ _
  | .tuple ts => by
      rw [encodeToken]
      refine fine_bind (fine_encodeTokens prof ts) fun ms => ?_
      split <;> exact fine_ok _ _
theorem fine_encodeTokens (prof : Profile) : ∀ ts : List Token, Fine prof (encodeTokens prof ts)
  | [] => fine_ok _ _
  | t :: ts => by
      rw [encodeTokens]
      refine fine_bind (fine_encodeToken prof t) fun _ => ?_
      exact fine_bind (fine_encodeTokens prof ts) fun _ => fine_ok _ _
end

theorem fine_encode (prof : Profile) (ts : List Token) : Fine prof (encode prof ts) := by
  unfold encode
  refine fine_bind (fine_encodeTokens prof ts) fun ms => ?_
  exact fine_bind (fine_encodeHeadTail prof ms) fun _ => fine_ok _ _

end Ethabi

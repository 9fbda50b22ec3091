import Verif.Proofs.DecoderCount
import Verif.Proofs.Utf8
import Verif.Model.EncoderCount
import Verif.Spec.EncodeWork
/-! # The work of `encode` -/
namespace Ethabi.EncoderCount
open Spec Counted ReaderCount DecoderCount

/-! ### the results are those of the encoder -/

mutual
theorem res_headLen (prof : Profile) : ∀ (m : Mediate), (m.headLenCount prof).res = m.headLen prof
  | .raw _ => rfl
  | .rawTuple ms => by
    simp only [Mediate.headLenCount, Mediate.headLen, res_bind, res_spend, Res.ok_bind, res_sumHeadLen prof ms]
  | .prefixed _ => rfl
  | .prefixedArray _ => rfl
  | .prefixedArrayWithLength _ => rfl
  | .prefixedTuple _ => rfl
theorem res_sumHeadLen (prof : Profile) : ∀ (ms : List Mediate) (acc : Nat),
    (Mediate.sumHeadLenCount prof ms acc).res = Mediate.sumHeadLen prof ms acc
  | [], _ => rfl
  | m :: ms, acc => by
    simp only [Mediate.sumHeadLenCount, Mediate.sumHeadLen, res_bind, res_free, res_headLen prof m, res_sumHeadLen prof ms]
end

mutual
theorem res_tailLen (prof : Profile) : ∀ (m : Mediate), (m.tailLenCount prof).res = m.tailLen prof
  | .raw _ => rfl
  | .rawTuple _ => rfl
  | .prefixed _ => rfl
  | .prefixedArray ms => by
    simp only [Mediate.tailLenCount, Mediate.tailLen, res_bind, res_spend, Res.ok_bind, res_sumLen prof ms]
  | .prefixedArrayWithLength ms => by
    simp only [Mediate.tailLenCount, Mediate.tailLen, res_bind, res_spend, Res.ok_bind, res_sumLen prof ms]
  | .prefixedTuple ms => by
    simp only [Mediate.tailLenCount, Mediate.tailLen, res_bind, res_spend, Res.ok_bind, res_sumLen prof ms]
theorem res_sumLen (prof : Profile) : ∀ (ms : List Mediate) (acc : Nat),
    (Mediate.sumLenCount prof ms acc).res = Mediate.sumLen prof ms acc
  | [], _ => rfl
  | m :: ms, acc => by
    simp only [Mediate.sumLenCount, Mediate.sumLen, res_bind, res_free, res_headLen prof m, res_tailLen prof m,
      res_sumLen prof ms]
end

theorem res_heads (prof : Profile) : ∀ (ms : List Mediate) (acc : List Word) (off : Nat),
    (Mediate.headsCount prof ms acc off).res = Mediate.heads prof ms acc off
  | [], _, _ => rfl
  | m :: ms, acc, off => by
    simp only [Mediate.headsCount, Mediate.heads, res_bind, res_free, res_spend, Res.ok_bind, res_tailLen, res_heads prof ms]

theorem res_assemble (prof : Profile) (ms : List Mediate) (tails : Counted (List Word)) :
    (Mediate.assembleCount prof ms tails).res = Mediate.assemble prof ms tails.res := by
  simp only [Mediate.assembleCount, Mediate.assemble, res_bind, res_free, res_spend, Res.ok_bind, res_sumHeadLen, res_heads]

mutual
theorem res_tail (prof : Profile) : ∀ (m : Mediate), (m.tailCount prof).res = m.tail prof
  | .raw _ => rfl
  | .rawTuple _ => rfl
  | .prefixed _ => rfl
  | .prefixedArray ms => by
    simp only [Mediate.tailCount, Mediate.tail, res_bind, res_spend, Res.ok_bind, res_assemble, res_tails prof ms]
  | .prefixedArrayWithLength ms => by
    simp only [Mediate.tailCount, Mediate.tail, res_bind, res_free, res_spend, Res.ok_bind, res_assemble, res_tails prof ms]
  | .prefixedTuple ms => by
    simp only [Mediate.tailCount, Mediate.tail, res_bind, res_spend, Res.ok_bind, res_assemble, res_tails prof ms]
theorem res_tails (prof : Profile) : ∀ (ms : List Mediate), (Mediate.tailsCount prof ms).res = Mediate.tails prof ms
  | [] => rfl
  | m :: ms => by
    simp only [Mediate.tailsCount, Mediate.tails, res_bind, res_free, res_spend, Res.ok_bind, res_tail prof m, res_tails prof ms]
end

theorem res_headTail (prof : Profile) (ms : List Mediate) : (encodeHeadTailCount prof ms).res = encodeHeadTail prof ms := by
  rw [encodeHeadTailCount, res_assemble, res_tails]; rfl

mutual
theorem res_token (prof : Profile) : ∀ (t : Token), (encodeTokenCount prof t).res = encodeToken prof t
  | .address _ => rfl
  | .bytes _ => rfl
  | .string _ => rfl
  | .fixedBytes _ => rfl
  | .int _ => rfl
  | .uint _ => rfl
  | .bool _ => rfl
  | .array ts => by
    simp only [encodeTokenCount, encodeToken, res_bind, res_free, res_spend, Res.ok_bind, res_tokens prof ts]
  | .fixedArray ts => by
    simp only [encodeTokenCount, encodeToken, res_bind, res_free, res_spend, Res.ok_bind, res_ite, res_headTail,
      res_tokens prof ts]
  | .tuple ts => by
    simp only [encodeTokenCount, encodeToken, res_bind, res_free, res_spend, Res.ok_bind, res_ite, res_tokens prof ts]
theorem res_tokens (prof : Profile) : ∀ (ts : List Token), (encodeTokensCount prof ts).res = encodeTokens prof ts
  | [] => rfl
  | t :: ts => by
    simp only [encodeTokensCount, encodeTokens, res_bind, res_free, res_token prof t, res_tokens prof ts]
end

theorem res_encode (prof : Profile) (ts : List Token) : (encodeCount prof ts).res = encode prof ts := by
  simp only [encodeCount, encode, res_bind, res_free, res_spend, Res.ok_bind, res_headTail, res_tokens]

/-! ### sizes of the intermediate form -/

mutual
/-- the size of an intermediate value -/
def mass : Mediate → Nat
  | .raw ws => 1 + ws.length
  | .prefixed ws => 1 + ws.length
  | .prefixedArray ms => 1 + massAll ms
  | .prefixedArrayWithLength ms => 2 + massAll ms
  | .rawTuple ms => 1 + massAll ms
  | .prefixedTuple ms => 1 + massAll ms
def massAll : List Mediate → Nat
  | [] => 0
  | m :: ms => mass m + massAll ms
end

mutual
/-- the sizes of an intermediate value and of all parts of it -/
def path : Mediate → Nat
  | .raw ws => 1 + ws.length
  | .prefixed ws => 1 + ws.length
  | .prefixedArray ms => 1 + massAll ms + pathAll ms
  | .prefixedArrayWithLength ms => 2 + massAll ms + pathAll ms
  | .rawTuple ms => 1 + massAll ms + pathAll ms
  | .prefixedTuple ms => 1 + massAll ms + pathAll ms
def pathAll : List Mediate → Nat
  | [] => 0
  | m :: ms => path m + pathAll ms
end

mutual
theorem head_words (off : Nat) : ∀ (m : Mediate), (m.head off).length ≤ mass m
  | .raw _ => by simp [Mediate.head, mass]
  | .prefixed _ => by simp [Mediate.head, mass]
  | .prefixedArray _ => by simp [Mediate.head, mass]
  | .prefixedArrayWithLength _ => by simp [Mediate.head, mass]; omega
  | .prefixedTuple _ => by simp [Mediate.head, mass]
  | .rawTuple ms => by
    have := headsZero_words ms
    rw [Mediate.head, mass]; omega
theorem headsZero_words : ∀ (ms : List Mediate), (Mediate.headsZero ms).length ≤ massAll ms
  | [] => Nat.le_refl _
  | m :: ms => by
    have := head_words 0 m
    have := headsZero_words ms
    rw [Mediate.headsZero, massAll, List.length_append]; omega
end

mutual
theorem headLen_work (prof : Profile) : ∀ (m : Mediate), (m.headLenCount prof).work ≤ mass m
  | .raw _ => by simp only [Mediate.headLenCount, spend_bind, work_free, mass]; omega
  | .prefixed _ => by simp only [Mediate.headLenCount, spend_bind, work_free, mass]; omega
  | .prefixedArray _ => by simp only [Mediate.headLenCount, spend_bind, work_free, mass]; omega
  | .prefixedArrayWithLength _ => by simp only [Mediate.headLenCount, spend_bind, work_free, mass]; omega
  | .prefixedTuple _ => by simp only [Mediate.headLenCount, spend_bind, work_free, mass]; omega
  | .rawTuple ms => by
    have := sumHeadLen_work prof ms 0
    simp only [Mediate.headLenCount, spend_bind, mass]; omega
theorem sumHeadLen_work (prof : Profile) : ∀ (ms : List Mediate) (acc : Nat),
    (Mediate.sumHeadLenCount prof ms acc).work ≤ massAll ms
  | [], _ => Nat.le_refl _
  | m :: ms, acc => by
    rw [Mediate.sumHeadLenCount, massAll]
    exact Nat.le_trans (work_bind_le (m := massAll ms) fun _ _ => free_bind_le fun _ _ => sumHeadLen_work prof ms _)
      (Nat.add_le_add_right (headLen_work prof m) _)
end

mutual
theorem lens_work (prof : Profile) : ∀ (m : Mediate), (m.headLenCount prof).work + (m.tailLenCount prof).work ≤ 2 * mass m
  | .raw _ => by simp only [Mediate.headLenCount, Mediate.tailLenCount, spend_bind, work_free, mass]; omega
  | .prefixed _ => by simp only [Mediate.headLenCount, Mediate.tailLenCount, spend_bind, work_free, mass]; omega
  | .rawTuple ms => by
    have := headLen_work prof (.rawTuple ms)
    simp only [mass] at this
    simp only [Mediate.tailLenCount, spend_bind, work_free, mass]
    omega
  | .prefixedArray ms => by
    have := sumLen_work prof ms 0
    simp only [Mediate.headLenCount, Mediate.tailLenCount, spend_bind, work_free, mass]
    omega
  | .prefixedArrayWithLength ms => by
    have := sumLen_work prof ms 32
    simp only [Mediate.headLenCount, Mediate.tailLenCount, spend_bind, work_free, mass]
    omega
  | .prefixedTuple ms => by
    have := sumLen_work prof ms 0
    simp only [Mediate.headLenCount, Mediate.tailLenCount, spend_bind, work_free, mass]
    omega
theorem sumLen_work (prof : Profile) : ∀ (ms : List Mediate) (acc : Nat),
    (Mediate.sumLenCount prof ms acc).work ≤ 2 * massAll ms
  | [], _ => Nat.zero_le _
  | m :: ms, acc => by
    have h := lens_work prof m
    rw [Mediate.sumLenCount, massAll]
    refine Nat.le_trans (work_bind_le (m := (m.tailLenCount prof).work + 2 * massAll ms) fun _ _ => free_bind_le fun _ _ => ?_)
      (by omega)
    exact work_bind_le (m := 2 * massAll ms) fun _ _ => free_bind_le fun _ _ => sumLen_work prof ms _
end

/-! ### how many words come out -/

/-- words of the head -/
def hw (m : Mediate) : Nat := (m.head 0).length
/-- words of the heads -/
def hwAll : List Mediate → Nat
  | [] => 0
  | m :: ms => hw m + hwAll ms

theorem head_hw (m : Mediate) (off : Nat) : (m.head off).length = hw m := by
  cases m <;> rfl

theorem headsZero_hw : ∀ ms : List Mediate, (Mediate.headsZero ms).length = hwAll ms
  | [] => rfl
  | m :: ms => by rw [Mediate.headsZero, hwAll, List.length_append, headsZero_hw ms]; rfl

theorem hw_le (m : Mediate) : hw m ≤ mass m := head_words 0 m

theorem hwAll_le : ∀ ms : List Mediate, hwAll ms ≤ massAll ms
  | [] => Nat.le_refl _
  | m :: ms => Nat.add_le_add (hw_le m) (hwAll_le ms)

theorem heads_words (prof : Profile) : ∀ (ms : List Mediate) (acc : List Word) (off : Nat) (r : List Word × Nat),
    (Mediate.headsCount prof ms acc off).res = .ok r → r.1.length = acc.length + hwAll ms
  | [], acc, off, r, h => by cases h; rfl
  | m :: ms, acc, off, r, h => by
    rw [Mediate.headsCount] at h
    obtain ⟨_, -, h, -⟩ := bind_ok h
    obtain ⟨_, -, h, -⟩ := bind_ok h
    obtain ⟨_, -, h, -⟩ := bind_ok h
    have h1 := heads_words prof ms _ _ r h
    rw [List.length_append, head_hw] at h1
    rw [hwAll]
    omega

theorem assemble_words {prof : Profile} {ms : List Mediate} {tails : Counted (List Word)} {ws : List Word}
    (h : (Mediate.assembleCount prof ms tails).res = .ok ws) :
    ∃ ts, tails.res = .ok ts ∧ ws.length = hwAll ms + ts.length := by
  rw [Mediate.assembleCount] at h
  obtain ⟨_, -, h, -⟩ := bind_ok h
  obtain ⟨n, -, h, -⟩ := bind_ok h
  obtain ⟨r, hr, h, -⟩ := bind_ok h
  obtain ⟨ts, ht, h, -⟩ := bind_ok h
  obtain ⟨_, -, h, -⟩ := bind_ok h
  cases h
  have := heads_words prof ms [] n r hr
  refine ⟨ts, ht, ?_⟩
  rw [List.length_append, this, List.length_nil]
  omega

mutual
theorem tail_words (prof : Profile) : ∀ (m : Mediate) (ts : List Word), (m.tailCount prof).res = .ok ts →
    hw m + ts.length ≤ mass m
  | .raw ws, _, h => by cases h; simp [hw, Mediate.head, mass]
  | .prefixed ws, _, h => by cases h; simp [hw, Mediate.head, mass]
  | .rawTuple ms, _, h => by
    cases h
    have := hw_le (.rawTuple ms)
    simpa using this
  | .prefixedArray ms, ts, h => by
    rw [Mediate.tailCount] at h
    obtain ⟨_, -, h, -⟩ := bind_ok h
    have := assembled_words prof ms ts h
    simp only [hw, Mediate.head, mass, List.length_cons, List.length_nil]; omega
  | .prefixedTuple ms, ts, h => by
    rw [Mediate.tailCount] at h
    obtain ⟨_, -, h, -⟩ := bind_ok h
    have := assembled_words prof ms ts h
    simp only [hw, Mediate.head, mass, List.length_cons, List.length_nil]; omega
  | .prefixedArrayWithLength ms, ts, h => by
    rw [Mediate.tailCount] at h
    obtain ⟨_, -, h, -⟩ := bind_ok h
    obtain ⟨ws, hws, h, -⟩ := bind_ok h
    obtain ⟨_, -, h, -⟩ := bind_ok h
    cases h
    have := assembled_words prof ms ws hws
    simp only [hw, Mediate.head, mass, List.length_cons, List.length_nil]; omega
theorem tails_words (prof : Profile) : ∀ (ms : List Mediate) (ts : List Word), (Mediate.tailsCount prof ms).res = .ok ts →
    hwAll ms + ts.length ≤ massAll ms
  | [], _, h => by cases h; exact Nat.le_refl _
  | m :: ms, ts, h => by
    rw [Mediate.tailsCount] at h
    obtain ⟨a, ha, h, -⟩ := bind_ok h
    obtain ⟨_, -, h, -⟩ := bind_ok h
    obtain ⟨b, hb, h, -⟩ := bind_ok h
    cases h
    have := tail_words prof m a ha
    have := tails_words prof ms b hb
    rw [hwAll, massAll, List.length_append]
    omega
theorem assembled_words (prof : Profile) : ∀ (ms : List Mediate) (ws : List Word),
    (Mediate.assembleCount prof ms (Mediate.tailsCount prof ms)).res = .ok ws → ws.length ≤ massAll ms
  | ms, ws, h => by
    obtain ⟨ts, ht, e⟩ := assemble_words h
    have := tails_words prof ms ts ht
    omega
end

/-! ### the work of the second half -/

/-- the work of the lengths of the heads -/
def hlAll (prof : Profile) : List Mediate → Nat
  | [] => 0
  | m :: ms => (m.headLenCount prof).work + hlAll prof ms
/-- the work of the lengths of the tails -/
def tlAll (prof : Profile) : List Mediate → Nat
  | [] => 0
  | m :: ms => (m.tailLenCount prof).work + tlAll prof ms
/-- the work of the tails -/
def tkAll (prof : Profile) : List Mediate → Nat
  | [] => 0
  | m :: ms => (m.tailCount prof).work + tkAll prof ms

theorem lensAll (prof : Profile) : ∀ ms : List Mediate, hlAll prof ms + tlAll prof ms ≤ 2 * massAll ms
  | [] => Nat.le_refl _
  | m :: ms => by
    have := lens_work prof m
    have := lensAll prof ms
    rw [hlAll, tlAll, massAll]; omega

theorem sumHeadLen_hl (prof : Profile) : ∀ (ms : List Mediate) (acc : Nat),
    (Mediate.sumHeadLenCount prof ms acc).work ≤ hlAll prof ms
  | [], _ => Nat.le_refl _
  | m :: ms, acc => by
    rw [Mediate.sumHeadLenCount, hlAll]
    exact work_bind_le (m := hlAll prof ms) fun _ _ => free_bind_le fun _ _ => sumHeadLen_hl prof ms _

theorem heads_work (prof : Profile) : ∀ (ms : List Mediate) (acc : List Word) (off : Nat),
    (Mediate.headsCount prof ms acc off).work ≤ Mediate.headsZeroWork ms + hwAll ms + tlAll prof ms
  | [], _, _ => Nat.le_refl _
  | m :: ms, acc, off => by
    rw [Mediate.headsCount, Mediate.headsZeroWork, hwAll, tlAll, spend_bind, head_hw]
    have := work_bind_le (x := m.tailLenCount prof)
      (f := fun t => free (u32add prof off t) >>= fun off' => Mediate.headsCount prof ms (acc ++ m.head off) off')
      (m := Mediate.headsZeroWork ms + hwAll ms + tlAll prof ms)
      fun _ _ => free_bind_le fun _ _ => heads_work prof ms _ _
    omega

theorem tails_work (prof : Profile) : ∀ (ms : List Mediate),
    (Mediate.tailsCount prof ms).work + hwAll ms ≤ tkAll prof ms + massAll ms
  | [] => Nat.le_refl _
  | m :: ms => by
    have h0 := hw_le m
    have h1 := tails_work prof ms
    have h2 := hwAll_le ms
    rw [Mediate.tailsCount, hwAll, tkAll, massAll]
    have : ((m.tailCount prof) >>= fun t => spend t.length >>= fun _ => Mediate.tailsCount prof ms >>= fun ts =>
        free (.ok (t ++ ts))).work ≤ (m.tailCount prof).work + ((mass m - hw m) + (Mediate.tailsCount prof ms).work) := by
      refine work_bind_le fun t ht => ?_
      have := tail_words prof m t ht
      rw [spend_bind]
      have : (Mediate.tailsCount prof ms >>= fun ts => free (.ok (t ++ ts))).work ≤ (Mediate.tailsCount prof ms).work + 0 :=
        work_bind_le fun _ _ => Nat.le_refl _
      omega
    omega

theorem assemble_work (prof : Profile) (ms : List Mediate) :
    (Mediate.assembleCount prof ms (Mediate.tailsCount prof ms)).work + hwAll ms ≤
      1 + 4 * massAll ms + (Mediate.headsZeroWork ms + tkAll prof ms) := by
  have h1 := lensAll prof ms
  have h2 := tails_work prof ms
  have h3 := hwAll_le ms
  have : (Mediate.assembleCount prof ms (Mediate.tailsCount prof ms)).work ≤ 1 + (hlAll prof ms +
      ((Mediate.headsZeroWork ms + hwAll ms + tlAll prof ms) + ((Mediate.tailsCount prof ms).work + (massAll ms - hwAll ms)))) := by
    rw [Mediate.assembleCount, spend_bind]
    refine Nat.add_le_add_left (Nat.le_trans (work_bind_le fun n _ => ?_) (Nat.add_le_add_right (sumHeadLen_hl prof ms 0) _)) _
    refine Nat.le_trans (work_bind_le fun r _ => ?_) (Nat.add_le_add_right (heads_work prof ms [] n) _)
    refine work_bind_le fun ts ht => ?_
    have := tails_words prof ms ts ht
    rw [spend_bind, work_free]
    omega
  omega

mutual
theorem part_work (prof : Profile) : ∀ (m : Mediate), m.headWork + (m.tailCount prof).work ≤ 5 * path m
  | .raw ws => by simp only [Mediate.headWork, Mediate.tailCount, spend_bind, work_free, path]; omega
  | .prefixed ws => by simp only [Mediate.headWork, Mediate.tailCount, spend_bind, work_free, path]; omega
  | .rawTuple ms => by
    have h := parts_work prof ms
    have := hwAll_le ms
    simp only [Mediate.headWork, Mediate.tailCount, spend_bind, work_free, path, headsZero_hw]; omega
  | .prefixedArray ms => by
    have h := parts_work prof ms
    have := assemble_work prof ms
    simp only [Mediate.headWork, Mediate.tailCount, spend_bind, path]; omega
  | .prefixedTuple ms => by
    have h := parts_work prof ms
    have := assemble_work prof ms
    simp only [Mediate.headWork, Mediate.tailCount, spend_bind, path]; omega
  | .prefixedArrayWithLength ms => by
    have h := parts_work prof ms
    have h1 := assemble_work prof ms
    have h2 : (Mediate.assembleCount prof ms (Mediate.tailsCount prof ms) >>= fun headTail => spend headTail.length >>= fun _ =>
        free (.ok (padU32 (asU32 ms.length) :: headTail))).work ≤
        (Mediate.assembleCount prof ms (Mediate.tailsCount prof ms)).work + massAll ms := by
      refine work_bind_le fun ws hws => ?_
      have := assembled_words prof ms ws hws
      rw [spend_bind, work_free]
      omega
    simp only [Mediate.headWork, Mediate.tailCount, spend_bind, path] at h2 ⊢
    omega
theorem parts_work (prof : Profile) : ∀ (ms : List Mediate), Mediate.headsZeroWork ms + tkAll prof ms ≤ 5 * pathAll ms
  | [] => Nat.le_refl _
  | m :: ms => by
    have := part_work prof m
    have := parts_work prof ms
    rw [Mediate.headsZeroWork, tkAll, pathAll]; omega
end

theorem headTail_work (prof : Profile) (ms : List Mediate) :
    (encodeHeadTailCount prof ms).work ≤ 1 + 4 * massAll ms + 5 * pathAll ms := by
  have := assemble_work prof ms
  have := parts_work prof ms
  rw [encodeHeadTailCount]
  omega

/-! ### the work of the first half -/

mutual
/-- the sizes of a value and of all parts of it -/
def weight : Token → Nat
  | .address _ => 2
  | .int _ => 2
  | .uint _ => 2
  | .bool _ => 2
  | .fixedBytes b => 1 + wordsFor b.length
  | .bytes b => 2 + wordsFor b.length
  | .string s => 2 + wordsFor (s.flatMap String.utf8EncodeChar).length
  | .array ts => 2 + bulkAll ts + weightAll ts
  | .fixedArray ts => 1 + bulkAll ts + weightAll ts
  | .tuple ts => 1 + bulkAll ts + weightAll ts
def weightAll : List Token → Nat
  | [] => 0
  | t :: ts => weight t + weightAll ts
end

mutual
theorem weight_le : ∀ t : Token, weight t ≤ (depthOf t + 1) * bulk t
  | .address _ => by simp [weight, depthOf, bulk]
  | .int _ => by simp [weight, depthOf, bulk]
  | .uint _ => by simp [weight, depthOf, bulk]
  | .bool _ => by simp [weight, depthOf, bulk]
  | .fixedBytes _ => by simp [weight, depthOf, bulk]
  | .bytes _ => by simp [weight, depthOf, bulk]
  | .string _ => by simp [weight, depthOf, bulk]
  | .array ts => by
    have h := weightAll_le ts (depthAll ts) (Nat.le_refl _)
    rw [weight, depthOf, bulk, Nat.add_comm 1, Nat.add_mul (depthAll ts + 1) 1, Nat.one_mul]
    have := Nat.mul_le_mul_left (depthAll ts + 1) (Nat.le_add_left (bulkAll ts) 2)
    omega
  | .fixedArray ts => by
    have h := weightAll_le ts (depthAll ts) (Nat.le_refl _)
    rw [weight, depthOf, bulk, Nat.add_comm 1 (depthAll ts), Nat.add_mul (depthAll ts + 1) 1, Nat.one_mul]
    have := Nat.mul_le_mul_left (depthAll ts + 1) (Nat.le_add_left (bulkAll ts) 1)
    omega
  | .tuple ts => by
    have h := weightAll_le ts (depthAll ts) (Nat.le_refl _)
    rw [weight, depthOf, bulk, Nat.add_comm 1 (depthAll ts), Nat.add_mul (depthAll ts + 1) 1, Nat.one_mul]
    have := Nat.mul_le_mul_left (depthAll ts + 1) (Nat.le_add_left (bulkAll ts) 1)
    omega
theorem weightAll_le : ∀ (ts : List Token) (d : Nat), depthAll ts ≤ d → weightAll ts ≤ (d + 1) * bulkAll ts
  | [], _, _ => Nat.zero_le _
  | t :: ts, d, h => by
    rw [depthAll] at h
    have h1 := weight_le t
    have h2 := weightAll_le ts d (by omega)
    have h3 : (depthOf t + 1) * bulk t ≤ (d + 1) * bulk t := Nat.mul_le_mul_right _ (by omega)
    rw [weightAll, bulkAll, Nat.mul_add]
    omega
end

mutual
theorem dynamic_work : ∀ t : Token, tokenDynamicWork t ≤ bulk t
  | .address _ => by simp [tokenDynamicWork, bulk]
  | .int _ => by simp [tokenDynamicWork, bulk]
  | .uint _ => by simp [tokenDynamicWork, bulk]
  | .bool _ => by simp [tokenDynamicWork, bulk]
  | .fixedBytes _ => by simp [tokenDynamicWork, bulk]
  | .bytes _ => by simp only [tokenDynamicWork, bulk]; omega
  | .string _ => by simp only [tokenDynamicWork, bulk]; omega
  | .array ts => by simp only [tokenDynamicWork, bulk]; omega
  | .fixedArray ts => by have := anyDynamic_work ts; simp only [tokenDynamicWork, bulk]; omega
  | .tuple ts => by have := anyDynamic_work ts; simp only [tokenDynamicWork, bulk]; omega
theorem anyDynamic_work : ∀ ts : List Token, anyTokenDynamicWork ts ≤ bulkAll ts
  | [] => Nat.le_refl _
  | t :: ts => by
    have := dynamic_work t
    have := anyDynamic_work ts
    rw [anyTokenDynamicWork, bulkAll]
    split <;> omega
end

/-- what is shown of the work on a value: what came out weighs no more than the value, and was paid for -/
structure Paid (b w : Nat) (x : Counted Mediate) : Prop where
  all : x.work ≤ 10 * w
  mass : ∀ m, x.res = .ok m → mass m ≤ b
  path : ∀ m, x.res = .ok m → x.work + 5 * path m ≤ 10 * w

/-- the same of the work on several values -/
structure PaidAll (b w : Nat) (x : Counted (List Mediate)) : Prop where
  all : x.work ≤ 10 * w
  mass : ∀ m, x.res = .ok m → massAll m ≤ b
  path : ∀ m, x.res = .ok m → x.work + 5 * pathAll m ≤ 10 * w

theorem paid_leaf {b w n : Nat} {m : Mediate} (h1 : mass m ≤ b) (h2 : n + 5 * path m ≤ 10 * w) :
    Paid b w (spend n >>= fun _ => free (.ok m)) := by
  refine ⟨?_, ?_, ?_⟩
  · rw [spend_bind, work_free]; omega
  · intro m' e; cases e; exact h1
  · intro m' e; cases e; rw [spend_bind, work_free]; omega

theorem words_padFixed (b : Bytes) : (padFixedBytes b).length = wordsFor b.length := by
  simp [padFixedBytes, wordsFor]

theorem words_pad (b : Bytes) : (padBytes b).length = 1 + wordsFor b.length := by
  rw [padBytes, List.length_cons, words_padFixed, Nat.add_comm]

theorem paid_tuple {b w n c : Nat} {x : Counted (List Mediate)} (hx : PaidAll b w x) (hc : c ≤ 2)
    (k : List Mediate → Mediate) (hm : ∀ ms, mass (k ms) = c + massAll ms) (hp : ∀ ms, path (k ms) = c + massAll ms + pathAll ms)
    (h1 : 1 ≤ c) (h : n ≤ 2 + b) : Paid (c + b) (c + b + w) (spend n >>= fun _ => x >>= fun ms => free (.ok (k ms))) := by
  have e : ∀ m, (spend n >>= fun _ => x >>= fun ms => free (.ok (k ms))).res = .ok m → ∃ ms, x.res = .ok ms ∧ m = k ms ∧
      (spend n >>= fun _ => x >>= fun ms => free (.ok (k ms))).work = n + x.work := by
    intro m hm
    obtain ⟨_, -, h, -⟩ := bind_ok hm
    obtain ⟨ms, hms, h, hw⟩ := bind_ok h
    cases h
    exact ⟨ms, hms, rfl, by rw [spend_bind, hw, work_free]; rfl⟩
  refine ⟨?_, ?_, ?_⟩
  · have h2 : (x >>= fun ms => free (.ok (k ms))).work ≤ x.work + 0 := work_bind_le fun _ _ => Nat.le_refl _
    have := hx.all
    rw [spend_bind]
    omega
  · intro m h
    obtain ⟨ms, hms, rfl, -⟩ := e m h
    have := hx.mass ms hms
    rw [hm]; omega
  · intro m h
    obtain ⟨ms, hms, rfl, hw⟩ := e m h
    have := hx.mass ms hms
    have := hx.path ms hms
    rw [hp, hw]; omega

/-- the work of two steps, with the first result in hand -/
theorem bind_cases {α β : Type} {x : Counted α} {f : α → Counted β} {m : Nat}
    (h : ∀ a, x.res = .ok a → x.work + (f a).work ≤ m) (h0 : x.work ≤ m) : (x >>= f).work ≤ m := by
  change (Counted.bind x f).work ≤ _
  unfold Counted.bind
  cases hr : x.res with
  | ok a => exact h a hr
  | err e => exact h0
  | panic => exact h0

/-- a step taken later -/
theorem moved {b w i j : Nat} {x : Counted (List Mediate)} {k : List Mediate → Mediate}
    (h : Paid b w (spend (i + j) >>= fun _ => x >>= fun ms => free (.ok (k ms)))) :
    Paid b w (spend i >>= fun _ => x >>= fun ms => spend j >>= fun _ => free (.ok (k ms))) := by
  have e1 : (spend i >>= fun _ => x >>= fun ms => spend j >>= fun _ => free (.ok (k ms))).res =
      (spend (i + j) >>= fun _ => x >>= fun ms => free (.ok (k ms))).res := by
    simp only [res_bind, res_free, res_spend, Res.ok_bind]
  have e2 : (spend i >>= fun _ => x >>= fun ms => spend j >>= fun _ => free (.ok (k ms))).work ≤
      (spend (i + j) >>= fun _ => x >>= fun ms => free (.ok (k ms))).work := by
    rw [spend_bind, spend_bind]
    have : (x >>= fun ms => spend j >>= fun _ => free (.ok (k ms))).work ≤ j + (x >>= fun ms => free (.ok (k ms))).work := by
      change (Counted.bind x _).work ≤ _ + (Counted.bind x _).work
      unfold Counted.bind
      cases x.res with
      | ok a => change x.work + (j + 0) ≤ j + (x.work + 0); omega
      | err e => exact Nat.le_add_left _ _
      | panic => exact Nat.le_add_left _ _
    omega
  refine ⟨Nat.le_trans e2 h.all, fun m hm => h.mass m (e1 ▸ hm), fun m hm => ?_⟩
  have := h.path m (e1 ▸ hm)
  omega

theorem paid_cons {b w b' w' : Nat} {x : Counted Mediate} {y : Counted (List Mediate)} (hx : Paid b w x) (hy : PaidAll b' w' y) :
    PaidAll (b + b') (w + w') (x >>= fun m => y >>= fun ms => free (.ok (m :: ms))) := by
  have hx0 := hx.all
  have hy0 := hy.all
  refine ⟨?_, ?_, ?_⟩
  · have : (x >>= fun m => y >>= fun ms => free (.ok (m :: ms))).work ≤ x.work + (y.work + 0) :=
      work_bind_le fun _ _ => work_bind_le fun _ _ => Nat.le_refl _
    omega
  · intro l h
    obtain ⟨m, hm, h, -⟩ := bind_ok h
    obtain ⟨ms, hms, h, -⟩ := bind_ok h
    cases h
    exact Nat.add_le_add (hx.mass m hm) (hy.mass ms hms)
  · intro l h
    obtain ⟨m, hm, h, hw⟩ := bind_ok h
    obtain ⟨ms, hms, h, hw'⟩ := bind_ok h
    cases h
    have := hx.path m hm
    have := hy.path ms hms
    rw [hw, hw', pathAll, work_free]
    omega

theorem paid_static {b w n : Nat} {prof : Profile} {x : Counted (List Mediate)} (hx : PaidAll b w x) (h : n ≤ 1 + b) :
    Paid (1 + b) (1 + b + w) (spend 1 >>= fun _ => x >>= fun ms => spend n >>= fun _ =>
      encodeHeadTailCount prof ms >>= fun ws => free (.ok (.raw ws))) := by
  have hw : ∀ ms, (spend n >>= fun _ => encodeHeadTailCount prof ms >>= fun ws => free (.ok (Mediate.raw ws))).work ≤
      n + (encodeHeadTailCount prof ms).work := by
    intro ms
    have h2 : (encodeHeadTailCount prof ms >>= fun ws => free (.ok (Mediate.raw ws))).work ≤
        (encodeHeadTailCount prof ms).work + 0 := work_bind_le fun _ _ => Nat.le_refl _
    rw [spend_bind]
    omega
  have e : ∀ m, (spend 1 >>= fun _ => x >>= fun ms => spend n >>= fun _ =>
      encodeHeadTailCount prof ms >>= fun ws => free (.ok (Mediate.raw ws))).res = .ok m →
      ∃ ms ws, x.res = .ok ms ∧ m = .raw ws ∧ ws.length ≤ massAll ms ∧ (spend 1 >>= fun _ => x >>= fun ms => spend n >>= fun _ =>
      encodeHeadTailCount prof ms >>= fun ws => free (.ok (Mediate.raw ws))).work ≤
        1 + x.work + n + (1 + 4 * massAll ms + 5 * pathAll ms) := by
    intro m hm
    obtain ⟨_, -, h, -⟩ := bind_ok hm
    obtain ⟨ms, hms, h, hwk⟩ := bind_ok h
    obtain ⟨_, -, h, -⟩ := bind_ok h
    obtain ⟨ws, hws, h, -⟩ := bind_ok h
    cases h
    refine ⟨ms, ws, hms, rfl, assembled_words prof ms ws hws, ?_⟩
    have := hw ms
    have := headTail_work prof ms
    rw [spend_bind, hwk]
    omega
  refine ⟨?_, ?_, ?_⟩
  · have h0 := hx.all
    have h2 : (x >>= fun ms => spend n >>= fun _ => encodeHeadTailCount prof ms >>= fun ws => free (.ok (Mediate.raw ws))).work ≤
        10 * w + (n + 1 + 4 * b) := by
      refine bind_cases (fun ms hr => ?_) (by omega)
      have h1 := hw ms
      have h2 := headTail_work prof ms
      have h3 := hx.mass ms hr
      have h4 := hx.path ms hr
      omega
    rw [spend_bind]
    omega
  · intro m h
    obtain ⟨ms, ws, hms, rfl, hl, -⟩ := e m h
    have := hx.mass ms hms
    rw [EncoderCount.mass]; omega
  · intro m h
    obtain ⟨ms, ws, hms, rfl, hl, hwk⟩ := e m h
    have := hx.mass ms hms
    have := hx.path ms hms
    rw [EncoderCount.path]; omega

mutual
theorem paid_token (prof : Profile) : ∀ t : Token, Paid (bulk t) (weight t) (encodeTokenCount prof t)
  | .address _ => paid_leaf (by simp [mass, bulk]) (by simp [path, weight])
  | .int _ => paid_leaf (by simp [mass, bulk]) (by simp [path, weight])
  | .uint _ => paid_leaf (by simp [mass, bulk]) (by simp [path, weight])
  | .bool _ => paid_leaf (by simp [mass, bulk]) (by simp [path, weight])
  | .fixedBytes b => paid_leaf (by rw [mass, bulk, words_padFixed]) (by rw [path, weight, words_padFixed]; omega)
  | .bytes b => paid_leaf (by rw [mass, bulk, words_pad]; omega) (by rw [path, weight, words_pad]; omega)
  | .string s => by
    have e : utf8 s = s.flatMap String.utf8EncodeChar := by rw [utf8]; congr 1; funext c; exact utf8Char_eq_core c
    exact paid_leaf (by rw [mass, bulk, words_pad, e]; omega) (by rw [path, weight, words_pad, e]; omega)
  | .array ts => by
    rw [encodeTokenCount, bulk, weight]
    exact paid_tuple (c := 2) (paid_tokens prof ts) (by omega) .prefixedArrayWithLength (fun _ => by rw [mass]) (fun _ => by rw [path])
      (by omega) (by omega)
  | .fixedArray ts => by
    have hd : tokenDynamicWork (.fixedArray ts) ≤ 1 + bulkAll ts := dynamic_work (.fixedArray ts)
    rw [encodeTokenCount, bulk, weight]
    cases Token.anyDynamic ts with
    | false => exact paid_static (paid_tokens prof ts) hd
    | true =>
      have h := paid_tuple (c := 1) (paid_tokens prof ts) (by omega) .prefixedArray (fun _ => by rw [mass]) (fun _ => by rw [path])
        (Nat.le_refl 1) (n := 1 + tokenDynamicWork (.fixedArray ts)) (by omega)
      exact moved h
  | .tuple ts => by
    have hd : tokenDynamicWork (.tuple ts) ≤ 1 + bulkAll ts := dynamic_work (.tuple ts)
    rw [encodeTokenCount, bulk, weight]
    cases Token.anyDynamic ts with
    | false =>
      exact paid_tuple (c := 1) (paid_tokens prof ts) (by omega) .rawTuple (fun _ => by rw [mass]) (fun _ => by rw [path])
        (Nat.le_refl 1) (by omega)
    | true =>
      exact paid_tuple (c := 1) (paid_tokens prof ts) (by omega) .prefixedTuple (fun _ => by rw [mass]) (fun _ => by rw [path])
        (Nat.le_refl 1) (by omega)
theorem paid_tokens (prof : Profile) : ∀ ts : List Token, PaidAll (bulkAll ts) (weightAll ts) (encodeTokensCount prof ts)
  | [] => by
    refine ⟨Nat.zero_le _, ?_, ?_⟩
    · intro m h; cases h; exact Nat.le_refl _
    · intro m h; cases h; exact Nat.le_refl _
  | t :: ts => by
    rw [encodeTokensCount, bulkAll, weightAll]
    exact paid_cons (paid_token prof t) (paid_tokens prof ts)
end

/-- the work of `encode` -/
theorem encode_work (prof : Profile) (ts : List Token) :
    (encodeCount prof ts).work ≤ 2 + 5 * bulkAll ts + 10 * weightAll ts := by
  have h := paid_tokens prof ts
  have h0 := h.all
  rw [encodeCount, spend_bind]
  have key : ∀ ms, (encodeTokensCount prof ts).res = .ok ms → (encodeTokensCount prof ts).work +
      (encodeHeadTailCount prof ms >>= fun ws => spend ws.length >>= fun _ => free (.ok (flattenWords ws))).work ≤
      1 + 5 * bulkAll ts + 10 * weightAll ts := by
    intro ms hms
    have h1 := h.mass ms hms
    have h2 := h.path ms hms
    have h3 := headTail_work prof ms
    have h4 : (encodeHeadTailCount prof ms >>= fun ws => spend ws.length >>= fun _ => free (.ok (flattenWords ws))).work ≤
        (encodeHeadTailCount prof ms).work + massAll ms := by
      refine work_bind_le fun ws hws => ?_
      have := assembled_words prof ms ws hws
      rw [spend_bind, work_free]; omega
    omega
  have := bind_cases key (by omega)
  omega

/-! ### how much work there is at least -/

mutual
theorem token_least (prof : Profile) : ∀ (t : Token) (m : Mediate), (encodeTokenCount prof t).res = .ok m →
    bulk t ≤ 2 * (encodeTokenCount prof t).work
  | .address _, _, _ => by simp only [encodeTokenCount, bulk, spend_bind]; omega
  | .int _, _, _ => by simp only [encodeTokenCount, bulk, spend_bind]; omega
  | .uint _, _, _ => by simp only [encodeTokenCount, bulk, spend_bind]; omega
  | .bool _, _, _ => by simp only [encodeTokenCount, bulk, spend_bind]; omega
  | .fixedBytes _, _, _ => by simp only [encodeTokenCount, bulk, spend_bind, words_padFixed]; omega
  | .bytes _, _, _ => by simp only [encodeTokenCount, bulk, spend_bind, words_pad]; omega
  | .string s, _, _ => by
    have e : utf8 s = s.flatMap String.utf8EncodeChar := by rw [utf8]; congr 1; funext c; exact utf8Char_eq_core c
    simp only [encodeTokenCount, bulk, spend_bind, words_pad, e]; omega
  | .array ts, _, h => by
    rw [encodeTokenCount] at h
    obtain ⟨_, -, h, -⟩ := bind_ok h
    obtain ⟨ms, hms, h, hw⟩ := bind_ok h
    have := tokens_least prof ts ms hms
    rw [encodeTokenCount, bulk, spend_bind, hw]
    omega
  | .fixedArray ts, _, h => by
    rw [encodeTokenCount] at h
    obtain ⟨_, -, h, -⟩ := bind_ok h
    obtain ⟨ms, hms, h, hw⟩ := bind_ok h
    have := tokens_least prof ts ms hms
    rw [encodeTokenCount, bulk, spend_bind, hw]
    omega
  | .tuple ts, _, h => by
    rw [encodeTokenCount] at h
    obtain ⟨_, -, h, -⟩ := bind_ok h
    obtain ⟨ms, hms, h, hw⟩ := bind_ok h
    have := tokens_least prof ts ms hms
    rw [encodeTokenCount, bulk, spend_bind, hw]
    omega
theorem tokens_least (prof : Profile) : ∀ (ts : List Token) (ms : List Mediate), (encodeTokensCount prof ts).res = .ok ms →
    bulkAll ts ≤ 2 * (encodeTokensCount prof ts).work
  | [], _, _ => Nat.le_refl _
  | t :: ts, _, h => by
    rw [encodeTokensCount] at h
    obtain ⟨m, hm, h, hw⟩ := bind_ok h
    obtain ⟨ms, hms, h, hw'⟩ := bind_ok h
    have := token_least prof t m hm
    have := tokens_least prof ts ms hms
    rw [encodeTokensCount, bulkAll, hw, hw']
    omega
end

theorem length_flat : ∀ ws : List Word, (flattenWords ws).length = 32 * ws.length
  | [] => rfl
  | w :: ws => by
    have : (flattenWords (w :: ws)) = w.1 ++ flattenWords ws := rfl
    rw [this, List.length_append, length_flat ws, w.2, List.length_cons]
    omega

/-- a returned result: what was spent on it -/
theorem encode_least (prof : Profile) (ts : List Token) (bs : Bytes) (h : (encodeCount prof ts).res = .ok bs) :
    2 * bs.length + 32 * bulkAll ts ≤ 64 * (encodeCount prof ts).work := by
  rw [encodeCount] at h
  obtain ⟨_, -, h, -⟩ := bind_ok h
  obtain ⟨ms, hms, h, hw⟩ := bind_ok h
  obtain ⟨ws, hws, h, hw'⟩ := bind_ok h
  obtain ⟨_, -, h, -⟩ := bind_ok h
  cases h
  have := tokens_least prof ts ms hms
  rw [encodeCount, spend_bind, hw, hw', spend_bind, work_free, length_flat]
  omega

/-! ### arrays within arrays -/

/-- what `nestedArrays` becomes -/
def nestedMediate : Nat → Mediate
  | 0 => .prefixedArrayWithLength []
  | k + 1 => .prefixedArrayWithLength [nestedMediate k]

theorem nested_token (prof : Profile) : ∀ k, (encodeTokenCount prof (nestedArrays k)).res = .ok (nestedMediate k)
  | 0 => rfl
  | k + 1 => by
    simp only [nestedArrays, nestedMediate, encodeTokenCount, encodeTokensCount, res_bind, res_spend, res_free, Res.ok_bind,
      nested_token prof k]

theorem nested_hw : ∀ k, hw (nestedMediate k) = 1
  | 0 => rfl
  | _ + 1 => rfl

/-- the tail of `k` arrays, one inside the other -/
theorem nested_tail (prof : Profile) : ∀ (k : Nat) (ts : List Word), ((nestedMediate k).tailCount prof).res = .ok ts →
    ts.length = 2 * k + 1 ∧ k * k ≤ ((nestedMediate k).tailCount prof).work
  | 0, ts, h => by
    refine ⟨?_, Nat.zero_le _⟩
    cases h; rfl
  | k + 1, ts, h => by
    rw [nestedMediate, Mediate.tailCount] at h
    obtain ⟨_, -, h, -⟩ := bind_ok h
    obtain ⟨ws, hws, h, hw1⟩ := bind_ok h
    obtain ⟨_, -, h, -⟩ := bind_ok h
    cases h
    rw [Mediate.assembleCount] at hws
    obtain ⟨_, -, hws, -⟩ := bind_ok hws
    obtain ⟨n, -, hws, hw2⟩ := bind_ok hws
    obtain ⟨r, hr, hws, hw3⟩ := bind_ok hws
    obtain ⟨tl, htl, hws, hw4⟩ := bind_ok hws
    cases hws
    have hr' := heads_words prof _ _ _ r hr
    have htl' := htl
    rw [Mediate.tailsCount] at htl'
    obtain ⟨a, ha, htl', hw5⟩ := bind_ok htl'
    cases htl'
    obtain ⟨h1, h2⟩ := nested_tail prof k a ha
    have e : (k + 1) * (k + 1) = k * k + (2 * k + 1) := by
      rw [Nat.add_mul, Nat.mul_add, Nat.one_mul, Nat.mul_one]; omega
    simp only [hwAll, nested_hw, List.length_nil] at hr'
    refine ⟨?_, ?_⟩
    · simp only [List.length_cons, List.length_append, List.append_nil, h1, hr']; omega
    · rw [nestedMediate, Mediate.tailCount, spend_bind, hw1, Mediate.assembleCount, spend_bind, hw2, hw3, hw4,
        Mediate.tailsCount, hw5, spend_bind, h1, e]
      omega

theorem nested_work (prof : Profile) (k : Nat) (bs : Bytes) (h : (encodeCount prof [nestedArrays k]).res = .ok bs) :
    bs.length = 64 * (k + 1) ∧ (k + 1) * (k + 1) ≤ (encodeCount prof [nestedArrays k]).work := by
  rw [encodeCount] at h
  obtain ⟨_, -, h, -⟩ := bind_ok h
  obtain ⟨ms, hms, h, hw⟩ := bind_ok h
  obtain ⟨ws, hws, h, hw'⟩ := bind_ok h
  obtain ⟨_, -, h, -⟩ := bind_ok h
  cases h
  rw [encodeTokensCount] at hms
  obtain ⟨m, hm, hms, -⟩ := bind_ok hms
  rw [nested_token] at hm
  cases hm
  cases hms
  rw [encodeHeadTailCount, Mediate.assembleCount] at hws
  obtain ⟨_, -, hws, -⟩ := bind_ok hws
  obtain ⟨n, -, hws, hw2⟩ := bind_ok hws
  obtain ⟨r, hr, hws, hw3⟩ := bind_ok hws
  obtain ⟨tl, htl, hws, hw4⟩ := bind_ok hws
  cases hws
  have hr' := heads_words prof _ _ _ r hr
  have htl' := htl
  rw [Mediate.tailsCount] at htl'
  obtain ⟨a, ha, htl', hw5⟩ := bind_ok htl'
  cases htl'
  obtain ⟨h1, h2⟩ := nested_tail prof k a ha
  simp only [hwAll, nested_hw, List.length_nil] at hr'
  have e : (k + 1) * (k + 1) = k * k + (2 * k + 1) := by
    rw [Nat.add_mul, Nat.mul_add, Nat.one_mul, Nat.mul_one]; omega
  refine ⟨?_, ?_⟩
  · rw [length_flat]
    simp only [List.length_append, List.append_nil, h1, hr']; omega
  · rw [encodeCount, spend_bind, hw, hw', encodeHeadTailCount, Mediate.assembleCount, spend_bind, hw2, hw3, hw4,
      Mediate.tailsCount, hw5, spend_bind, h1, e]
    omega

theorem nested_size : ∀ k, bulk (nestedArrays k) = 2 * (k + 1) ∧ depthOf (nestedArrays k) = k + 1
  | 0 => ⟨rfl, rfl⟩
  | k + 1 => by
    obtain ⟨h1, h2⟩ := nested_size k
    simp only [nestedArrays, bulk, bulkAll, depthOf, depthAll, h1, h2]
    omega

end Ethabi.EncoderCount

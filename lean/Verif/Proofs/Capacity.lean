import Verif.Model.EncoderOn
import Verif.Spec.Capacity
import Verif.Proofs.Size
/-! The encoder with the capacity checks of `bits`-bit targets. -/
namespace Ethabi.Capacity
open Ethabi Spec

theorem capacity_ok {bits n : Nat} (h : 32 * n < 2 ^ (bits - 1)) : wordCapacityOn bits n = .ok () := by
  rw [wordCapacityOn, if_neg (by omega)]
theorem capacity_panic {bits n : Nat} (h : 2 ^ (bits - 1) ≤ 32 * n) : wordCapacityOn bits n = .panic := by
  rw [wordCapacityOn, if_pos h]

/-! ## the same as without the checks, or a panic -/

/-- `x` is a panic or `y` -/
def Cut {α : Type} (x y : Res α) : Prop := x = .panic ∨ x = y

theorem cut_refl {α : Type} (x : Res α) : Cut x x := .inr rfl

theorem cut_bind {α β : Type} {x y : Res α} {f g : α → Res β} (h1 : Cut x y) (h2 : ∀ a, Cut (f a) (g a)) :
    Cut (x >>= f) (y >>= g) := by
  rcases h1 with rfl | rfl
  · exact .inl rfl
  · cases x with
    | ok a => exact h2 a
    | err e => exact .inr rfl
    | panic => exact .inl rfl

theorem cut_capacity {α : Type} {bits n : Nat} {f : Unit → Res α} {y : Res α} (h : Cut (f ()) y) :
    Cut (wordCapacityOn bits n >>= f) y := by
  unfold wordCapacityOn
  split
  · exact .inl rfl
  · exact h

theorem machine_lt {prof : Profile} {n m : Nat} (h : machine prof 32 n = .ok m) : m < 2 ^ 32 := by
  unfold machine at h
  split at h
  · cases h; assumption
  · cases prof with
    | debug => cases h
    | release => cases h; exact Nat.mod_lt _ (by norm_num)

/-- in a debug build the offsets only grow; in a release build they stay below 2^32 -/
theorem heads_bounds (prof : Profile) : ∀ (ms : List Mediate) (acc : List Word) (off : Nat) (r : List Word × Nat),
    off < 2 ^ 32 → Mediate.heads prof ms acc off = .ok r → r.2 < 2 ^ 32 ∧ (prof = .debug → off ≤ r.2)
  | [], acc, off, r, ho, h => by
      rw [Mediate.heads] at h
      cases h
      exact ⟨ho, fun _ => Nat.le_refl _⟩
  | m :: ms, acc, off, r, ho, h => by
      rw [Mediate.heads] at h
      obtain ⟨t, ht, h⟩ := Res.bind_eq_ok.1 h
      obtain ⟨off', ho', h⟩ := Res.bind_eq_ok.1 h
      have hb := heads_bounds prof ms _ off' r (machine_lt ho') h
      refine ⟨hb.1, fun hp => ?_⟩
      have := hb.2 hp
      subst hp
      unfold u32add machine at ho'
      split at ho'
      · cases ho'; omega
      · cases ho'

theorem sumHeadLen_lt (prof : Profile) : ∀ (ms : List Mediate) (acc n : Nat), acc < 2 ^ 32 →
    Mediate.sumHeadLen prof ms acc = .ok n → n < 2 ^ 32
  | [], acc, n, ha, h => by rw [Mediate.sumHeadLen] at h; cases h; exact ha
  | m :: ms, acc, n, ha, h => by
      rw [Mediate.sumHeadLen] at h
      obtain ⟨t, ht, h⟩ := Res.bind_eq_ok.1 h
      obtain ⟨acc', ha', h⟩ := Res.bind_eq_ok.1 h
      exact sumHeadLen_lt prof ms acc' n (machine_lt ha') h

theorem u32sub_total {prof : Profile} {a b : Nat} (ha : a < 2 ^ 32) (hb : b < 2 ^ 32) (h : prof = .debug → b ≤ a) :
    ∃ c, u32sub prof a b = .ok c ∧ c < 2 ^ 32 := by
  unfold u32sub
  split
  · exact ⟨_, rfl, by omega⟩
  · cases prof with
    | debug => exact absurd (h rfl) (by assumption)
    | release => exact ⟨_, rfl, by omega⟩

theorem cut_assemble (bits : Nat) (prof : Profile) (ms : List Mediate) {ts us : Res (List Word)} (h : Cut ts us) :
    Cut (Mediate.assembleOn bits prof ms ts) (Mediate.assemble prof ms us) := by
  unfold Mediate.assembleOn Mediate.assemble
  cases hs : Mediate.sumHeadLen prof ms 0 with
  | panic => exact .inl rfl
  | err e => exact .inr rfl
  | ok hl =>
    rw [Res.ok_bind, Res.ok_bind]
    refine cut_capacity ?_
    cases hh : Mediate.heads prof ms [] hl with
    | panic => exact .inl rfl
    | err e => exact .inr rfl
    | ok r =>
      rw [Res.ok_bind, Res.ok_bind]
      have hlt := sumHeadLen_lt prof ms 0 hl (by norm_num) hs
      have hb := heads_bounds prof ms [] hl r hlt hh
      obtain ⟨c, hc, -⟩ := u32sub_total hb.1 hlt hb.2
      obtain ⟨result, len⟩ := r
      simp only at hc ⊢
      rw [hc, Res.ok_bind]
      refine cut_capacity ?_
      exact cut_bind h fun _ => cut_refl _

mutual
theorem cut_tail (bits : Nat) (prof : Profile) : ∀ m : Mediate, Cut (m.tailOn bits prof) (m.tail prof)
  | .raw _ => cut_refl _
  | .rawTuple _ => cut_refl _
  | .prefixed ws => cut_refl _
  | .prefixedArray ms => by rw [Mediate.tailOn, Mediate.tail]; exact cut_assemble bits prof ms (cut_tails bits prof ms)
  | .prefixedTuple ms => by rw [Mediate.tailOn, Mediate.tail]; exact cut_assemble bits prof ms (cut_tails bits prof ms)
  | .prefixedArrayWithLength ms => by
      rw [Mediate.tailOn, Mediate.tail]
      exact cut_bind (cut_assemble bits prof ms (cut_tails bits prof ms)) fun _ => cut_refl _
theorem cut_tails (bits : Nat) (prof : Profile) : ∀ ms : List Mediate, Cut (Mediate.tailsOn bits prof ms) (Mediate.tails prof ms)
  | [] => cut_refl _
  | m :: ms => by
      rw [Mediate.tailsOn, Mediate.tails]
      refine cut_bind (cut_tail bits prof m) fun t => ?_
      exact cut_bind (cut_tails bits prof ms) fun _ => cut_refl _
end

theorem cut_encodeHeadTail (bits : Nat) (prof : Profile) (ms : List Mediate) :
    Cut (encodeHeadTailOn bits prof ms) (encodeHeadTail prof ms) := cut_assemble bits prof ms (cut_tails bits prof ms)

mutual
theorem cut_encodeToken (bits : Nat) (prof : Profile) : ∀ t : Token, Cut (encodeTokenOn bits prof t) (encodeToken prof t)
  | .address _ => cut_refl _
  | .bytes _ => cut_refl _
  | .string _ => cut_refl _
  | .fixedBytes _ => cut_refl _
  | .int _ => cut_refl _
  | .uint _ => cut_refl _
  | .bool _ => cut_refl _
  | .array ts => by
      rw [encodeTokenOn, encodeToken]
      exact cut_bind (cut_encodeTokens bits prof ts) fun _ => cut_refl _
  | .fixedArray ts => by
      rw [encodeTokenOn, encodeToken]
      refine cut_bind (cut_encodeTokens bits prof ts) fun ms => ?_
      split
      · exact cut_refl _
      · exact cut_bind (cut_encodeHeadTail bits prof ms) fun _ => cut_refl _
  | .tuple ts => by
      rw [encodeTokenOn, encodeToken]
      refine cut_bind (cut_encodeTokens bits prof ts) fun ms => ?_
      split <;> exact cut_refl _
theorem cut_encodeTokens (bits : Nat) (prof : Profile) : ∀ ts : List Token, Cut (encodeTokensOn bits prof ts) (encodeTokens prof ts)
  | [] => cut_refl _
  | t :: ts => by
      rw [encodeTokensOn, encodeTokens]
      refine cut_bind (cut_encodeToken bits prof t) fun _ => ?_
      exact cut_bind (cut_encodeTokens bits prof ts) fun _ => cut_refl _
end

theorem cut_encode (bits : Nat) (prof : Profile) (ts : List Token) : Cut (encodeOn bits prof ts) (encode prof ts) := by
  unfold encodeOn encode
  refine cut_bind (cut_encodeTokens bits prof ts) fun ms => ?_
  exact cut_bind (cut_encodeHeadTail bits prof ms) fun _ => cut_refl _

/-! ## 64 bits: the checks never fail -/

theorem assemble_64 (prof : Profile) (ms : List Mediate) (ts : Res (List Word)) :
    Mediate.assembleOn 64 prof ms ts = Mediate.assemble prof ms ts := by
  unfold Mediate.assembleOn Mediate.assemble
  cases hs : Mediate.sumHeadLen prof ms 0 with
  | panic => rfl
  | err e => rfl
  | ok hl =>
    have hlt := sumHeadLen_lt prof ms 0 hl (by norm_num) hs
    rw [Res.ok_bind, Res.ok_bind, capacity_ok (by norm_num; omega), Res.ok_bind]
    cases hh : Mediate.heads prof ms [] hl with
    | panic => rfl
    | err e => rfl
    | ok r =>
      rw [Res.ok_bind, Res.ok_bind]
      have hb := heads_bounds prof ms [] hl r hlt hh
      obtain ⟨c, hc, hclt⟩ := u32sub_total hb.1 hlt hb.2
      obtain ⟨result, len⟩ := r
      simp only at hc ⊢
      rw [hc, Res.ok_bind, capacity_ok (by norm_num; omega), Res.ok_bind]

mutual
theorem tail_64 (prof : Profile) : ∀ m : Mediate, m.tailOn 64 prof = m.tail prof
  | .raw _ => rfl
  | .rawTuple _ => rfl
  | .prefixed ws => rfl
  | .prefixedArray ms => by rw [Mediate.tailOn, Mediate.tail, assemble_64, tails_64 prof ms]
  | .prefixedTuple ms => by rw [Mediate.tailOn, Mediate.tail, assemble_64, tails_64 prof ms]
  | .prefixedArrayWithLength ms => by rw [Mediate.tailOn, Mediate.tail, assemble_64, tails_64 prof ms]
theorem tails_64 (prof : Profile) : ∀ ms : List Mediate, Mediate.tailsOn 64 prof ms = Mediate.tails prof ms
  | [] => rfl
  | m :: ms => by rw [Mediate.tailsOn, Mediate.tails, tail_64 prof m, tails_64 prof ms]
end

theorem encodeHeadTail_64 (prof : Profile) (ms : List Mediate) : encodeHeadTailOn 64 prof ms = encodeHeadTail prof ms := by
  rw [encodeHeadTailOn, encodeHeadTail, assemble_64, tails_64]

mutual
theorem encodeToken_64 (prof : Profile) : ∀ t : Token, encodeTokenOn 64 prof t = encodeToken prof t
  | .address _ => rfl
  | .bytes _ => rfl
  | .string _ => rfl
  | .fixedBytes _ => rfl
  | .int _ => rfl
  | .uint _ => rfl
  | .bool _ => rfl
  | .array ts => by rw [encodeTokenOn, encodeToken, encodeTokens_64 prof ts]
  | .fixedArray ts => by
      rw [encodeTokenOn, encodeToken, encodeTokens_64 prof ts]
      congr 1; funext ms
      rw [encodeHeadTail_64]
  | .tuple ts => by rw [encodeTokenOn, encodeToken, encodeTokens_64 prof ts]
theorem encodeTokens_64 (prof : Profile) : ∀ ts : List Token, encodeTokensOn 64 prof ts = encodeTokens prof ts
  | [] => rfl
  | t :: ts => by rw [encodeTokensOn, encodeTokens, encodeToken_64 prof t, encodeTokens_64 prof ts]
end

theorem encode_64 (prof : Profile) (ts : List Token) : encodeOn 64 prof ts = encode prof ts := by
  unfold encodeOn encode
  rw [encodeTokens_64]
  congr 1; funext ms
  rw [encodeHeadTail_64]

/-! ## 32 bits -/

theorem headBytes_parts (ts : List Token) : sumH (parts ts) = headBytes ts := by
  induction ts with
  | nil => rfl
  | cons t ts ih => rw [headBytes, ← ih]; simp [parts, sumH, hd]
theorem tailBytes_parts (ts : List Token) : sumT (parts ts) = tailBytes ts := by
  induction ts with
  | nil => rfl
  | cons t ts ih => rw [tailBytes, ← ih]; simp [parts, sumT, tl]
theorem bytes_sum (ts : List Token) : headBytes ts + tailBytes ts = sizeAll ts := by
  rw [← headBytes_parts, ← tailBytes_parts, parts_sum]

/-- a profile computes what a debug build computes without a panic -/
theorem of_debug {α : Type} {f : Profile → Res α} {a : α} (h : Agree (f .debug) (f .release)) (hd : f .debug = .ok a) (prof : Profile) :
    f prof = .ok a := by
  cases prof with
  | debug => exact hd
  | release =>
    rcases h with h | h
    · rw [hd] at h; cases h
    · rw [h, hd]

/-- lengths of a list of mediates that a debug build computes without a panic -/
theorem sumLen_split : ∀ (ms : List Mediate) (acc n : Nat), Mediate.sumLen .debug ms acc = .ok n →
    ∃ H T, n = acc + H + T ∧ (∀ a, a + H < 2 ^ 32 → Mediate.sumHeadLen .debug ms a = .ok (a + H)) ∧
      (∀ ws off, off + T < 2 ^ 32 → ∃ r, Mediate.heads .debug ms ws off = .ok (r, off + T)) ∧
      ∀ m ∈ ms, ∃ t, t ≤ T ∧ m.tailLen .debug = .ok t
  | [], acc, n, h => by
      rw [Mediate.sumLen] at h
      cases h
      exact ⟨0, 0, rfl, fun a _ => rfl, fun ws off _ => ⟨ws, rfl⟩, by simp⟩
  | m :: ms, acc, n, h => by
      rw [Mediate.sumLen] at h
      obtain ⟨x, hx, h⟩ := Res.bind_eq_ok.1 h
      obtain ⟨a1, h1, h⟩ := Res.bind_eq_ok.1 h
      obtain ⟨t, ht, h⟩ := Res.bind_eq_ok.1 h
      obtain ⟨a2, h2, h⟩ := Res.bind_eq_ok.1 h
      have e1 : a1 = acc + x := by
        unfold u32add machine at h1
        split at h1
        · cases h1; rfl
        · cases h1
      have e2 : a2 = a1 + t := by
        unfold u32add machine at h2
        split at h2
        · cases h2; rfl
        · cases h2
      obtain ⟨H, T, hn, g1, g2, g3⟩ := sumLen_split ms a2 n h
      refine ⟨x + H, t + T, by omega, ?_, ?_, ?_⟩
      · intro a ha
        have hm : u32add .debug a x = .ok (a + x) := machine_ok (by omega)
        rw [Mediate.sumHeadLen, hx, Res.ok_bind, hm, Res.ok_bind, g1 (a + x) (by omega)]
        congr 1; omega
      · intro ws off ho
        have hm : u32add .debug off t = .ok (off + t) := machine_ok (by omega)
        obtain ⟨r, hr⟩ := g2 (ws ++ m.head off) (off + t) (by omega)
        exact ⟨r, by rw [Mediate.heads, ht, Res.ok_bind, hm, Res.ok_bind, hr]; congr 2; omega⟩
      · intro m' hm'
        rcases List.mem_cons.1 hm' with rfl | hm'
        · exact ⟨t, by omega, ht⟩
        · obtain ⟨t', h', h''⟩ := g3 m' hm'
          exact ⟨t', by omega, h''⟩

/-- both capacities pass -/
theorem assemble_small (prof : Profile) (ms : List Mediate) (ts : Res (List Word)) {H T : Nat}
    (h1 : Mediate.sumHeadLen prof ms 0 = .ok H) (h2 : ∃ r, Mediate.heads prof ms [] H = .ok (r, H + T))
    (hH : H < 2 ^ 26) (hT : T < 2 ^ 26) : Mediate.assembleOn 32 prof ms ts = Mediate.assemble prof ms ts := by
  obtain ⟨r, h2⟩ := h2
  have hs : u32sub prof (H + T) H = .ok T := by rw [u32sub.eq_def, if_pos (by omega)]; congr 1; omega
  unfold Mediate.assembleOn Mediate.assemble
  rw [h1, Res.ok_bind, Res.ok_bind, capacity_ok (by norm_num; omega), Res.ok_bind, h2, Res.ok_bind, Res.ok_bind]
  simp only [hs, Res.ok_bind]
  rw [capacity_ok (by norm_num; omega), Res.ok_bind]

/-- one of the capacities does not pass -/
theorem assemble_large (prof : Profile) (ms : List Mediate) (ts : Res (List Word)) {H T : Nat}
    (h1 : Mediate.sumHeadLen prof ms 0 = .ok H) (h2 : ∃ r, Mediate.heads prof ms [] H = .ok (r, H + T))
    (h : 2 ^ 26 ≤ H ∨ 2 ^ 26 ≤ T) : Mediate.assembleOn 32 prof ms ts = .panic := by
  obtain ⟨r, h2⟩ := h2
  have hs : u32sub prof (H + T) H = .ok T := by rw [u32sub.eq_def, if_pos (by omega)]; congr 1; omega
  unfold Mediate.assembleOn
  rw [h1, Res.ok_bind]
  by_cases hH : 2 ^ 26 ≤ H
  · rw [capacity_panic (by norm_num; omega), Res.panic_bind]
  · rw [capacity_ok (by norm_num; omega), Res.ok_bind, h2, Res.ok_bind]
    simp only [hs, Res.ok_bind]
    rw [capacity_panic (by norm_num; omega), Res.panic_bind]

theorem split_prof (prof : Profile) {ms : List Mediate} {H T : Nat} (hlt : H + T < 2 ^ 32)
    (g1 : ∀ a, a + H < 2 ^ 32 → Mediate.sumHeadLen .debug ms a = .ok (a + H))
    (g2 : ∀ ws off, off + T < 2 ^ 32 → ∃ r, Mediate.heads .debug ms ws off = .ok (r, off + T)) :
    Mediate.sumHeadLen prof ms 0 = .ok H ∧ ∃ r, Mediate.heads prof ms [] H = .ok (r, H + T) := by
  have h1 := g1 0 (by omega)
  rw [Nat.zero_add] at h1
  obtain ⟨r, h2⟩ := g2 [] H hlt
  exact ⟨of_debug (f := fun p => Mediate.sumHeadLen p ms 0) (agree_sumHeadLen ms 0) h1 prof,
    r, of_debug (f := fun p => Mediate.heads p ms [] H) (agree_heads ms [] H) h2 prof⟩

mutual
theorem tail_small (prof : Profile) : ∀ (m : Mediate) (t : Nat), m.tailLen .debug = .ok t → t < 2 ^ 26 →
    m.tailOn 32 prof = m.tail prof
  | .raw _, _, _, _ => rfl
  | .rawTuple _, _, _, _ => rfl
  | .prefixed ws, _, _, _ => rfl
  | .prefixedArray ms, t, h, hlt => by
      rw [Mediate.tailLen] at h
      rw [Mediate.tailOn, Mediate.tail]
      obtain ⟨H, T, hn, g1, g2, g3⟩ := sumLen_split ms _ t h
      have hp := split_prof prof (by omega) g1 g2
      rw [assemble_small prof ms _ hp.1 hp.2 (by omega) (by omega), tails_small prof ms T g3 (by omega)]
  | .prefixedTuple ms, t, h, hlt => by
      rw [Mediate.tailLen] at h
      rw [Mediate.tailOn, Mediate.tail]
      obtain ⟨H, T, hn, g1, g2, g3⟩ := sumLen_split ms _ t h
      have hp := split_prof prof (by omega) g1 g2
      rw [assemble_small prof ms _ hp.1 hp.2 (by omega) (by omega), tails_small prof ms T g3 (by omega)]
  | .prefixedArrayWithLength ms, t, h, hlt => by
      rw [Mediate.tailLen] at h
      rw [Mediate.tailOn, Mediate.tail]
      obtain ⟨H, T, hn, g1, g2, g3⟩ := sumLen_split ms _ t h
      have hp := split_prof prof (by omega) g1 g2
      rw [assemble_small prof ms _ hp.1 hp.2 (by omega) (by omega), tails_small prof ms T g3 (by omega)]
theorem tails_small (prof : Profile) : ∀ (ms : List Mediate) (T : Nat), (∀ m ∈ ms, ∃ t, t ≤ T ∧ m.tailLen .debug = .ok t) →
    T < 2 ^ 26 → Mediate.tailsOn 32 prof ms = Mediate.tails prof ms
  | [], _, _, _ => rfl
  | m :: ms, T, h, hT => by
      obtain ⟨t, ht, h1⟩ := h m (by simp)
      rw [Mediate.tailsOn, Mediate.tails, tail_small prof m t h1 (by omega),
        tails_small prof ms T (fun m' hm' => h m' (by simp [hm'])) hT]
end

theorem sized_tailLens {ms : List Mediate} {l : List (Nat × Nat)} (h : SizedAll ms l) (hl : sumT l < 2 ^ 32) :
    ∀ m ∈ ms, ∃ t, t ≤ sumT l ∧ m.tailLen .debug = .ok t := by
  induction h with
  | nil => simp
  | @cons m p ms l h1 _ ih =>
    have e : sumT (p :: l) = p.2 + sumT l := by simp [sumT]
    intro m' hm'
    rcases List.mem_cons.1 hm' with rfl | hm'
    · exact ⟨p.2, by omega, by rw [h1.2.1, chk_ok (by omega)]⟩
    · obtain ⟨t, h1, h2⟩ := ih (by omega) m' hm'
      exact ⟨t, by omega, h2⟩

theorem sized_split {ms : List Mediate} {l : List (Nat × Nat)} (h : SizedAll ms l) :
    (∀ a, a + sumH l < 2 ^ 32 → Mediate.sumHeadLen .debug ms a = .ok (a + sumH l)) ∧
      ∀ ws off, off + sumT l < 2 ^ 32 → ∃ r, Mediate.heads .debug ms ws off = .ok (r, off + sumT l) := by
  refine ⟨fun a ha => ?_, fun ws off ho => ?_⟩
  · rw [sumHeadLen_sized h a (by omega), chk_ok ha]
  · obtain ⟨r, -, hr⟩ := heads_sized h ws off (by omega)
    exact ⟨r, by rw [hr, chk_ok ho, Res.ok_bind]⟩

/-- `encode_head_tail` on 32 bits, heads and tails both below 2^26 bytes -/
theorem encodeHeadTail_small (prof : Profile) {ms : List Mediate} {l : List (Nat × Nat)} (h : SizedAll ms l)
    (hH : sumH l < 2 ^ 26) (hT : sumT l < 2 ^ 26) : encodeHeadTailOn 32 prof ms = encodeHeadTail prof ms := by
  obtain ⟨g1, g2⟩ := sized_split h
  have hp := split_prof prof (by omega) g1 g2
  rw [encodeHeadTailOn, encodeHeadTail, assemble_small prof ms _ hp.1 hp.2 hH hT,
    tails_small prof ms _ (sized_tailLens h (by omega)) hT]

theorem encodeHeadTail_large (prof : Profile) {ms : List Mediate} {l : List (Nat × Nat)} (h : SizedAll ms l)
    (hlt : sumH l + sumT l < 2 ^ 32) (hl : 2 ^ 26 ≤ sumH l ∨ 2 ^ 26 ≤ sumT l) : encodeHeadTailOn 32 prof ms = .panic := by
  obtain ⟨g1, g2⟩ := sized_split h
  have hp := split_prof prof hlt g1 g2
  rw [encodeHeadTailOn]
  exact assemble_large prof ms _ hp.1 hp.2 hl

theorem tokens_ok (prof : Profile) {ts : List Token} (hs : sizeAll ts < 2 ^ 32) :
    ∃ ms, encodeTokens prof ts = .ok ms ∧ SizedAll ms (parts ts) := by
  rcases encodeTokens_sized ts (payloadsBelowAll_of_size ts hs) with ⟨-, h⟩ | ⟨ms, e, h⟩
  · omega
  · exact ⟨ms, of_debug (f := fun p => encodeTokens p ts) (agree_encodeTokens ts) e prof, h⟩

mutual
theorem encodeToken_small (prof : Profile) : ∀ t : Token, size t < 2 ^ 26 → encodeTokenOn 32 prof t = encodeToken prof t
  | .address _, _ => rfl
  | .bytes _, _ => rfl
  | .string _, _ => rfl
  | .fixedBytes _, _ => rfl
  | .int _, _ => rfl
  | .uint _, _ => rfl
  | .bool _, _ => rfl
  | .array ts, h => by
      rw [size] at h
      rw [encodeTokenOn, encodeToken, encodeTokens_small prof ts (by have := bytes_sum ts; omega) (by have := bytes_sum ts; omega)]
  | .fixedArray ts, h => by
      rw [size] at h
      obtain ⟨ms, hm, hsz⟩ := tokens_ok prof (ts := ts) (by omega)
      have := bytes_sum ts
      rw [encodeTokenOn, encodeToken, encodeTokens_small prof ts (by omega) (by omega), hm, Res.ok_bind, Res.ok_bind,
        encodeHeadTail_small prof hsz (by rw [headBytes_parts]; omega) (by rw [tailBytes_parts]; omega)]
  | .tuple ts, h => by
      rw [size] at h
      rw [encodeTokenOn, encodeToken, encodeTokens_small prof ts (by have := bytes_sum ts; omega) (by have := bytes_sum ts; omega)]
theorem encodeTokens_small (prof : Profile) : ∀ ts : List Token, headBytes ts < 2 ^ 26 → tailBytes ts < 2 ^ 26 → encodeTokensOn 32 prof ts = encodeTokens prof ts
  | [], _, _ => rfl
  | t :: ts, h, h' => by
      rw [headBytes] at h
      rw [tailBytes] at h'
      have : size t < 2 ^ 26 := by cases ht : tailed t <;> simp only [ht, if_true, Bool.false_eq_true, if_false] at h h' <;> omega
      rw [encodeTokensOn, encodeTokens, encodeToken_small prof t this, encodeTokens_small prof ts (by omega) (by omega)]
end

/-- both profiles, below 2^32 bytes -/
theorem encode_32 (prof : Profile) (ts : List Token) (hs : sizeAll ts < 2 ^ 32) :
    encodeOn 32 prof ts = if 2 ^ 26 ≤ headBytes ts ∨ 2 ^ 26 ≤ tailBytes ts then .panic else encode prof ts := by
  obtain ⟨ms, hm, hsz⟩ := tokens_ok prof hs
  have hb := bytes_sum ts
  unfold encodeOn encode
  split
  · rename_i hl
    rcases cut_encodeTokens 32 prof ts with e | e
    · rw [e, Res.panic_bind]
    · rw [e, hm, Res.ok_bind, encodeHeadTail_large prof hsz (by rw [headBytes_parts, tailBytes_parts]; omega)
        (by rw [headBytes_parts, tailBytes_parts]; exact hl), Res.panic_bind]
  · rename_i hl
    rw [encodeTokens_small prof ts (by omega) (by omega), hm, Res.ok_bind, Res.ok_bind,
      encodeHeadTail_small prof hsz (by rw [headBytes_parts]; omega) (by rw [tailBytes_parts]; omega)]

end Ethabi.Capacity

import Verif.Spec.Size
import Verif.Proofs.Profile
import Mathlib.Data.List.Forall2
/-! Sizes of encodings and overflow of the encoder's `u32` arithmetic in debug builds. -/
namespace Ethabi
open Spec (tailed tailedAny size sizeAll roundUp payloadsBelow payloadsBelowAll)

/-- checked `u32` -/
abbrev chk (n : Nat) : Res Nat := machine .debug 32 n

theorem chk_ok {n : Nat} (h : n < 2 ^ 32) : chk n = .ok n := machine_ok h
theorem chk_panic {n : Nat} (h : 2 ^ 32 ≤ n) : chk n = .panic := by
  unfold chk machine; rw [if_neg (by omega)]

/-- a checked value added with a check is a checked sum -/
theorem chk_add {α : Type} {acc x : Nat} (f : Nat → Res α) :
    (chk x >>= fun h => u32add .debug acc h >>= f) = (chk (acc + x) >>= f) := by
  by_cases h2 : x < 2 ^ 32
  · rw [chk_ok h2, Res.ok_bind]; rfl
  · rw [chk_panic (by omega), chk_panic (by omega), Res.panic_bind, Res.panic_bind]

/-- a mediate that takes `h` bytes in the head and `t` in the tail -/
def Sized (m : Mediate) (h t : Nat) : Prop :=
  m.headLen .debug = chk h ∧ m.tailLen .debug = chk t ∧ (∀ off, 32 * (m.head off).length = h) ∧
    (t < 2 ^ 32 → ∃ ws, m.tail .debug = .ok ws ∧ 32 * ws.length = t)

abbrev SizedAll (ms : List Mediate) (l : List (Nat × Nat)) : Prop := List.Forall₂ (fun m p => Sized m p.1 p.2) ms l

def sumH (l : List (Nat × Nat)) : Nat := (l.map (·.1)).sum
def sumT (l : List (Nat × Nat)) : Nat := (l.map (·.2)).sum

theorem sumHeadLen_sized {ms : List Mediate} {l : List (Nat × Nat)} (h : SizedAll ms l) :
    ∀ acc, acc < 2 ^ 32 → Mediate.sumHeadLen .debug ms acc = chk (acc + sumH l) := by
  induction h with
  | nil => intro acc ha; rw [Mediate.sumHeadLen]; exact (chk_ok ha).symm
  | @cons m p ms l h1 _ ih =>
    intro acc ha
    rw [Mediate.sumHeadLen, h1.1, chk_add]
    have e : acc + sumH (p :: l) = acc + p.1 + sumH l := by simp [sumH]; omega
    rw [e]
    by_cases hlt : acc + p.1 < 2 ^ 32
    · rw [chk_ok hlt, Res.ok_bind, ih _ hlt]
    · rw [chk_panic (by omega), Res.panic_bind, chk_panic (by omega)]

theorem sumLen_sized {ms : List Mediate} {l : List (Nat × Nat)} (h : SizedAll ms l) :
    ∀ acc, acc < 2 ^ 32 → Mediate.sumLen .debug ms acc = chk (acc + sumH l + sumT l) := by
  induction h with
  | nil => intro acc ha; rw [Mediate.sumLen]; exact (chk_ok ha).symm
  | @cons m p ms l h1 _ ih =>
    intro acc ha
    rw [Mediate.sumLen, h1.1, h1.2.1, chk_add]
    have e : acc + sumH (p :: l) + sumT (p :: l) = acc + p.1 + p.2 + sumH l + sumT l := by simp [sumH, sumT]; omega
    rw [e]
    by_cases hlt : acc + p.1 < 2 ^ 32
    · rw [chk_ok hlt, Res.ok_bind, chk_add]
      by_cases hlt2 : acc + p.1 + p.2 < 2 ^ 32
      · rw [chk_ok hlt2, Res.ok_bind, ih _ hlt2]
      · rw [chk_panic (by omega), Res.panic_bind, chk_panic (by omega)]
    · rw [chk_panic (by omega), Res.panic_bind, chk_panic (by omega)]

theorem heads_sized {ms : List Mediate} {l : List (Nat × Nat)} (h : SizedAll ms l) :
    ∀ acc off, off < 2 ^ 32 → ∃ ws : List Word, 32 * ws.length = 32 * acc.length + sumH l ∧
      Mediate.heads .debug ms acc off = (chk (off + sumT l) >>= fun o => Res.ok (ws, o)) := by
  induction h with
  | nil =>
    intro acc off ho
    refine ⟨acc, by simp [sumH], ?_⟩
    rw [Mediate.heads]
    show _ = (chk off >>= _)
    rw [chk_ok ho, Res.ok_bind]
  | @cons m p ms l h1 _ ih =>
    intro acc off ho
    rw [Mediate.heads, h1.2.1]
    have e : off + sumT (p :: l) = off + p.2 + sumT l := by simp [sumT]; omega
    rw [e, chk_add]
    by_cases hlt : off + p.2 < 2 ^ 32
    · obtain ⟨ws, hl, hw⟩ := ih (acc ++ m.head off) (off + p.2) hlt
      refine ⟨ws, ?_, ?_⟩
      · rw [hl, List.length_append]
        have := h1.2.2.1 off
        simp only [sumH, List.map_cons, List.sum_cons]; omega
      · rw [chk_ok hlt, Res.ok_bind, hw]
    · refine ⟨acc ++ m.head off ++ List.replicate ((sumH l) / 32) ⟨List.replicate 32 0, by simp⟩, ?_, ?_⟩
      · have h2 : 32 * (sumH l / 32) = sumH l := by
          clear ih
          have : 32 ∣ sumH l := by
            rename_i hall
            clear h1 e hlt
            induction hall with
            | nil => simp [sumH]
            | @cons m p ms l g1 _ ih =>
              have := g1.2.2.1 0
              simp only [sumH, List.map_cons, List.sum_cons] at ih ⊢
              exact Nat.dvd_add ⟨_, this.symm⟩ ih
          omega
        have := h1.2.2.1 off
        simp only [sumH, List.map_cons, List.sum_cons, List.length_append, List.length_replicate] at h2 ⊢; omega
      · rw [chk_panic (by omega), Res.panic_bind, chk_panic (by omega), Res.panic_bind]

theorem tails_sized {ms : List Mediate} {l : List (Nat × Nat)} (h : SizedAll ms l) (hl : sumT l < 2 ^ 32) :
    ∃ ws, Mediate.tails .debug ms = .ok ws ∧ 32 * ws.length = sumT l := by
  induction h with
  | nil => exact ⟨[], rfl, by simp [sumT]⟩
  | @cons m p ms l h1 _ ih =>
    have e : sumT (p :: l) = p.2 + sumT l := by simp [sumT]
    rw [e] at hl
    obtain ⟨ws, hw, hn⟩ := ih (by omega)
    obtain ⟨w1, hw1, hn1⟩ := h1.2.2.2 (by omega)
    refine ⟨w1 ++ ws, ?_, ?_⟩
    · rw [Mediate.tails, hw1, Res.ok_bind, hw, Res.ok_bind]
    · rw [List.length_append, e]; omega

/-- `encode_head_tail` in a debug build: the right number of words, or a panic when there are 2^32 bytes or more -/
theorem encodeHeadTail_sized {ms : List Mediate} {l : List (Nat × Nat)} (h : SizedAll ms l) :
    (sumH l + sumT l < 2 ^ 32 → ∃ ws, encodeHeadTail .debug ms = .ok ws ∧ 32 * ws.length = sumH l + sumT l) ∧
      (2 ^ 32 ≤ sumH l + sumT l → encodeHeadTail .debug ms = .panic) := by
  have h1 := sumHeadLen_sized h 0 (by norm_num)
  rw [Nat.zero_add] at h1
  constructor
  · intro hlt
    obtain ⟨ws, hn, hw⟩ := heads_sized h [] (sumH l) (by omega)
    obtain ⟨ts, ht, hn2⟩ := tails_sized h (by omega)
    refine ⟨ws ++ ts, ?_, ?_⟩
    · rw [encodeHeadTail, Mediate.assemble, h1, chk_ok (by omega), Res.ok_bind, hw, chk_ok hlt, Res.ok_bind, Res.ok_bind]
      simp only [ht, Res.ok_bind]
    · rw [List.length_append]; simp only [List.length_nil] at hn; omega
  · intro hge
    rw [encodeHeadTail, Mediate.assemble, h1]
    by_cases hlt : sumH l < 2 ^ 32
    · obtain ⟨ws, hn, hw⟩ := heads_sized h [] (sumH l) hlt
      rw [chk_ok hlt, Res.ok_bind, hw, chk_panic hge, Res.panic_bind, Res.panic_bind]
    · rw [chk_panic (by omega), Res.panic_bind]

def hd (t : Token) : Nat := if tailed t then 32 else size t
def tl (t : Token) : Nat := if tailed t then size t else 0
def parts (ts : List Token) : List (Nat × Nat) := ts.map fun t => (hd t, tl t)

theorem parts_sum (ts : List Token) : sumH (parts ts) + sumT (parts ts) = sizeAll ts := by
  induction ts with
  | nil => rfl
  | cons t ts ih =>
    rw [sizeAll, ← ih]
    simp only [parts, sumH, sumT, List.map_cons, List.sum_cons, hd, tl]
    split <;> omega

theorem parts_static {ts : List Token} (h : tailedAny ts = false) : sumT (parts ts) = 0 := by
  induction ts with
  | nil => rfl
  | cons t ts ih =>
    simp only [tailedAny, Bool.or_eq_false_iff] at h
    have := ih h.2
    simp only [parts, sumT, List.map_cons, List.sum_cons, tl, h.1] at this ⊢
    simpa using this

mutual
theorem isDynamic_tailed : ∀ t : Token, t.isDynamic = tailed t
  | .bytes _ => rfl
  | .string _ => rfl
  | .array _ => rfl
  | .fixedArray ts => by rw [Token.isDynamic, tailed]; exact anyDynamic_tailed ts
  | .tuple ts => by rw [Token.isDynamic, tailed]; exact anyDynamic_tailed ts
  | .address _ => rfl
  | .fixedBytes _ => rfl
  | .int _ => rfl
  | .uint _ => rfl
  | .bool _ => rfl
theorem anyDynamic_tailed : ∀ ts : List Token, Token.anyDynamic ts = tailedAny ts
  | [] => rfl
  | t :: ts => by rw [Token.anyDynamic, tailedAny, isDynamic_tailed t, anyDynamic_tailed ts]
end

theorem sized_raw {ws : List Word} {h : Nat} (e : 32 * ws.length = h) (hb : ws.length < 2 ^ 32) : Sized (.raw ws) h 0 := by
  refine ⟨?_, ?_, fun _ => e, fun _ => ⟨[], rfl, rfl⟩⟩
  · rw [Mediate.headLen, asU32, Nat.mod_eq_of_lt hb]
    show machine _ _ _ = _
    rw [e]
  · exact (chk_ok (by norm_num)).symm

theorem length_padFixedBytes (b : Bytes) : (padFixedBytes b).length = (b.length + 31) / 32 := by
  simp [padFixedBytes]

theorem sized_prefixed {b : Bytes} (hb : b.length < 2 ^ 37 - 63) : Sized (.prefixed (padBytes b)) 32 (32 + roundUp b.length) := by
  have hl : (padBytes b).length = 1 + (b.length + 31) / 32 := by
    rw [padBytes, List.length_cons, length_padFixedBytes]; omega
  have e : 32 * (padBytes b).length = 32 + roundUp b.length := by rw [hl, roundUp]; omega
  refine ⟨(chk_ok (by norm_num)).symm, ?_, fun _ => rfl, fun _ => ⟨_, rfl, e⟩⟩
  rw [Mediate.tailLen, asU32, Nat.mod_eq_of_lt (by omega), ← e]
  show machine _ _ _ = _
  rw [Nat.mul_comm]

/-- the three prefixed containers -/
theorem sized_tail {ms : List Mediate} {ts : List Token} (h : SizedAll ms (parts ts)) :
    Mediate.sumLen .debug ms 0 = chk (sizeAll ts) ∧ Mediate.sumLen .debug ms 32 = chk (32 + sizeAll ts) ∧
      (sizeAll ts < 2 ^ 32 → ∃ ws, Mediate.assemble .debug ms (Mediate.tails .debug ms) = .ok ws ∧ 32 * ws.length = sizeAll ts) := by
  have e := parts_sum ts
  refine ⟨?_, ?_, ?_⟩
  · rw [sumLen_sized h 0 (by norm_num)]; congr 1; omega
  · rw [sumLen_sized h 32 (by norm_num)]; congr 1; omega
  · intro hlt
    have := (encodeHeadTail_sized h).1 (by omega)
    rw [e] at this
    exact this

theorem sized_headsZero {ms : List Mediate} {l : List (Nat × Nat)} (h : SizedAll ms l) :
    32 * (Mediate.headsZero ms).length = sumH l := by
  induction h with
  | nil => rfl
  | @cons m p ms l h1 _ ih =>
    rw [Mediate.headsZero, List.length_append]
    have := h1.2.2.1 0
    simp only [sumH, List.map_cons, List.sum_cons] at ih ⊢; omega

/-- `encode_token` in a debug build -/
def TokenSized (r : Res Mediate) (t : Token) : Prop := (r = .panic ∧ 2 ^ 32 ≤ size t) ∨ ∃ m, r = .ok m ∧ Sized m (hd t) (tl t)

def TokensSized (r : Res (List Mediate)) (ts : List Token) : Prop :=
  (r = .panic ∧ 2 ^ 32 ≤ sizeAll ts) ∨ ∃ ms, r = .ok ms ∧ SizedAll ms (parts ts)

mutual
theorem encodeToken_sized : ∀ t : Token, payloadsBelow (2 ^ 37 - 63) t = true → TokenSized (encodeToken .debug t) t
  | .address _, _ => .inr ⟨_, rfl, sized_raw rfl (by norm_num)⟩
  | .int _, _ => .inr ⟨_, rfl, sized_raw rfl (by norm_num)⟩
  | .uint _, _ => .inr ⟨_, rfl, sized_raw rfl (by norm_num)⟩
  | .bool _, _ => .inr ⟨_, rfl, sized_raw rfl (by norm_num)⟩
  | .fixedBytes b, hp => by
      simp only [payloadsBelow, decide_eq_true_eq] at hp
      refine .inr ⟨_, rfl, sized_raw ?_ ?_⟩
      · rw [length_padFixedBytes, hd, tailed, size, roundUp]; simp only [Bool.false_eq_true, if_false]; omega
      · rw [length_padFixedBytes]; omega
  | .bytes b, hp => by
      simp only [payloadsBelow, decide_eq_true_eq] at hp
      exact .inr ⟨_, rfl, sized_prefixed hp⟩
  | .string s, hp => by
      simp only [payloadsBelow, decide_eq_true_eq, ← utf8_eq_core] at hp
      refine .inr ⟨.prefixed (padBytes (utf8 s)), rfl, ?_⟩
      simp only [hd, tl, tailed, size, if_true, ← utf8_eq_core]
      exact sized_prefixed hp
  | .array ts, hp => by
      simp only [payloadsBelow] at hp
      rw [encodeToken]
      rcases encodeTokens_sized ts hp with ⟨e, h⟩ | ⟨ms, e, h⟩
      · exact .inl ⟨by rw [e, Res.panic_bind], by rw [size]; omega⟩
      · refine .inr ⟨_, by rw [e, Res.ok_bind], ?_⟩
        obtain ⟨-, h2, h3⟩ := sized_tail h
        refine ⟨(chk_ok (by norm_num)).symm, by rw [Mediate.tailLen]; exact h2, fun _ => rfl, ?_⟩
        intro hlt
        have hlt : 32 + sizeAll ts < 2 ^ 32 := hlt
        obtain ⟨ws, hw, hn⟩ := h3 (by omega)
        refine ⟨padU32 (asU32 ms.length) :: ws, by rw [Mediate.tail, hw, Res.ok_bind], ?_⟩
        show _ = 32 + sizeAll ts
        rw [List.length_cons]; omega
  | .fixedArray ts, hp => by
      simp only [payloadsBelow] at hp
      rw [encodeToken]
      rcases encodeTokens_sized ts hp with ⟨e, h⟩ | ⟨ms, e, h⟩
      · exact .inl ⟨by rw [e, Res.panic_bind], by rw [size]; omega⟩
      · rw [e, Res.ok_bind, anyDynamic_tailed]
        cases ht : tailedAny ts with
        | true =>
          obtain ⟨h1, -, h3⟩ := sized_tail h
          refine .inr ⟨.prefixedArray ms, rfl, ?_⟩
          simp only [hd, tl, tailed, ht, if_true, size]
          exact ⟨(chk_ok (by norm_num)).symm, by rw [Mediate.tailLen]; exact h1, fun _ => rfl,
            fun hlt => by rw [Mediate.tail]; exact h3 hlt⟩
        | false =>
          have hs := parts_static ht
          have hsum := parts_sum ts
          obtain ⟨g1, g2⟩ := encodeHeadTail_sized h
          by_cases hlt : sizeAll ts < 2 ^ 32
          · obtain ⟨ws, hw, hn⟩ := g1 (by omega)
            refine .inr ⟨.raw ws, by simp [hw], ?_⟩
            simp only [hd, tl, tailed, ht, size, Bool.false_eq_true, if_false]
            exact sized_raw (by omega) (by omega)
          · refine .inl ⟨?_, by rw [size]; omega⟩
            simp [g2 (by omega)]
  | .tuple ts, hp => by
      simp only [payloadsBelow] at hp
      rw [encodeToken]
      rcases encodeTokens_sized ts hp with ⟨e, h⟩ | ⟨ms, e, h⟩
      · exact .inl ⟨by rw [e, Res.panic_bind], by rw [size]; omega⟩
      · rw [e, Res.ok_bind, anyDynamic_tailed]
        cases ht : tailedAny ts with
        | true =>
          obtain ⟨h1, -, h3⟩ := sized_tail h
          refine .inr ⟨.prefixedTuple ms, rfl, ?_⟩
          simp only [hd, tl, tailed, ht, if_true, size]
          exact ⟨(chk_ok (by norm_num)).symm, by rw [Mediate.tailLen]; exact h1, fun _ => rfl,
            fun hlt => by rw [Mediate.tail]; exact h3 hlt⟩
        | false =>
          have hs := parts_static ht
          have hsum := parts_sum ts
          refine .inr ⟨.rawTuple ms, rfl, ?_⟩
          simp only [hd, tl, tailed, ht, size, Bool.false_eq_true, if_false]
          refine ⟨?_, (chk_ok (by norm_num)).symm, ?_, fun _ => ⟨[], rfl, rfl⟩⟩
          · rw [Mediate.headLen, sumHeadLen_sized h 0 (by norm_num)]; congr 1; omega
          · intro off
            rw [Mediate.head, sized_headsZero h]; omega
theorem encodeTokens_sized : ∀ ts : List Token, payloadsBelowAll (2 ^ 37 - 63) ts = true → TokensSized (encodeTokens .debug ts) ts
  | [], _ => .inr ⟨[], rfl, .nil⟩
  | t :: ts, hp => by
      simp only [payloadsBelowAll, Bool.and_eq_true] at hp
      rw [encodeTokens]
      rcases encodeToken_sized t hp.1 with ⟨e, h⟩ | ⟨m, e, h⟩
      · exact .inl ⟨by rw [e, Res.panic_bind], by rw [sizeAll]; omega⟩
      · rcases encodeTokens_sized ts hp.2 with ⟨e', h'⟩ | ⟨ms, e', h'⟩
        · exact .inl ⟨by rw [e, Res.ok_bind, e', Res.panic_bind], by rw [sizeAll]; omega⟩
        · exact .inr ⟨m :: ms, by rw [e, Res.ok_bind, e', Res.ok_bind], .cons h h'⟩
end

theorem encode_sized (ts : List Token) (hp : payloadsBelowAll (2 ^ 37 - 63) ts = true) :
    (sizeAll ts < 2 ^ 32 → ∃ bs, encode .debug ts = .ok bs ∧ bs.length = sizeAll ts) ∧
      (2 ^ 32 ≤ sizeAll ts → encode .debug ts = .panic) := by
  unfold encode
  have e := parts_sum ts
  rcases encodeTokens_sized ts hp with ⟨e', h⟩ | ⟨ms, e', h⟩
  · exact ⟨fun hlt => by omega, fun _ => by rw [e', Res.panic_bind]⟩
  · obtain ⟨g1, g2⟩ := encodeHeadTail_sized h
    rw [e'] 
    constructor
    · intro hlt
      obtain ⟨ws, hw, hn⟩ := g1 (by omega)
      exact ⟨flattenWords ws, by rw [Res.ok_bind, hw, Res.ok_bind], by rw [length_flattenWords]; omega⟩
    · intro hge
      rw [Res.ok_bind, g2 (by omega), Res.panic_bind]

mutual
theorem payloadsBelow_of_size : ∀ t : Token, size t < 2 ^ 32 → payloadsBelow (2 ^ 37 - 63) t = true
  | .address _, _ => rfl
  | .int _, _ => rfl
  | .uint _, _ => rfl
  | .bool _, _ => rfl
  | .fixedBytes b, h => by
      simp only [size, roundUp] at h; simp only [payloadsBelow, decide_eq_true_eq]; omega
  | .bytes b, h => by
      simp only [size, roundUp] at h; simp only [payloadsBelow, decide_eq_true_eq]; omega
  | .string b, h => by
      simp only [size, roundUp] at h; simp only [payloadsBelow, decide_eq_true_eq]; omega
  | .array ts, h => by
      simp only [size] at h; simp only [payloadsBelow]; exact payloadsBelowAll_of_size ts (by omega)
  | .fixedArray ts, h => by
      simp only [size] at h; simp only [payloadsBelow]; exact payloadsBelowAll_of_size ts (by omega)
  | .tuple ts, h => by
      simp only [size] at h; simp only [payloadsBelow]; exact payloadsBelowAll_of_size ts (by omega)
theorem payloadsBelowAll_of_size : ∀ ts : List Token, sizeAll ts < 2 ^ 32 → payloadsBelowAll (2 ^ 37 - 63) ts = true
  | [], _ => rfl
  | t :: ts, h => by
      simp only [sizeAll] at h
      simp only [payloadsBelowAll, Bool.and_eq_true]
      exact ⟨payloadsBelow_of_size t (by omega), payloadsBelowAll_of_size ts (by omega)⟩
end

end Ethabi

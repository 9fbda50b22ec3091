import Verif.Model.Encoder
import Verif.Model.Decoder
import Verif.Proofs.Decode
import Verif.Proofs.Size
/-!
# Tuples and arrays are encoded and decoded like lists
-/
namespace Ethabi.Nested
open Spec

/-! ## Encoding -/

/-- mediates of static values -/
def flat : Mediate → Bool
  | .raw _ => true
  | .rawTuple _ => true
  | _ => false

theorem flat_token (prof : Profile) (t : Token) (m : Mediate) (hs : t.isDynamic = false) (h : encodeToken prof t = .ok m) :
    flat m = true := by
  cases t <;> simp only [encodeToken, Token.isDynamic, Bool.true_eq_false, Res.bind_eq_ok] at h hs
  case fixedArray ts =>
    obtain ⟨ms, _, h⟩ := h
    rw [hs, if_neg (by decide), Res.bind_eq_ok] at h
    obtain ⟨ws, _, h⟩ := h
    cases h; rfl
  case tuple ts =>
    obtain ⟨ms, _, h⟩ := h
    rw [hs, if_neg (by decide)] at h
    cases h; rfl
  all_goals (cases h; rfl)

theorem flat_tokens (prof : Profile) : ∀ (ts : List Token) (ms : List Mediate), Token.anyDynamic ts = false →
    encodeTokens prof ts = .ok ms → ∀ m ∈ ms, flat m = true
  | [], ms, _, h => by cases h; simp
  | t :: ts, ms, hs, h => by
      rw [Token.anyDynamic, Bool.or_eq_false_iff] at hs
      simp only [encodeTokens, Res.bind_eq_ok] at h
      obtain ⟨m, h1, ms', h2, h3⟩ := h
      cases h3
      intro m' hm
      rcases List.mem_cons.1 hm with rfl | hm
      · exact flat_token prof t m' hs.1 h1
      · exact flat_tokens prof ts ms' hs.2 h2 m' hm

theorem tails_flat (prof : Profile) (ms : List Mediate) (h : ∀ m ∈ ms, flat m = true) : Mediate.tails prof ms = .ok [] := by
  induction ms with
  | nil => rfl
  | cons m ms ih =>
    have h1 := h m List.mem_cons_self
    have h2 := ih fun m' hm => h m' (List.mem_cons_of_mem _ hm)
    cases m <;> simp only [flat, Bool.false_eq_true] at h1 <;> simp [Mediate.tails, Mediate.tail, h2]

theorem heads_flat (prof : Profile) (ms : List Mediate) (h : ∀ m ∈ ms, flat m = true) : ∀ acc off, off < 2 ^ 32 →
    Mediate.heads prof ms acc off = .ok (acc ++ Mediate.headsZero ms, off) := by
  induction ms with
  | nil => intro acc off _; simp [Mediate.heads, Mediate.headsZero]
  | cons m ms ih =>
    intro acc off ho
    have h1 := h m List.mem_cons_self
    have h2 := ih (fun m' hm => h m' (List.mem_cons_of_mem _ hm))
    have e : u32add prof off 0 = .ok off := u32add_ok ho
    cases m <;> simp only [flat, Bool.false_eq_true] at h1 <;>
      rw [Mediate.heads, Mediate.tailLen, Res.ok_bind, e, Res.ok_bind, h2 _ _ ho] <;>
      simp [Mediate.headsZero, Mediate.head]

theorem machine_lt {prof : Profile} {bits n k : Nat} (h : machine prof bits n = .ok k) : k < 2 ^ bits := by
  unfold machine at h
  split at h
  · cases h; assumption
  · cases prof
    · cases h
    · cases h; exact Nat.mod_lt _ (Nat.two_pow_pos _)

theorem sumHeadLen_lt (prof : Profile) (ms : List Mediate) : ∀ acc k, acc < 2 ^ 32 → Mediate.sumHeadLen prof ms acc = .ok k →
    k < 2 ^ 32 := by
  induction ms with
  | nil => intro acc k h e; cases e; exact h
  | cons m ms ih =>
    intro acc k _ e
    simp only [Mediate.sumHeadLen, Res.bind_eq_ok] at e
    obtain ⟨a, _, b, h2, h3⟩ := e
    exact ih b k (machine_lt h2) h3

/-- one dynamic value: its offset, which is 32, and its tail -/
theorem assemble_one {prof : Profile} {m : Mediate} {x : List Word} (hh : m.headLen prof = .ok 32)
    (hm : ∀ off, m.head off = [padU32 off]) (h : encodeHeadTail prof [m] = .ok x) :
    ∃ ws, m.tail prof = .ok ws ∧ x = padU32 32 :: ws := by
  simp only [encodeHeadTail, Mediate.assemble, Mediate.sumHeadLen, Mediate.heads, Mediate.tails, hh, hm, Res.ok_bind, Res.bind_eq_ok] at h
  obtain ⟨a, h1, ⟨res, off⟩, ⟨t, _, b, _, h2⟩, ts, ⟨ws, h3, h4⟩, h5⟩ := h
  have : a = 32 := by
    have e : u32add prof 0 32 = .ok 32 := u32add_ok (by decide)
    obtain ⟨a', h1, h1'⟩ := h1
    rw [e] at h1; cases h1; cases h1'; rfl
  subst this
  cases h2
  cases h4
  cases h5
  exact ⟨ws, h3, by simp⟩

theorem padU32_32 : (padU32 32).1 = Spec.word 32 := padU32_val 32 (by decide)

/-- one static tuple -/
theorem encode_static_tuple {prof : Profile} {ts : List Token} {x : Bytes} (hs : Token.anyDynamic ts = false)
    (h : encode prof [.tuple ts] = .ok x) : encode prof ts = .ok x := by
  simp only [encode, encodeTokens, encodeToken, Res.bind_eq_ok] at h
  obtain ⟨ms, ⟨m, ⟨ms', h1, h2⟩, ms'', h3, h4⟩, ws, h5, h6⟩ := h
  rw [hs, if_neg (by decide)] at h2
  cases h2; cases h3; cases h4
  have hf := flat_tokens prof ts ms' hs h1
  simp only [encodeHeadTail, Mediate.assemble, Mediate.sumHeadLen, Mediate.headLen, Mediate.heads, Mediate.tailLen, Mediate.tails,
    Mediate.tail, Mediate.head, Res.ok_bind, Res.bind_eq_ok] at h5
  obtain ⟨a, ⟨b, hb, c⟩, ⟨res, off⟩, ⟨t, _, hh⟩, h7⟩ := h5
  cases hh
  cases h7
  rw [encode, h1, Res.ok_bind, encodeHeadTail, Mediate.assemble, hb, Res.ok_bind,
    heads_flat prof ms' hf [] b (sumHeadLen_lt prof ms' 0 b (by decide) hb), Res.ok_bind]
  dsimp only
  rw [tails_flat prof ms' hf]
  rw [← h6]
  simp

theorem encode_tuple {prof : Profile} {ts : List Token} {x : Bytes} (h : encode prof [.tuple ts] = .ok x) :
    ∃ y, encode prof ts = .ok y ∧ x = (if tailedAny ts then word 32 else []) ++ y := by
  rw [← anyDynamic_tailed]
  cases hs : Token.anyDynamic ts with
  | false => exact ⟨x, encode_static_tuple hs h, rfl⟩
  | true =>
    simp only [encode, encodeTokens, encodeToken, Res.bind_eq_ok] at h
    obtain ⟨ms, ⟨m, ⟨ms', h1, h2⟩, ms'', h3, h4⟩, ws, h5, h6⟩ := h
    rw [hs, if_pos rfl] at h2
    cases h2; cases h3; cases h4
    obtain ⟨us, h7, rfl⟩ := assemble_one rfl (fun _ => rfl) h5
    refine ⟨flattenWords us, ?_, ?_⟩
    · rw [encode, h1, Res.ok_bind]
      rw [Mediate.tail] at h7
      rw [encodeHeadTail, h7]; rfl
    · cases h6
      rw [flattenWords_cons, padU32_32]; rfl

theorem encode_fixedArray {prof : Profile} {ts : List Token} {x : Bytes} (h : encode prof [.fixedArray ts] = .ok x) :
    ∃ y, encode prof ts = .ok y ∧ x = (if tailedAny ts then word 32 else []) ++ y := by
  rw [← anyDynamic_tailed]
  cases hs : Token.anyDynamic ts with
  | false =>
    simp only [encode, encodeTokens, encodeToken, hs, Bool.false_eq_true, if_false, Res.bind_eq_ok] at h
    obtain ⟨ms, ⟨m, ⟨ms', h1, us, h2, h2'⟩, ms'', h3, h4⟩, ws, h5, h6⟩ := h
    cases h2'; cases h3; cases h4
    refine ⟨x, ?_, rfl⟩
    simp only [encodeHeadTail, Mediate.assemble, Mediate.sumHeadLen, Mediate.heads, Mediate.tails, Mediate.tail, Mediate.head,
      Res.ok_bind, Res.bind_eq_ok] at h5
    obtain ⟨a, _, ⟨res, off⟩, ⟨t, _, b, _, hh⟩, h7⟩ := h5
    cases hh
    cases h7
    rw [encode, h1, Res.ok_bind, h2, Res.ok_bind, ← h6]
    simp
  | true =>
    simp only [encode, encodeTokens, encodeToken, hs, if_true, Res.bind_eq_ok] at h
    obtain ⟨ms, ⟨m, ⟨ms', h1, h2⟩, ms'', h3, h4⟩, ws, h5, h6⟩ := h
    cases h2; cases h3; cases h4
    obtain ⟨us, h7, rfl⟩ := assemble_one rfl (fun _ => rfl) h5
    refine ⟨flattenWords us, ?_, ?_⟩
    · rw [encode, h1, Res.ok_bind]
      rw [Mediate.tail] at h7
      rw [encodeHeadTail, h7]; rfl
    · cases h6
      rw [flattenWords_cons, padU32_32]; rfl

theorem encodeTokens_length {prof : Profile} : ∀ (ts : List Token) (ms : List Mediate), encodeTokens prof ts = .ok ms →
    ms.length = ts.length
  | [], ms, h => by cases h; rfl
  | t :: ts, ms, h => by
      simp only [encodeTokens, Res.bind_eq_ok] at h
      obtain ⟨m, _, ms', h2, h3⟩ := h
      cases h3
      rw [List.length_cons, List.length_cons, encodeTokens_length ts ms' h2]

theorem encode_array {prof : Profile} {ts : List Token} {x : Bytes} (h : encode prof [.array ts] = .ok x) :
    ∃ y, encode prof ts = .ok y ∧ x = word 32 ++ word (ts.length % 2 ^ 32) ++ y := by
  simp only [encode, encodeTokens, encodeToken, Res.bind_eq_ok] at h
  obtain ⟨ms, ⟨m, ⟨ms', h1, h2⟩, ms'', h3, h4⟩, ws, h5, h6⟩ := h
  cases h2; cases h3; cases h4
  obtain ⟨us, h7, rfl⟩ := assemble_one rfl (fun _ => rfl) h5
  simp only [Mediate.tail, Res.bind_eq_ok] at h7
  obtain ⟨vs, h8, h9⟩ := h7
  cases h9
  refine ⟨flattenWords vs, ?_, ?_⟩
  · rw [encode, h1, Res.ok_bind, encodeHeadTail, h8]; rfl
  · cases h6
    rw [flattenWords_cons, flattenWords_cons, padU32_32, encodeTokens_length ts ms' h1]
    have : (padU32 (asU32 ts.length)).1 = word (ts.length % 2 ^ 32) := padU32_val _ (Nat.mod_lt _ (by decide))
    rw [this, List.append_assoc]

/-! ## Decoding -/

theorem at_start (a b : Bytes) : At (a ++ b) 0 a := ⟨b, rfl⟩
theorem at_after (a b c : Bytes) (n : Nat) (h : a.length = n) : At (a ++ b ++ c) n b := by
  subst h
  exact ⟨c, by simp⟩

theorem sliceFrom_append (a b : Bytes) (n : Nat) (h : a.length = n) : sliceFrom (a ++ b) n = .ok b := by
  subst h
  simp [sliceFrom]

theorem decodeLoop_replicate (prof : Profile) (t : ParamType) (data : Bytes) : ∀ n off,
    decodeLoop (fun o => decodeParam prof t data o) n off = decodeParams prof (List.replicate n t) data off
  | 0, off => rfl
  | n + 1, off => by
      rw [decodeLoop, List.replicate_succ, decodeParams]
      congr 1
      funext ⟨tok, off1⟩
      dsimp only
      rw [decodeLoop_replicate prof t data n off1]

theorem decode_nonempty (prof : Profile) (ts : List ParamType) {data : Bytes} (h : data ≠ []) :
    decode prof ts data = (do let (toks, _) ← decodeParams prof ts data 0; .ok toks) := by
  have : data.isEmpty = false := by simpa using h
  simp [decode, this]

theorem decode_one (prof : Profile) (t : ParamType) {data : Bytes} (h : data ≠ []) :
    decode prof [t] data = (do let (tok, _) ← decodeParam prof t data 0; .ok [tok]) := by
  rw [decode_nonempty prof [t] h]
  simp only [decodeParams]
  cases decodeParam prof t data 0 <;> rfl

theorem at_drop {data b c : Bytes} {o : Nat} (h : data.drop o = b ++ c) : At data o b := by
  refine ⟨c, ?_⟩
  rw [h]

theorem decode_static_tuple (prof : Profile) (ts : List ParamType) {data : Bytes} (hs : ParamType.anyDynamic ts = false)
    (hd : data ≠ []) : decode prof [.tuple ts] data = (do let xs ← decode prof ts data; .ok [.tuple xs]) := by
  rw [decode_one prof _ hd, decode_nonempty prof ts hd, decodeParam, hs, if_neg (by decide)]
  cases decodeParams prof ts data 0 <;> rfl

theorem decode_static_fixedArray (prof : Profile) (t : ParamType) (k : Nat) {data : Bytes} (hs : t.isDynamic = false)
    (hd : data ≠ []) :
    decode prof [.fixedArray t k] data = (do let xs ← decode prof (List.replicate k t) data; .ok [.fixedArray xs]) := by
  rw [decode_one prof _ hd, decode_nonempty prof _ hd, decodeParam, hs, if_neg (by decide), decodeLoop_replicate]
  cases decodeParams prof (List.replicate k t) data 0 <;> rfl

theorem usize_zero_32 (prof : Profile) : usizeAdd prof 0 32 = .ok 32 := usizeAdd_ok (by decide)

theorem decode_dynamic_tuple (prof : Profile) (ts : List ParamType) {data rest d : Bytes} {o : Nat}
    (hs : ParamType.anyDynamic ts = true) (hl : data.length < 2 ^ 64) (h1 : data = word o ++ rest) (ho : o < 2 ^ 32)
    (h2 : data.drop o = d) (hd : d ≠ []) :
    decode prof [.tuple ts] data = (do let xs ← decode prof ts d; .ok [.tuple xs]) := by
  have hne : data ≠ [] := by intro e; subst e; simp at h2; exact hd h2
  have hle : o ≤ data.length := by
    rcases Nat.lt_or_ge data.length o with h | h
    · rw [List.drop_eq_nil_of_le (Nat.le_of_lt h)] at h2; exact absurd h2.symm hd
    · exact h
  have hp : peek32 prof data 0 = .ok (wordOf o) := peek32_word (at_drop (c := rest) (by simpa using h1)) hl
  rw [decode_one prof _ hne, decode_nonempty prof ts hd, decodeParam, hs, if_pos rfl, hp, Res.ok_bind, asUsize_word ho, Res.ok_bind,
    if_neg (by omega), sliceFrom, if_pos hle, h2, Res.ok_bind, usize_zero_32]
  cases decodeParams prof ts d 0 <;> rfl

theorem decode_dynamic_fixedArray (prof : Profile) (t : ParamType) (k : Nat) {data rest d : Bytes} {o : Nat}
    (hs : t.isDynamic = true) (hl : data.length < 2 ^ 64) (h1 : data = word o ++ rest) (ho : o < 2 ^ 32)
    (h2 : data.drop o = d) (hd : d ≠ []) :
    decode prof [.fixedArray t k] data = (do let xs ← decode prof (List.replicate k t) d; .ok [.fixedArray xs]) := by
  have hne : data ≠ [] := by intro e; subst e; simp at h2; exact hd h2
  have hle : o ≤ data.length := by
    rcases Nat.lt_or_ge data.length o with h | h
    · rw [List.drop_eq_nil_of_le (Nat.le_of_lt h)] at h2; exact absurd h2.symm hd
    · exact h
  have hp : peek32 prof data 0 = .ok (wordOf o) := peek32_word (at_drop (c := rest) (by simpa using h1)) hl
  rw [decode_one prof _ hne, decode_nonempty prof _ hd, decodeParam, hs, if_pos rfl, hp, Res.ok_bind, asUsize_word ho, Res.ok_bind,
    sliceFrom, if_pos hle, h2, Res.ok_bind, decodeLoop_replicate, usize_zero_32]
  cases decodeParams prof (List.replicate k t) d 0 <;> rfl

theorem decode_array (prof : Profile) (t : ParamType) {data rest d : Bytes} {o n : Nat}
    (hl : data.length < 2 ^ 64) (h1 : data = word o ++ rest) (ho : o < 2 ^ 32) (hn : n < 2 ^ 32)
    (h2 : data.drop o = word n ++ d) (hd : d ≠ []) :
    decode prof [.array t] data = (do let xs ← decode prof (List.replicate n t) d; .ok [.array xs]) := by
  have hne : data ≠ [] := by
    intro e
    have := congrArg List.length h1
    rw [e, List.length_append, length_word] at this
    simp at this
    omega
  have hlen := congrArg List.length h2
  rw [List.length_drop, List.length_append, length_word] at hlen
  have h3 : data.drop (o + 32) = d := by
    rw [← List.drop_drop, h2, List.drop_append_of_le_length (by simp), List.drop_of_length_le (by simp), List.nil_append]
  have hp : peek32 prof data 0 = .ok (wordOf o) := peek32_word (at_drop (c := rest) (by simpa using h1)) hl
  have hq : peek32 prof data o = .ok (wordOf n) := peek32_word (at_drop h2) hl
  rw [decode_one prof _ hne, decode_nonempty prof _ hd, decodeParam, hp, Res.ok_bind, asUsize_word ho, Res.ok_bind, hq, Res.ok_bind,
    asUsize_word hn, Res.ok_bind, usizeAdd_ok (by omega), Res.ok_bind, sliceFrom, if_pos (by omega), h3, Res.ok_bind,
    decodeLoop_replicate, usize_zero_32]
  cases decodeParams prof (List.replicate n t) d 0 <;> rfl

end Ethabi.Nested

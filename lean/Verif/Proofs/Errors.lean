import Verif.Spec.Errors
import Verif.Proofs.TokenText
/-! # Lemmas for C93: why a text is refused -/
namespace Ethabi.Errors
open Spec TokenText

theorem bind_eq_err {α β : Type} {x : Res α} {f : α → Res β} {e : Err} :
    (x >>= f) = .err e ↔ x = .err e ∨ ∃ a, x = .ok a ∧ f a = .err e := by
  cases x <;> simp

theorem map_eq_err {α β : Type} {f : α → β} {x : Res α} {e : Err} : (f <$> x) = .err e ↔ x = .err e := by
  cases x <;> simp

theorem strSlice_not_err {s : Str} {a b : Nat} {e : Err} : strSlice s a b ≠ .err e := by
  unfold strSlice
  intro h
  repeat' split at h
  all_goals cases h

/-! ### hexadecimal texts -/

theorem hexDecode_err_hex : ∀ (n : Nat) (s : Str) (e : Err), s.length ≤ n → hexDecode s = .err e → e = .hex
  | _, [], e, _, h => by simp [hexDecode] at h
  | _, [_], e, _, h => by rw [hexDecode] at h; cases h; rfl
  | 0, _ :: _ :: _, _, hn, _ => by simp at hn
  | n + 1, a :: b :: cs, e, hn, h => by
    rw [hexDecode] at h
    split at h
    · rcases bind_eq_err.1 h with h | ⟨r, -, h⟩
      · exact hexDecode_err_hex n cs e (by simp at hn; omega) h
      · cases h
    · cases h; rfl

theorem hexDecode_not_panic : ∀ (n : Nat) (s : Str), s.length ≤ n → hexDecode s ≠ .panic
  | _, [], _, h => by simp [hexDecode] at h
  | _, [_], _, h => by rw [hexDecode] at h; cases h
  | 0, _ :: _ :: _, hn, _ => by simp at hn
  | n + 1, a :: b :: cs, hn, h => by
    rw [hexDecode] at h
    split at h
    · rcases bind_eq_panic.1 h with h | ⟨r, -, h⟩
      · exact hexDecode_not_panic n cs (by simp at hn; omega) h
      · cases h
    · cases h

theorem hexDecode_err {s : Str} {e : Err} : hexDecode s = .err e ↔ e = .hex ∧ notHex s := by
  unfold notHex
  simp only [← hexDecode_iff]
  constructor
  · intro h
    exact ⟨hexDecode_err_hex _ s e le_rfl h, fun b hb => by rw [h] at hb; cases hb⟩
  · rintro ⟨rfl, h⟩
    cases hs : hexDecode s with
    | ok b => exact absurd hs (h b)
    | panic => exact absurd hs (hexDecode_not_panic _ s le_rfl)
    | err e => rw [hexDecode_err_hex _ s e le_rfl hs]

/-- a hexadecimal text of exactly `n` bytes -/
theorem hexLen_err {α : Type} {s : Str} {n : Nat} {e : Err} {f : Bytes → Res α} (h1 : ∀ b : Bytes, b.length = n → ∃ a, f b = .ok a)
    (h2 : ∀ b : Bytes, b.length ≠ n → f b = .err .invalidData) :
    (hexDecode s >>= f) = .err e ↔ e = .hex ∧ notHex s ∨ e = .invalidData ∧ hexOfOtherLength s n := by
  rw [bind_eq_err, hexDecode_err]
  unfold hexOfOtherLength
  simp only [← hexDecode_iff]
  refine or_congr Iff.rfl ⟨?_, ?_⟩
  · rintro ⟨b, hb, h⟩
    by_cases hl : b.length = n
    · obtain ⟨a, ha⟩ := h1 b hl
      rw [ha] at h; cases h
    · rw [h2 b hl] at h
      cases h
      exact ⟨rfl, b, hb, hl⟩
  · rintro ⟨rfl, b, hb, hl⟩
    exact ⟨b, hb, h2 b hl⟩

theorem strictUint_err {s : Str} {e : Err} :
    strictUint s = .err e ↔ e = .hex ∧ notHex s ∨ e = .invalidData ∧ hexOfOtherLength s 32 := by
  rw [strictUint]
  exact hexLen_err (fun b h => ⟨⟨b, h⟩, by rw [dif_pos h]⟩) (fun b h => by rw [dif_neg h])

/-! ### lists -/

theorem readParts_err {value : Str} {item : Nat → Str → Res Token} {fine : Bool} {e : Err} :
    ∀ {sp : List (Nat × Nat)} {result : List Token}, readParts value item fine sp result = .err e ↔
      (∃ now ab later us ts u, sp = now ++ ab :: later ∧
        List.Forall₂ (fun ab u => partOf value ab.1 ab.2 u) now us ∧ partOf value ab.1 ab.2 u ∧
        eachPiece item result.length us = .ok ts ∧ item (result.length + us.length) u = .err e) ∨
      (e = .invalidData ∧ fine = false ∧ ∃ us ts, List.Forall₂ (fun ab u => partOf value ab.1 ab.2 u) sp us ∧
        eachPiece item result.length us = .ok ts)
  | [], result => by
    have h0 : ¬ ∃ now ab later us ts u, ([] : List (Nat × Nat)) = now ++ ab :: later ∧
        List.Forall₂ (fun ab u => partOf value ab.1 ab.2 u) now us ∧ partOf value ab.1 ab.2 u ∧
        eachPiece item result.length us = .ok ts ∧ item (result.length + us.length) u = .err e := by
      rintro ⟨now, ab, later, us, ts, u, h, -⟩
      simp at h
    rw [or_iff_right h0]
    cases fine with
    | true => simp [readParts]
    | false =>
      simp only [readParts, Bool.false_eq_true, if_false, Res.err.injEq, List.forall₂_nil_left_iff, true_and]
      constructor
      · rintro rfl; exact ⟨rfl, [], [], rfl, rfl⟩
      · rintro ⟨rfl, -⟩; rfl
  | ab :: sp, result => by
    rw [readParts, bind_eq_err]
    have ih := fun r => readParts_err (value := value) (item := item) (fine := fine) (e := e) (sp := sp) (result := r)
    constructor
    · rintro (h | ⟨u, hu, h⟩)
      · exact absurd h strSlice_not_err
      · rw [strSlice_iff] at hu
        rw [bind_eq_err] at h
        rcases h with h | ⟨t, ht, h⟩
        · exact Or.inl ⟨[], ab, sp, [], [], u, rfl, .nil, hu, rfl, h⟩
        · rcases (ih _).1 h with ⟨now, ab', later, us, ts, v, rfl, h1, h2, h3, h4⟩ | ⟨h0, h1, us, ts, h2, h3⟩
          · rw [List.length_append, List.length_singleton] at h3 h4
            refine Or.inl ⟨ab :: now, ab', later, u :: us, t :: ts, v, rfl, .cons hu h1, h2, ?_, ?_⟩
            · rw [eachPiece, ht, Res.ok_bind, h3]; rfl
            · rw [List.length_cons]
              rwa [Nat.add_assoc, Nat.add_comm 1] at h4
          · rw [List.length_append, List.length_singleton] at h3
            refine Or.inr ⟨h0, h1, u :: us, t :: ts, .cons hu h2, ?_⟩
            rw [eachPiece, ht, Res.ok_bind, h3]; rfl
    · rintro (⟨now, ab', later, us, ts, v, hsp, h1, h2, h3, h4⟩ | ⟨h0, h1, us, ts, h2, h3⟩)
      · cases h1 with
        | nil =>
          simp only [List.nil_append, List.cons.injEq] at hsp
          obtain ⟨rfl, rfl⟩ := hsp
          exact Or.inr ⟨v, strSlice_iff.2 h2, bind_eq_err.2 (Or.inl h4)⟩
        | @cons _ u now' us' hu h1 =>
          simp only [List.cons_append, List.cons.injEq] at hsp
          obtain ⟨rfl, rfl⟩ := hsp
          right
          rw [eachPiece, Res.bind_eq_ok] at h3
          obtain ⟨t, ht, h3⟩ := h3
          obtain ⟨ts', h3, -⟩ := Res.bind_eq_ok.1 h3
          refine ⟨u, strSlice_iff.2 hu, bind_eq_err.2 (Or.inr ⟨t, ht, (ih _).2 (Or.inl ?_)⟩)⟩
          rw [List.length_append, List.length_singleton]
          refine ⟨now', ab', later, us', ts', v, rfl, h1, h2, h3, ?_⟩
          rw [List.length_cons] at h4
          rwa [Nat.add_assoc, Nat.add_comm 1]
      · cases h2 with
        | @cons _ u _ us' hu h2 =>
          rw [eachPiece, Res.bind_eq_ok] at h3
          obtain ⟨t, ht, h3⟩ := h3
          obtain ⟨ts', h3, -⟩ := Res.bind_eq_ok.1 h3
          refine Or.inr ⟨u, strSlice_iff.2 hu, bind_eq_err.2 (Or.inr ⟨t, ht, (ih _).2 (Or.inr ⟨h0, h1, us', ts', h2, ?_⟩)⟩)⟩
          rw [List.length_append, List.length_singleton]; exact h3

theorem part_some {s : Str} {ab : Nat × Nat} {u : Str} :
    (∀ v, some u = some v ↔ partOf s ab.1 ab.2 v) ↔ partOf s ab.1 ab.2 u := by
  constructor
  · intro h; exact (h u).1 rfl
  · intro h v
    constructor
    · intro e; rw [← Option.some.inj e]; exact h
    · intro hv; rw [partOf_unique h hv]

theorem tokenizePieces_err {o c : Char} (hb : Brackets o c) {s : Str} {item : Nat → Str → Res Token} {e : Err} :
    tokenizePieces o c s item = .err e ↔ e = .invalidData ∧ ¬ bracketed o c s ∨
      (∃ us ts u, partsThen o c s us (some u) ∧ eachPiece item 0 us = .ok ts ∧ item us.length u = .err e) ∨
      e = .invalidData ∧ ∃ us ts, unmatched o c s us ∧ eachPiece item 0 us = .ok ts := by
  unfold tokenizePieces partsThen unmatched
  obtain ⟨hs1, hs2⟩ := scan_all hb s
  rw [pieceLoop_scan, hs1]
  have hbr : bracketed o c s ↔ ¬ (¬ s.head? = some o ∨ ¬ s.getLast? = some c) := by
    unfold bracketed; rw [not_or, not_not, not_not]
  split
  · rename_i h
    have hn : ¬ bracketed o c s := fun h' => (hbr.1 h') h
    constructor
    · intro h; cases h; exact Or.inl ⟨rfl, hn⟩
    · rintro (⟨rfl, -⟩ | ⟨us, ts, u, ⟨h, -⟩, -⟩ | ⟨-, us, ts, ⟨h, -⟩, -⟩)
      · rfl
      · exact absurd h hn
      · exact absurd h hn
  · rename_i h
    have hn : bracketed o c s := hbr.2 h
    split
    · rename_i hl
      constructor
      · intro h; cases h
      · rintro (⟨-, h⟩ | ⟨us, ts, u, ⟨-, h, -⟩, -⟩ | ⟨-, us, ts, ⟨-, h, -⟩, -⟩)
        · exact absurd hn h
        · exact absurd hl h
        · exact absurd hl h
    · rename_i hl
      have hfine : (scan o c s 0 0 false).2 = false ↔ sound o c s s.length = false ∨ quoted s = true := by
        rw [← Bool.not_eq_true, hs2, not_and_or, Bool.not_eq_true, Bool.not_eq_false]
      rw [readParts_err, hfine]
      simp only [List.length_nil, Nat.zero_add]
      constructor
      · rintro (⟨now, ab, later, us, ts, u, h1, h2, h3, h4, h5⟩ | ⟨rfl, h1, us, ts, h2, h3⟩)
        · exact Or.inr (Or.inl ⟨us, ts, u, ⟨hn, hl, now, ab, later, h1, h2, part_some.2 h3⟩, h4, h5⟩)
        · exact Or.inr (Or.inr ⟨rfl, us, ts, ⟨hn, hl, h2, h1⟩, h3⟩)
      · rintro (⟨-, h⟩ | ⟨us, ts, u, ⟨-, -, now, ab, later, h1, h2, h3⟩, h4, h5⟩ | ⟨rfl, us, ts, ⟨-, -, h2, h1⟩, h3⟩)
        · exact absurd hn h
        · exact Or.inl ⟨now, ab, later, us, ts, u, h1, h2, part_some.1 h3, h4, h5⟩
        · exact Or.inr ⟨rfl, h1, us, ts, h2, h3⟩

/-! ### numbers -/

theorem uint_err (m : Tokenizer) (bits : Nat) (s : Str) (e : Err) :
    tokenize m (.uint bits) s = .err e ↔ fails m (.uint bits) s e := by
  rw [fails]
  cases m with
  | strict =>
    rw [tokenize, map_eq_err, tokenizeUint, strictUint_err]
    simp
  | lenient =>
    simp only [reduceCtorEq, false_and, false_or, true_and]
    cases hf : isFullHex s with
    | true =>
      obtain ⟨hl, n, hn⟩ := fullHex_iff.1 hf
      rw [tokenize_hex_uint .lenient bits s n hl hn]
      simp
    | false =>
      rw [tokenize_lenient_uint bits s hf]
      cases hd : decimal s with
      | none => simp [eq_comm]
      | some v =>
        simp only [Option.some.injEq, forall_eq', true_and]
        split
        · rename_i hv
          constructor
          · intro h; cases h
          · rintro ⟨-, h⟩; omega
        · rename_i hv
          simp only [Res.err.injEq]
          constructor
          · rintro rfl; exact ⟨rfl, by omega⟩
          · rintro ⟨rfl, -⟩; rfl

theorem int_err (m : Tokenizer) (bits : Nat) (s : Str) (e : Err) :
    tokenize m (.int bits) s = .err e ↔ fails m (.int bits) s e := by
  rw [fails]
  cases m with
  | strict =>
    rw [tokenize, map_eq_err, tokenizeInt, strictInt, strictUint_err]
    simp
  | lenient =>
    simp only [reduceCtorEq, false_and, false_or, true_and]
    cases hf : isFullHex s with
    | true =>
      obtain ⟨hl, n, hn⟩ := fullHex_iff.1 hf
      rw [tokenize_hex_int .lenient bits s n hl hn]
      simp
    | false =>
      rw [tokenize_lenient_int bits s hf]
      cases hd : signedDecimal s with
      | none => simp [eq_comm]
      | some v =>
        simp only [Option.some.injEq, forall_eq', true_and]
        split
        · rename_i hv
          constructor
          · intro h; cases h
          · rintro ⟨-, h⟩; exact absurd hv h
        · rename_i hv
          simp only [Res.err.injEq]
          constructor
          · rintro rfl; exact ⟨rfl, hv⟩
          · rintro ⟨rfl, -⟩; rfl

/-! ### all types -/

mutual
theorem tokenize_err (m : Tokenizer) : ∀ (p : ParamType) (s : Str) (e : Err), tokenize m p s = .err e ↔ fails m p s e
  | .address, s, e => by
    rw [tokenize, map_eq_err, strictAddress, fails]
    exact hexLen_err (fun b h => ⟨⟨b, h⟩, by rw [dif_pos h]⟩) (fun b h => by rw [dif_neg h])
  | .bytes, s, e => by rw [tokenize, map_eq_err, strictBytes, fails, hexDecode_err]
  | .fixedBytes n, s, e => by
    rw [tokenize, map_eq_err, strictFixedBytes, fails]
    exact hexLen_err (fun b h => ⟨b, by rw [if_pos h]⟩) (fun b h => by rw [if_neg h])
  | .string, s, e => by rw [tokenize, map_eq_err, strictString, fails]; simp
  | .bool, s, e => by
    rw [tokenize, map_eq_err, strictBool, fails]
    split
    · rename_i h
      rcases h with h | h <;> simp [h]
    · rename_i h1
      split
      · rename_i h
        rcases h with h | h <;> simp [h]
      · rename_i h2
        rw [not_or] at h1 h2
        simp only [Res.err.injEq, List.mem_cons, h1, h2, List.not_mem_nil, or_false, not_false_iff, and_true]
        exact eq_comm
  | .uint bits, s, e => uint_err m bits s e
  | .int bits, s, e => int_err m bits s e
  | .array p, s, e => by
    rw [tokenize, map_eq_err, fails, tokenizeArray]
    simp only [tokenizePieces_err square, eachPiece_const, TokenText.forall₂_congr (tokenize_iff m p), tokenize_err m p]
  | .fixedArray p n, s, e => by
    rw [tokenize, map_eq_err, fails, tokenizeFixedArray, bind_eq_err, tokenizeArray]
    simp only [tokenizePieces_err square, tokenizePieces_ok square, eachPiece_const, TokenText.forall₂_congr (tokenize_iff m p),
      tokenize_err m p]
    constructor
    · rintro ((h | h | ⟨rfl, us, ts, h1, h2⟩) | ⟨ts, ⟨us, h1, h2⟩, h3⟩)
      · exact Or.inl h
      · exact Or.inr (Or.inl h)
      · exact Or.inr (Or.inr ⟨rfl, us, ts, Or.inl h1, h2⟩)
      · split at h3
        · cases h3
        · rename_i hl
          cases h3
          rw [← h2.length_eq] at hl
          exact Or.inr (Or.inr ⟨rfl, us, ts, Or.inr ⟨h1, hl⟩, h2⟩)
    · rintro (h | h | ⟨rfl, us, ts, h1 | ⟨h1, hl⟩, h2⟩)
      · exact Or.inl (Or.inl h)
      · exact Or.inl (Or.inr (Or.inl h))
      · exact Or.inl (Or.inr (Or.inr ⟨rfl, us, ts, h1, h2⟩))
      · exact Or.inr ⟨ts, ⟨us, h1, h2⟩, by rw [h2.length_eq] at hl; rw [if_neg hl]⟩
  | .tuple ps, s, e => by
    rw [tokenize, map_eq_err, fails, tokenizeStruct_eq]
    have key := fun us ts => (eachPiece_members (m := m) (ps := us) (i := 0) (qs := ps) (qs' := ps) (ts := ts)
      (by simp) (by simp)).trans (tokenizeEach_iff m ps us ts)
    simp only [tokenizePieces_err round, key, member_err m ps]
theorem member_err (m : Tokenizer) : ∀ (ps : List ParamType) (i : Nat) (u : Str) (e : Err),
    memberItem m ps i u = .err e ↔ failsAt m ps i u e
  | [], i, u, e => by simp [memberItem, failsAt, eq_comm]
  | p :: ps, 0, u, e => by
    rw [failsAt]
    exact tokenize_err m p u e
  | p :: ps, i + 1, u, e => by
    rw [failsAt]
    exact member_err m ps i u e
end

end Ethabi.Errors

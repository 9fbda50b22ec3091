import Verif.Proofs.DecoderCount
import Verif.Proofs.Slice
import Verif.Model.TokenizerCount
import Verif.Spec.TokenizeWork
/-! # The work of the tokenizers -/
namespace Ethabi.TokenizerCount
open Spec Counted ReaderCount DecoderCount

/-! ### the results are those of the tokenizers -/

theorem res_loop (opn cls : Char) (value : Str) (item : Nat → Str → Counted Token) :
    ∀ (cs : Str) (pos : Nat) (nested : Int) (ignore : Bool) (last : Nat) (result : List Token),
      (pieceLoopCount opn cls value item cs pos nested ignore last result).res =
        pieceLoop opn cls value (fun i s => (item i s).res) cs pos nested ignore last result
  | [], _, _, ignore, _, _ => by cases ignore <;> rfl
  | ch :: cs, pos, nested, ignore, last, result => by
    rw [pieceLoopCount, pieceLoop]
    simp only [res_bind, res_spend, Res.ok_bind, res_ite, res_free, res_loop opn cls value item cs]

theorem res_pieces (opn cls : Char) (value : Str) (item : Nat → Str → Counted Token) :
    (tokenizePiecesCount opn cls value item).res = tokenizePieces opn cls value (fun i s => (item i s).res) := by
  rw [tokenizePiecesCount, tokenizePieces]
  simp only [res_bind, res_spend, Res.ok_bind, res_ite, res_free, res_loop]

theorem res_struct (value : Str) (fs : List (Str → Counted Token)) :
    (tokenizeStructCount value fs).res = tokenizeStruct value (fs.map fun f v => (f v).res) := by
  rw [tokenizeStructCount, tokenizeStruct, res_pieces]
  congr 1
  funext i s
  rw [List.getElem?_map]
  cases fs[i]? <;> rfl

theorem map_ok {α β : Type} (x : Res α) (f : α → β) : (x >>= fun a => .ok (f a)) = f <$> x := rfl

mutual
theorem res_tokenize (m : Tokenizer) : ∀ (t : ParamType) (v : Str), (tokenizeCount m t v).res = tokenize m t v
  | .address, _ => rfl
  | .string, _ => rfl
  | .bool, _ => rfl
  | .bytes, _ => rfl
  | .fixedBytes _, _ => rfl
  | .uint _, _ => rfl
  | .int _, _ => rfl
  | .array p, v => by
    have e : (fun (_ : Nat) s => (tokenizeCount m p s).res) = fun _ sub => tokenize m p sub :=
      funext fun _ => funext (res_tokenize m p)
    simp only [tokenizeCount, tokenize, res_bind, res_spend, Res.ok_bind, res_free, tokenizeArrayCount, tokenizeArray, res_pieces, e]
    rfl
  | .fixedArray p len, v => by
    have e : (fun (_ : Nat) s => (tokenizeCount m p s).res) = fun _ sub => tokenize m p sub :=
      funext fun _ => funext (res_tokenize m p)
    simp only [tokenizeCount, tokenize, res_bind, res_spend, Res.ok_bind, res_free, tokenizeFixedArrayCount, tokenizeFixedArray,
      tokenizeArrayCount, tokenizeArray, res_pieces, res_ite, e]
    rfl
  | .tuple ps, v => by
    simp only [tokenizeCount, tokenize, res_bind, res_spend, Res.ok_bind, res_free, res_struct, res_tokenizers m ps]
    rfl
theorem res_tokenizers (m : Tokenizer) : ∀ (ps : List ParamType),
    (tokenizersCount m ps).map (fun f v => (f v).res) = tokenizers m ps
  | [] => rfl
  | p :: ps => by
    rw [tokenizersCount, tokenizers, List.map_cons, res_tokenizers m ps]
    congr 1
    funext v
    exact res_tokenize m p v
end

/-! ### the bound -/

theorem loop_work (opn cls : Char) (value : Str) (item : Nat → Str → Counted Token) (c : Nat)
    (hi : ∀ i s, (item i s).work ≤ c * (byteLen s + 1)) :
    ∀ (cs : Str) (pos : Nat) (nested : Int) (ignore : Bool) (last : Nat) (result : List Token),
      (pieceLoopCount opn cls value item cs pos nested ignore last result).work ≤ byteLen cs + c * (pos + cs.length - last)
  | [], _, _, ignore, _, _ => by cases ignore <;> exact Nat.zero_le _
  | ch :: cs, pos, nested, ignore, last, result => by
    have ih := loop_work opn cls value item c hi cs
    have skip : ∀ nested' ignore', (pieceLoopCount opn cls value item cs (pos + 1) nested' ignore' last result).work ≤
        byteLen cs + c * (pos + (ch :: cs).length - last) := by
      intro n i
      have := ih (pos + 1) n i last result
      rwa [Nat.add_right_comm, Nat.add_assoc] at this
    have piece : ∀ nested', (free (strSlice value last pos) >>= fun sub => item result.length sub >>= fun token =>
        pieceLoopCount opn cls value item cs (pos + 1) nested' ignore (pos + 1) (result ++ [token])).work ≤
        byteLen cs + c * (pos + (ch :: cs).length - last) := by
      intro n
      refine free_bind_le fun sub hs => ?_
      obtain ⟨h1, h2, -, -⟩ := strSlice_ok hs
      have h3 := hi result.length sub
      have e : c * (pos + (ch :: cs).length - last) = c * (byteLen sub + 1) + c * cs.length := by
        rw [← Nat.mul_add, h1, List.length_cons]; congr 1; omega
      have h4 : (item result.length sub >>= fun token =>
          pieceLoopCount opn cls value item cs (pos + 1) n ignore (pos + 1) (result ++ [token])).work ≤
          (item result.length sub).work + (byteLen cs + c * cs.length) := by
        refine work_bind_le fun token _ => ?_
        have := ih (pos + 1) n ignore (pos + 1) (result ++ [token])
        rwa [Nat.add_sub_cancel_left] at this
      omega
    rw [pieceLoopCount, spend_bind, byteLen, Nat.add_assoc]
    refine Nat.add_le_add_left ?_ _
    split
    · exact skip _ _
    · split
      · split
        · exact Nat.zero_le _
        · split
          · exact piece _
          · exact skip _ _
      · split
        · exact skip _ _
        · split
          · exact piece _
          · exact skip _ _

theorem length_le_byteLen : ∀ s : Str, s.length ≤ byteLen s
  | [] => Nat.le_refl _
  | c :: cs => by
    have := length_le_byteLen cs
    have : 1 ≤ (utf8Char c).length := by
      unfold utf8Char
      simp only []
      split
      · simp
      · split
        · simp
        · split <;> simp
    rw [byteLen, List.length_cons]; omega

theorem pieces_work (opn cls : Char) (value : Str) (item : Nat → Str → Counted Token) (c : Nat)
    (hi : ∀ i s, (item i s).work ≤ c * (byteLen s + 1)) :
    (tokenizePiecesCount opn cls value item).work ≤ (c + 2) * byteLen value := by
  rw [tokenizePiecesCount]
  split
  · exact Nat.zero_le _
  · rw [spend_bind, Nat.add_mul]
    have h1 := loop_work opn cls value item c hi value 0 0 false 1 []
    have h2 : c * (0 + value.length - 1) ≤ c * byteLen value :=
      Nat.mul_le_mul_left _ (by have := length_le_byteLen value; omega)
    split
    · rw [work_free]; omega
    · omega

theorem step (h n : Nat) : 1 + (3 * (h + 1) + 2) * n ≤ 3 * (1 + h + 1) * (n + 1) := by
  have e1 : 3 * (1 + h + 1) * (n + 1) = 3 * (1 + h + 1) * n + 3 * (1 + h + 1) := by rw [Nat.mul_add, Nat.mul_one]
  have e2 : (3 * (h + 1) + 2) * n ≤ 3 * (1 + h + 1) * n := Nat.mul_le_mul_right _ (by omega)
  omega

theorem leaf_work {α : Type} {n k : Nat} {x : Res α} (hk : k ≤ 3) : (spend (1 + k * n) >>= fun _ => free x).work ≤ 3 * (0 + 1) * (n + 1) := by
  rw [spend_bind, work_free]
  have : k * n ≤ 3 * n := Nat.mul_le_mul_right _ hk
  omega

theorem leaf_one {α : Type} {n : Nat} {x : Res α} : (spend (1 + n) >>= fun _ => free x).work ≤ 3 * (0 + 1) * (n + 1) := by
  rw [spend_bind, work_free]
  omega

theorem then_free {α β : Type} {x : Counted α} {f : α → Res β} : (x >>= fun a => free (f a)).work ≤ x.work :=
  Nat.le_trans (work_bind_le (m := 0) fun _ _ => Nat.le_refl _) (Nat.le_refl _)

mutual
theorem work_tokenize (m : Tokenizer) : ∀ (t : ParamType) (v : Str),
    (tokenizeCount m t v).work ≤ 3 * (nesting t + 1) * (byteLen v + 1)
  | .address, _ => leaf_one
  | .string, _ => leaf_one
  | .bool, _ => leaf_one
  | .bytes, _ => leaf_one
  | .fixedBytes _, _ => leaf_one
  | .uint _, v => leaf_work (by unfold uintPasses; split <;> omega)
  | .int _, v => leaf_work (by unfold intPasses; split <;> omega)
  | .array p, v => by
    rw [tokenizeCount, nesting, spend_bind]
    have h1 := pieces_work '[' ']' v (fun _ sub => tokenizeCount m p sub) _ (fun _ s => work_tokenize m p s)
    have h2 := then_free (x := tokenizeArrayCount v (tokenizeCount m p)) (f := fun ts => Res.ok (Token.array ts))
    exact Nat.le_trans (Nat.add_le_add_left (Nat.le_trans h2 h1) 1) (step _ _)
  | .fixedArray p len, v => by
    rw [tokenizeCount, nesting, spend_bind]
    have h1 := pieces_work '[' ']' v (fun _ sub => tokenizeCount m p sub) _ (fun _ s => work_tokenize m p s)
    have h2 := then_free (x := tokenizeFixedArrayCount v (tokenizeCount m p) len) (f := fun ts => Res.ok (Token.fixedArray ts))
    have h3 : (tokenizeFixedArrayCount v (tokenizeCount m p) len).work ≤ (tokenizeArrayCount v (tokenizeCount m p)).work + 0 := by
      rw [tokenizeFixedArrayCount]
      refine work_bind_le fun _ _ => ?_
      split <;> exact Nat.le_refl _
    exact Nat.le_trans (Nat.add_le_add_left (Nat.le_trans h2 (Nat.le_trans h3 h1)) 1) (step _ _)
  | .tuple ps, v => by
    rw [tokenizeCount, nesting, spend_bind]
    have h1 : (tokenizeStructCount v (tokenizersCount m ps)).work ≤ (3 * (nestingAll ps + 1) + 2) * byteLen v := by
      refine pieces_work '(' ')' v _ _ fun i s => ?_
      split
      · exact Nat.zero_le _
      · rename_i f hf
        exact work_tokenizers m ps i f hf s
    have h2 := then_free (x := tokenizeStructCount v (tokenizersCount m ps)) (f := fun ts => Res.ok (Token.tuple ts))
    exact Nat.le_trans (Nat.add_le_add_left (Nat.le_trans h2 h1) 1) (step _ _)
theorem work_tokenizers (m : Tokenizer) : ∀ (ps : List ParamType) (i : Nat) (f : Str → Counted Token),
    (tokenizersCount m ps)[i]? = some f → ∀ v, (f v).work ≤ 3 * (nestingAll ps + 1) * (byteLen v + 1)
  | [], _, _, h, _ => by simp [tokenizersCount] at h
  | p :: ps, 0, f, h, v => by
    rw [tokenizersCount] at h
    cases h
    exact Nat.le_trans (work_tokenize m p v) (Nat.mul_le_mul_right _ (by rw [nestingAll]; omega))
  | p :: ps, i + 1, f, h, v => by
    rw [tokenizersCount] at h
    exact Nat.le_trans (work_tokenizers m ps i f h v) (Nat.mul_le_mul_right _ (by rw [nestingAll]; omega))
end

/-! ### brackets within brackets -/

theorem bracketed_length : ∀ k, (inBrackets k).length = 2 * k + 1
  | 0 => rfl
  | k + 1 => by simp only [inBrackets, List.length_cons, List.length_append, bracketed_length k, List.length_nil]; omega

theorem bracketed_ascii : ∀ k, ascii (inBrackets k)
  | 0 => by intro c hc; simp only [inBrackets, List.mem_singleton] at hc; subst hc; decide
  | k + 1 => by
    have := bracketed_ascii k
    intro c hc
    simp only [inBrackets, List.cons_append, List.mem_cons, List.mem_append, List.not_mem_nil, or_false] at hc
    rcases hc with rfl | hc | rfl
    · decide
    · exact this c hc
    · decide

/-- what lies inside brackets is gone over -/
theorem over (value : Str) (item : Nat → Str → Counted Token) : ∀ (j : Nat) (rest : Str) (pos : Nat) (nested : Int) (last : Nat)
    (result : List Token), 1 ≤ nested →
    pieceLoopCount '[' ']' value item (inBrackets j ++ rest) pos nested false last result =
      spend (2 * j + 1) >>= fun _ => pieceLoopCount '[' ']' value item rest (pos + (2 * j + 1)) nested false last result
  | 0, rest, pos, nested, last, result, h => by
    have h1 : ¬ ('x' = '[' ∧ false = false) := by decide
    have h2 : ¬ ('x' = ']' ∧ false = false) := by decide
    have h3 : ¬ ('x' = '"') := by decide
    have h4 : ¬ ('x' = ',' ∧ nested = 1 ∧ false = false) := fun h => absurd h.1 (by decide)
    rw [inBrackets, List.singleton_append, pieceLoopCount, if_neg h1, if_neg h2, if_neg h3, if_neg h4]
    rfl
  | j + 1, rest, pos, nested, last, result, h => by
    have e : inBrackets (j + 1) ++ rest = '[' :: (inBrackets j ++ (']' :: rest)) := by simp [inBrackets]
    have h1 : ¬ (']' = '[' ∧ false = false) := by decide
    have h2 : ¬ (nested + 1 - 1 < 0) := by omega
    have h3 : ¬ (nested + 1 - 1 = 0) := by omega
    rw [e, pieceLoopCount, if_pos (by decide), over value item j _ _ _ _ _ (by omega), pieceLoopCount, if_neg h1,
      if_pos (by decide), if_neg h2, if_neg h3, Int.add_sub_cancel]
    have e1 : pos + 1 + (2 * j + 1) + 1 = pos + (2 * (j + 1) + 1) := by omega
    have e2 : (utf8Char '[').length = 1 := by decide
    have e3 : (utf8Char ']').length = 1 := by decide
    rw [e1, e2, e3]
    show Counted.mk _ _ = Counted.mk _ _
    congr 1
    show 1 + (2 * j + 1 + (1 + _)) = 2 * (j + 1) + 1 + _
    omega

theorem byteLen_bracketed (k : Nat) : byteLen (inBrackets k) = 2 * k + 1 := by
  rw [byteLen_ascii (bracketed_ascii k), bracketed_length]

theorem nested_exact (m : Tokenizer) : ∀ k : Nat,
    (tokenizeCount m (stringArrays k) (inBrackets k)).res = .ok (inArrays k) ∧
    (tokenizeCount m (stringArrays k) (inBrackets k)).work = 2 * (k * k) + 5 * k + 2
  | 0 => ⟨rfl, by rw [stringArrays, tokenizeCount, spend_bind, byteLen_bracketed]; rfl⟩
  | k + 1 => by
    obtain ⟨h1, h2⟩ := nested_exact m k
    have hl := bracketed_length (k + 1)
    have hs : strSlice (inBrackets (k + 1)) 1 (0 + 1 + (2 * k + 1)) = .ok (inBrackets k) := by
      have : inBrackets (k + 1) = ['['] ++ inBrackets k ++ [']'] := by simp [inBrackets]
      rw [this]
      exact strSlice_mid (by rw [← this]; exact bracketed_ascii (k + 1)) rfl
        (by simp only [bracketed_length, List.length_cons, List.length_nil])
    have hh : ¬ (¬ ((inBrackets (k + 1)).head? = some '[') ∨ ¬ ((inBrackets (k + 1)).getLast? = some ']')) := by
      have : inBrackets (k + 1) = ('[' :: inBrackets k) ++ [']'] := rfl
      rw [this, List.getLast?_concat]
      simp
    have key : (tokenizeArrayCount (inBrackets (k + 1)) (tokenizeCount m (stringArrays k))).res = .ok [inArrays k] ∧
        (tokenizeArrayCount (inBrackets (k + 1)) (tokenizeCount m (stringArrays k))).work =
          (2 * k + 3) + ((2 * k + 3) + (2 * (k * k) + 5 * k + 2)) := by
      rw [tokenizeArrayCount, tokenizePiecesCount, if_neg hh, if_neg (by omega), byteLen_bracketed]
      generalize hv : inBrackets (k + 1) = v at hs ⊢
      have hv' : v = '[' :: (inBrackets k ++ [']']) := by rw [← hv]; rfl
      have hloop : pieceLoopCount '[' ']' v (fun _ sub => tokenizeCount m (stringArrays k) sub) v 0 0 false 1 [] =
          ⟨.ok [inArrays k], (2 * k + 3) + (2 * (k * k) + 5 * k + 2)⟩ := by
        conv => lhs; arg 5; rw [hv']
        rw [pieceLoopCount, if_pos (by decide), over _ _ k _ _ _ _ _ (by omega), pieceLoopCount, if_neg (by decide),
          if_pos (by decide), if_neg (by decide), if_pos (by decide), hs]
        have hx : tokenizeCount m (stringArrays k) (inBrackets k) = ⟨.ok (inArrays k), 2 * (k * k) + 5 * k + 2⟩ := by
          rw [← h1, ← h2]
        have e2 : (utf8Char '[').length = 1 := by decide
        have e3 : (utf8Char ']').length = 1 := by decide
        rw [e2, e3]
        change Counted.bind _ (fun _ => Counted.bind _ (fun _ => Counted.bind _ (fun _ => Counted.bind _ (fun sub =>
          Counted.bind (tokenizeCount m (stringArrays k) sub) _)))) = _
        simp only [Counted.bind, spend, free, hx, pieceLoopCount, Bool.false_eq_true, if_false]
        congr 1
        omega
      rw [hloop]
      refine ⟨rfl, ?_⟩
      rw [spend_bind]
      show 2 * (k + 1) + 1 + (2 * k + 3 + (2 * (k * k) + 5 * k + 2)) = _
      omega
    obtain ⟨k1, k2⟩ := key
    have e : (k + 1) * (k + 1) = k * k + 2 * k + 1 := by
      rw [Nat.add_mul, Nat.mul_add, Nat.one_mul, Nat.mul_one]; omega
    refine ⟨?_, ?_⟩
    · rw [stringArrays, tokenizeCount, res_bind, res_spend, Res.ok_bind, res_bind, k1]; rfl
    · have hb : (tokenizeArrayCount (inBrackets (k + 1)) (tokenizeCount m (stringArrays k)) >>= fun ts =>
          free (.ok (Token.array ts))).work = (tokenizeArrayCount (inBrackets (k + 1)) (tokenizeCount m (stringArrays k))).work := by
        change (Counted.bind _ _).work = _
        unfold Counted.bind
        rw [k1]; rfl
      rw [stringArrays, tokenizeCount, spend_bind, hb, k2, e]
      omega

end Ethabi.TokenizerCount

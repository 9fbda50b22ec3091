import Verif.Proofs.ReaderDeep
import Verif.Proofs.ReaderCount
/-! Whatever type the reader yields, it has done at least as much work as the type holds types; and how long the texts of
Proofs/ReaderDeep.lean are. -/
namespace Ethabi.Deep
open Spec Counted

theorem ok_bind {α β : Type} {x : Counted α} {f : α → Counted β} {b : β} (h : (x >>= f).res = .ok b) :
    ∃ a, x.res = .ok a ∧ (f a).res = .ok b ∧ (x >>= f).work = x.work + (f a).work := by
  change (Counted.bind x f).res = _ at h
  change ∃ a, _ ∧ _ ∧ (Counted.bind x f).work = _
  unfold Counted.bind at h ⊢
  cases hx : x.res with
  | ok a => rw [hx] at h; exact ⟨a, rfl, h, rfl⟩
  | err e => rw [hx] at h; cases h
  | panic => rw [hx] at h; cases h

theorem ok_free {α β : Type} {x : Res α} {f : α → Counted β} {b : β} (h : (free x >>= f).res = .ok b) :
    ∃ a, x = .ok a ∧ (f a).res = .ok b ∧ (free x >>= f).work = (f a).work := by
  obtain ⟨a, h1, h2, h3⟩ := ok_bind h
  exact ⟨a, h1, h2, by rw [h3]; exact Nat.zero_add _⟩

/-- the types held in the state -/
def held (st : ReadSt) : Nat := nodesAll st.subtypes + (st.subtuples.map nodesAll).sum

theorem sum_set : ∀ (l : List (List ParamType)) (i : Nat) (a b : List ParamType), l[i]? = some a →
    ((l.set i b).map nodesAll).sum + nodesAll a = (l.map nodesAll).sum + nodesAll b
  | [], _, _, _, h => by cases h
  | x :: l, 0, a, b, h => by
    cases h
    simp only [List.set_cons_zero, List.map_cons, List.sum_cons]
    omega
  | x :: l, i + 1, a, b, h => by
    have := sum_set l i a b h
    simp only [List.set_cons_succ, List.map_cons, List.sum_cons]
    omega

theorem indexVec_get {α : Type} {v : List α} {i : Int} {a : α} (h : indexVec v i = .ok a) : v[i.toNat]? = some a := by
  unfold indexVec at h
  split at h
  · cases h
  · split at h
    · next hv => cases h; exact hv
    · cases h

theorem nodesAll_one (l : List ParamType) (t : ParamType) : nodesAll (l ++ [t]) = nodesAll l + nodes t := by
  rw [nodesAll_append, nodesAll, nodesAll, Nat.add_zero]

/-- the calls yield no type larger than their work -/
def Fair (rec : Str → Counted ParamType) : Prop := ∀ s t, (rec s).res = .ok t → nodes t ≤ (rec s).work

theorem held_open (pos : Nat) (st : ReadSt) : held (readOpen pos st) = held st := by
  unfold readOpen held
  dsimp only
  split
  · simp only [List.map_append, List.sum_append]
    rfl
  · rfl

theorem held_close {rec : Str → Counted ParamType} (hr : Fair rec) {name rest : Str} {pos : Nat} {st st' : ReadSt} {k : Nat}
    (h : (readCloseCount rec name rest pos st).res = .ok (st', k)) :
    held st' ≤ held st + 1 + (readCloseCount rec name rest pos st).work := by
  unfold readCloseCount at h ⊢
  dsimp only at h ⊢
  split at h
  · cases h
  · next hn =>
    rw [if_neg hn]
    obtain ⟨item, h1, h2, h3⟩ := ok_free h
    rw [h3]
    clear h h3
    split at h2
    · cases h2
      exact Nat.le_trans (Nat.le_add_right _ 1) (Nat.le_add_right _ _)
    · next hi =>
      rw [if_neg hi]
      split at h2
      · next h0 =>
        rw [if_pos h0]
        obtain ⟨t, h4, h5, h6⟩ := ok_bind h2
        rw [h6]
        cases h5
        have := hr _ _ h4
        simp only [held, nodesAll_one]
        omega
      · next h0 =>
        rw [if_neg h0]
        obtain ⟨inner, h4, h5, h6⟩ := ok_free h2
        rw [h6]
        obtain ⟨t, h7, h8, h9⟩ := ok_bind h5
        rw [h9]
        have := hr _ _ h7
        split at h8
        · next hg =>
          rw [if_pos hg]
          obtain ⟨sub, h10, h11, h12⟩ := ok_free h8
          rw [h12]
          cases h11
          have hs := sum_set _ _ _ [] (indexVec_get h10)
          have he : nodesAll [] = 0 := rfl
          simp only [held, nodesAll_one, nodes] at *
          omega
        · next hg =>
          rw [if_neg hg]
          cases h8
          simp only [held, nodesAll_one]
          omega

theorem held_comma {rec : Str → Counted ParamType} (hr : Fair rec) {name : Str} {pos : Nat} {st st' : ReadSt}
    (h : (readCommaCount rec name pos st).res = .ok st') :
    held st' ≤ held st + (readCommaCount rec name pos st).work := by
  unfold readCommaCount at h ⊢
  obtain ⟨item, h1, h2, h3⟩ := ok_free h
  rw [h3]
  clear h h3
  split at h2
  · cases h2
    exact Nat.le_add_right _ _
  · next hi =>
    rw [if_neg hi]
    split at h2
    · next h0 =>
      rw [if_pos h0]
      obtain ⟨t, h4, h5, h6⟩ := ok_bind h2
      rw [h6]
      cases h5
      have := hr _ _ h4
      simp only [held, nodesAll_one]
      omega
    · next h0 =>
      rw [if_neg h0]
      split at h2
      · next hg =>
        rw [if_pos hg]
        obtain ⟨t, h7, h8, h9⟩ := ok_bind h2
        rw [h9]
        have := hr _ _ h7
        obtain ⟨sub, h10, h11, h12⟩ := ok_free h8
        rw [h12]
        cases h11
        have hs := sum_set _ _ _ (sub ++ [t]) (indexVec_get h10)
        simp only [held, nodesAll_one] at *
        omega
      · cases h2
        exact Nat.le_add_right _ _

theorem held_loop {rec : Str → Counted ParamType} (hr : Fair rec) (name : Str) : ∀ (cs : Str) (pos skip : Nat) (st st' : ReadSt),
    (readLoopCount rec name cs pos skip st).res = .ok st' →
    held st' ≤ held st + cs.length + (readLoopCount rec name cs pos skip st).work
  | [], _, _, st, st', h => by
    rw [readLoopCount] at h
    cases h
    omega
  | _ :: cs, pos, skip + 1, st, st', h => by
    rw [readLoopCount] at h ⊢
    have := held_loop hr name cs _ _ _ _ h
    rw [List.length_cons]
    omega
  | c :: cs, pos, 0, st, st', h => by
    rw [readLoopCount] at h ⊢
    rw [List.length_cons]
    split at h
    · next hc =>
      rw [if_pos hc]
      have := held_loop hr name cs _ _ _ _ h
      rw [held_open] at this
      omega
    · next hc =>
      rw [if_neg hc]
      split at h
      · next hc =>
        rw [if_pos hc]
        obtain ⟨⟨st1, k⟩, h1, h2, h3⟩ := ok_bind h
        rw [h3]
        have e1 := held_close hr h1
        have e2 := held_loop hr name cs _ _ _ _ h2
        dsimp only at e2 ⊢
        omega
      · next hc =>
        rw [if_neg hc]
        split at h
        · next hc =>
          rw [if_pos hc]
          obtain ⟨st1, h1, h2, h3⟩ := ok_bind h
          rw [h3]
          have e1 := held_comma hr h1
          have e2 := held_loop hr name cs _ _ _ _ h2
          omega
        · next hc =>
          rw [if_neg hc]
          have := held_loop hr name cs _ _ _ _ h
          omega

theorem nodes_elementary {name : Str} {t : ParamType} (h : readElementary name = .ok t) : nodes t = 1 := by
  unfold readElementary at h
  repeat' split at h
  all_goals first
    | (cases h; done)
    | (cases h; rfl)
    | (obtain ⟨n, -, h⟩ := Res.bind_eq_ok.1 h
       cases h; rfl)

theorem held_step {rec : Str → Counted ParamType} (hr : Fair rec) {name : Str} {t : ParamType}
    (h : (readStepCount rec name).res = .ok t) : nodes t ≤ (readStepCount rec name).work := by
  rw [readStepCount] at h ⊢
  dsimp only at h ⊢
  unfold readBodyCount at h ⊢
  split at h
  · next hl =>
    rw [if_pos hl]
    split at h
    · cases h
    · next hs =>
      rw [if_neg hs]
      obtain ⟨st, h1, h2, h3⟩ := ok_bind h
      rw [h3]
      have := held_loop hr name name _ _ _ _ h1
      cases h2
      simp only [held, nodes, List.map_nil, List.sum_nil, nodesAll] at *
      omega
  · next hl =>
    rw [if_neg hl]
    split at h
    · next hb =>
      rw [if_pos hb]
      dsimp only at h ⊢
      split at h
      · next hn =>
        rw [if_pos hn]
        obtain ⟨e, -, h1, h2⟩ := ok_free h
        obtain ⟨sub, -, h3, h4⟩ := ok_free h1
        obtain ⟨t', h5, h6, h7⟩ := ok_bind h3
        rw [h2, h4, h7]
        cases h6
        have := hr _ _ h5
        rw [nodes]
        omega
      · next hn =>
        rw [if_neg hn]
        obtain ⟨len, -, h1, h2⟩ := ok_free h
        obtain ⟨e1, -, h3, h4⟩ := ok_free h1
        obtain ⟨e, -, h5, h6⟩ := ok_free h3
        obtain ⟨sub, -, h7, h8⟩ := ok_free h5
        obtain ⟨t', h9, h10, h11⟩ := ok_bind h7
        rw [h2, h4, h6, h8, h11]
        cases h10
        have := hr _ _ h9
        rw [nodes]
        omega
    · next hb =>
      rw [if_neg hb]
      rw [nodes_elementary h]
      omega

theorem fair {beyond : Counted ParamType} (hb : Fair fun _ => beyond) : ∀ n, Fair (readFuelCount beyond n)
  | 0 => hb
  | n + 1 => fun _ _ h => held_step (fair hb n) h

/-! ### how long the texts are -/

theorem bytes_next {j : Nat} {l : Level} (g : Good j l) : byteLen ((l.next j).text j) =
    j + 3 * (l.text j).length + 2 * byteLen (l.text j) + 10 := by
  have hhb := g.headBytes
  have hb : byteLen (l.text j) = byteLen l.head + 3 * j := by
    rw [Level.text, byteLen_append, byteLen_ascii (ascii_rep g.sepAscii j), length_rep, g.sepLength]
    omega
  have hopen : ∀ n, byteLen (List.replicate n '(') = n := fun n => by
    rw [byteLen_ascii (fun c hc => by rw [List.eq_of_mem_replicate hc]; decide), List.length_replicate]
  have ha : ∀ n, byteLen (List.replicate n 'a') = n := fun n => by
    rw [byteLen_ascii (fun c hc => by rw [List.eq_of_mem_replicate hc]; decide), List.length_replicate]
  have hwide : ∀ n, byteLen (List.replicate n 'é') = 2 * n := by
    intro n
    induction n with
    | zero => rfl
    | succ n ih =>
      have : (utf8Char 'é').length = 2 := by decide
      rw [List.replicate_succ, byteLen, ih, this]; omega
  have h0 : (utf8Char '0').length = 1 := by decide
  have h1 : (utf8Char '(').length = 1 := by decide
  have h2 : (utf8Char ',').length = 1 := by decide
  have h3 : (utf8Char 'a').length = 1 := by decide
  have h4 : (utf8Char ')').length = 1 := by decide
  have hs : byteLen (rep j [',', 'a', ')']) = 3 * j := by
    rw [byteLen_ascii (ascii_rep (ascii_cons (by decide) (ascii_cons (by decide) (ascii_cons (by decide) (fun _ hc => by cases hc)))) j),
      length_rep, Nat.mul_comm]
    rfl
  have hm : byteLen l.mirror = (l.text j).length := by rw [byteLen_ascii g.mirrorAscii, g.mirrorLength]
  have e : byteLen ((l.next j).text j) = byteLen (l.next j).head + byteLen (rep j [',', 'a', ')']) := by
    rw [Level.text, byteLen_append]; rfl
  rw [e, hs]
  simp only [Level.next, byteLen_append, byteLen, hopen, hwide, ha, h0, h1, h2, h3, h4, hm]
  omega

theorem bytes_level (j : Nat) : ∀ d, 4 * byteLen ((level j d).text j) + (j + 1) + 9 ≤ 22 * (j + 1) * 5 ^ d
  | 0 => by
    have e : byteLen ((level j 0).text j) = 3 + 3 * j := by
      show byteLen (lit "int" ++ rep j (lit "000")) = _
      rw [byteLen_append, byteLen_ascii (ascii_rep (s := lit "000") (ascii_zeros 3) j), length_rep, byteLen_ascii ascii_int]
      show 3 + j * 3 = _
      omega
    rw [e, Nat.pow_zero]
    omega
  | d + 1 => by
    have ih := bytes_level j d
    have e := bytes_next (good j d)
    have hle := length_le ((level j d).text j)
    rw [level, e, Nat.pow_succ, ← Nat.mul_assoc]
    omega

/-- the texts: at most so long, and the types read from them at least so large -/
theorem large (d k : Nat) (hk : 1 ≤ k) : ∃ s t, read s = .ok t ∧ byteLen s ≤ 6 * 5 ^ d * k ∧ (k - 1 + d).choose d ≤ nodes t := by
  obtain ⟨j, rfl⟩ : ∃ j, k = j + 1 := ⟨k - 1, by omega⟩
  obtain ⟨t, h1, h2⟩ := read_level j d j (Nat.le_refl _)
  refine ⟨_, t, h1, ?_, h2⟩
  have := bytes_level j d
  have e : 22 * (j + 1) * 5 ^ d = 22 * (5 ^ d * (j + 1)) := by rw [Nat.mul_assoc, Nat.mul_comm (j + 1)]
  rw [Nat.mul_assoc]
  omega

theorem pow_choose (d j : Nat) : (j + 1) ^ d ≤ d.factorial * (j + d).choose d := by
  rw [← Nat.ascFactorial_eq_factorial_mul_choose]
  exact Nat.pow_succ_le_ascFactorial _ _

theorem beyond_powers (c e : Nat) : ∃ s t, read s = .ok t ∧ c * byteLen s ^ e < nodes t := by
  obtain ⟨s, t, h1, h2, h3⟩ := large (e + 1) ((e + 1).factorial * (c * (6 * 5 ^ (e + 1)) ^ e) + 1) (by omega)
  refine ⟨s, t, h1, ?_⟩
  generalize hk : (e + 1).factorial * (c * (6 * 5 ^ (e + 1)) ^ e) = k at *
  have hp := pow_choose (e + 1) k
  rw [Nat.add_sub_cancel] at h3
  have hb : byteLen s ^ e ≤ (6 * 5 ^ (e + 1)) ^ e * (k + 1) ^ e := by
    rw [← Nat.mul_pow]; exact Nat.pow_le_pow_left h2 e
  have h4 : (e + 1).factorial * (c * byteLen s ^ e) ≤ k * (k + 1) ^ e := by
    rw [← hk, Nat.mul_assoc, hk, Nat.mul_assoc]
    exact Nat.mul_le_mul_left _ (Nat.mul_le_mul_left _ hb)
  have h5 : k * (k + 1) ^ e < (k + 1) ^ (e + 1) := by
    rw [Nat.pow_succ, Nat.mul_comm]
    exact Nat.mul_lt_mul_of_pos_left (Nat.lt_succ_self k) (Nat.pow_pos (Nat.succ_pos k))
  have h6 : (e + 1).factorial * (c * byteLen s ^ e) < (e + 1).factorial * nodes t :=
    Nat.lt_of_le_of_lt h4 (Nat.lt_of_lt_of_le h5 (Nat.le_trans hp (Nat.mul_le_mul_left _ h3)))
  exact Nat.lt_of_mul_lt_mul_left h6

end Ethabi.Deep

import Verif.Proofs.AnyText
import Verif.Spec.Depth
/-! How many calls of `Reader::read` are under way at a time. -/
namespace Ethabi.Depth
open Spec

/-- closing brackets in a text -/
abbrev brackets (s : Str) : Nat := s.count ']'

theorem infix_of_slice {s x : Str} {a b : Nat} (h : strSlice s a b = .ok x) : x <:+: s := by
  obtain ⟨-, -, -, u, v, e⟩ := strSlice_ok h
  exact ⟨u, v, e.symm⟩

theorem infix_ascii {s x : Str} (h : x <:+: s) (ha : ascii s) : ascii x := fun c hc => ha c (h.subset hc)

theorem brackets_infix {s x : Str} (h : x <:+: s) : brackets x ≤ brackets s := h.sublist.count_le _

theorem array_slice {p x : Str} {e : Nat} (he : e ≤ p.length) (h : strSlice (p ++ [']']) 0 e = .ok x) :
    x <+: p ++ [']'] ∧ x.length ≤ e ∧ brackets x < brackets (p ++ [']']) := by
  unfold strSlice at h
  rw [if_pos (Nat.zero_le _)] at h
  cases h1 : splitAtByte (p ++ [']']) e with
  | none => rw [h1] at h; cases h
  | some ab =>
    obtain ⟨a, b⟩ := ab
    rw [h1] at h
    simp only [] at h
    have h2 : splitAtByte a 0 = some ([], a) := by cases a <;> rfl
    rw [h2] at h
    cases h
    obtain ⟨e1, e2⟩ := splitAtByte_some h1
    have h3 := length_le_byteLen x
    have h4 : x <+: p := by
      have : x <+: p ++ [']'] := ⟨b, e1.symm⟩
      exact List.prefix_of_prefix_length_le this (List.prefix_append _ _) (by omega)
    refine ⟨h4.trans (List.prefix_append _ _), by omega, ?_⟩
    have := brackets_infix h4.isInfix
    simp only [brackets, List.count_append, List.count_singleton] at this ⊢
    simp
    omega

theorem ends_with {s : Str} {c : Char} (hl : s.getLast? = some c) : ∃ p, s = p ++ [c] := by
  rcases List.eq_nil_or_concat s with rfl | ⟨p, d, rfl⟩
  · cases hl
  · rw [List.concat_eq_append, List.getLast?_concat] at hl
    cases hl
    exact ⟨p, by simp⟩

/-- the array suffix: the call is on a text that starts like this one and has a bracket less -/
theorem array_congr {r1 r2 : Str → Res ParamType} {s : Str} (hl : s.getLast? = some ']')
    (hr : ∀ x, x <+: s → brackets x < brackets s → r1 x = r2 x) : readStep r1 s = readStep r2 s := by
  obtain ⟨p, rfl⟩ := ends_with hl
  unfold readStep
  have hl' : (p ++ [']']).getLast? ≠ some ')' := by rw [hl]; decide
  rw [if_neg hl', if_neg hl', if_pos hl, if_pos hl]
  simp only []
  split
  · refine bind_congr fun e he => bind_congr fun x hx => ?_
    unfold indexSub at he
    split at he
    · cases he
      obtain ⟨h1, -, h2⟩ := array_slice (by simp) hx
      rw [hr x h1 h2]
    · cases he
  · refine bind_congr fun len _ => bind_congr fun e1 he1 => bind_congr fun e he => bind_congr fun x hx => ?_
    unfold indexSub at he he1
    split at he1
    · cases he1
      split at he
      · cases he
        obtain ⟨h1, -, h2⟩ := array_slice (by simp; omega) hx
        rw [hr x h1 h2]
      · cases he
    · cases he1

/-- neither `)` nor `]` at the end: no call -/
theorem plain_congr (r1 r2 : Str → Res ParamType) {s : Str} (h1 : s.getLast? ≠ some ')') (h2 : s.getLast? ≠ some ']') :
    readStep r1 s = readStep r2 s := by
  unfold readStep
  rw [if_neg h1, if_neg h2, if_neg h1, if_neg h2]

theorem getLast_mem {s : Str} {c : Char} (h : s.getLast? = some c) : c ∈ s := List.mem_of_getLast? h

/-! ### texts without a closing parenthesis -/

theorem items (beyond : Res ParamType) : ∀ (n : Nat) (s : Str), ')' ∉ s → brackets s + 1 ≤ n →
    readWithin beyond n s = read s
  | 0, _, _, h => by omega
  | n + 1, s, hp, hn => by
    rw [readWithin, read_eq]
    by_cases hl : s.getLast? = some ']'
    · exact array_congr hl fun x hx hb => items beyond n x (fun h => hp (hx.subset h)) (by omega)
    · exact plain_congr _ _ (fun h => hp (getLast_mem h)) hl

/-! ### texts with one opening parenthesis before the last closing one -/

/-- what has been passed: no closing parenthesis since the item began -/
def CleanAt (pre : Str) (st : ReadSt) : Prop := ')' ∉ pre.drop st.lastItem

theorem slice_item {pre rest x : Str} {a : Nat} (ha : ascii (pre ++ rest)) (h : strSlice (pre ++ rest) a pre.length = .ok x) :
    x = pre.drop a := by
  obtain ⟨-, h1, -, -⟩ := strSlice_ok h
  rw [strSlice_ascii ha h1 (by simp)] at h
  cases h
  simp

theorem drop_concat_not_mem {pre : Str} {a : Nat} {c d : Char} (h : c ∉ pre.drop a) (hd : c ≠ d) : c ∉ (pre ++ [d]).drop a := by
  rw [List.drop_append]
  simp only [List.mem_append, not_or]
  exact ⟨h, fun hm => hd (by simpa using List.mem_of_mem_drop hm)⟩

theorem clean_end {pre : Str} {c d : Char} : c ∉ (pre ++ [d]).drop (pre.length + 1) := by
  rw [List.drop_of_length_le (by simp)]; simp

theorem comma_congr {r1 r2 : Str → Res ParamType} {pre rest : Str} {st : ReadSt} (ha : ascii (pre ++ rest))
    (hr : ∀ x, x <:+: pre ++ rest → ')' ∉ x → r1 x = r2 x) (hc : CleanAt pre st) :
    readComma r1 (pre ++ rest) pre.length st = readComma r2 (pre ++ rest) pre.length st := by
  unfold readComma
  refine bind_congr fun item hi => ?_
  have e := slice_item ha hi
  have : ')' ∉ item := by rw [e]; exact hc
  rw [hr item (infix_of_slice hi) this]

theorem comma_clean {rec : Str → Res ParamType} {pre rest : Str} {st st' : ReadSt} (hc : CleanAt pre st)
    (h : readComma rec (pre ++ rest) pre.length st = .ok st') : CleanAt (pre ++ [',']) st' ∧ st'.nested = st.nested ∧
      st'.topOpen = st.topOpen := by
  unfold readComma at h
  simp only [Res.bind_eq_ok] at h
  obtain ⟨item, -, h⟩ := h
  split at h
  · cases h
    exact ⟨clean_end, rfl, rfl⟩
  · split at h
    · simp only [Res.bind_eq_ok, Res.ok.injEq] at h
      obtain ⟨t, -, rfl⟩ := h
      exact ⟨clean_end, rfl, rfl⟩
    · split at h
      · simp only [Res.bind_eq_ok, Res.ok.injEq] at h
        obtain ⟨t, -, _, -, rfl⟩ := h
        exact ⟨clean_end, rfl, rfl⟩
      · cases h
        exact ⟨drop_concat_not_mem hc (by decide), rfl, rfl⟩

/-- the loop once no opening parenthesis is ahead and at most one is open -/
theorem flat_loop {r1 r2 : Str → Res ParamType} {name : Str} (ha : ascii name)
    (hr : ∀ x, x <:+: name → ')' ∉ x → r1 x = r2 x) : ∀ (cs pre : Str) (st : ReadSt), name = pre ++ cs → '(' ∉ cs →
      st.nested ≤ 1 → CleanAt pre st → readLoop r1 name cs pre.length 0 st = readLoop r2 name cs pre.length 0 st
  | [], _, _, _, _, _, _ => by simp [readLoop]
  | c :: cs, pre, st, hname, ho, hn, hc => by
    have ho' : '(' ∉ cs := fun h => ho (by simp [h])
    have hc' : c ≠ '(' := fun h => ho (by simp [h])
    have hnext : name = (pre ++ [c]) ++ cs := by rw [hname]; simp
    have next : ∀ st', st'.nested ≤ 1 → CleanAt (pre ++ [c]) st' →
        readLoop r1 name cs (pre.length + 1) 0 st' = readLoop r2 name cs (pre.length + 1) 0 st' := by
      intro st' h1 h2
      have := flat_loop ha hr cs (pre ++ [c]) st' hnext ho' h1 h2
      simpa using this
    simp only [readLoop]
    rw [if_neg hc', if_neg hc']
    split
    · rename_i hcl
      subst hcl
      have key : readClose r1 name cs pre.length st = readClose r2 name cs pre.length st := by
        unfold readClose
        simp only []
        split
        · rfl
        · rename_i hneg
          refine bind_congr fun item hi => ?_
          split
          · rfl
          · rw [if_pos (by omega), if_pos (by omega)]
            have e : item = pre.drop st.lastItem := by rw [hname] at hi; exact slice_item (by rw [← hname]; exact ha) hi
            rw [hr item (infix_of_slice hi) (by rw [e]; exact hc)]
      rw [key]
      refine bind_congr ?_
      rintro ⟨st', k⟩ he
      have : st'.nested ≤ 1 ∧ CleanAt (pre ++ [')']) st' ∧ k = 0 := by
        unfold readClose at he
        simp only [] at he
        split at he
        · cases he
        · rename_i hneg
          simp only [Res.bind_eq_ok] at he
          obtain ⟨item, -, he⟩ := he
          split at he
          · simp only [Res.ok.injEq, Prod.mk.injEq] at he
            obtain ⟨rfl, rfl⟩ := he
            exact ⟨by dsimp only; omega, clean_end, rfl⟩
          · rw [if_pos (by omega)] at he
            simp only [Res.bind_eq_ok, Res.ok.injEq, Prod.mk.injEq] at he
            obtain ⟨t, -, rfl, rfl⟩ := he
            exact ⟨by dsimp only; omega, clean_end, rfl⟩
      obtain ⟨h1, h2, rfl⟩ := this
      exact next st' h1 h2
    · split
      · rename_i hcm
        subst hcm
        have key : readComma r1 name pre.length st = readComma r2 name pre.length st := by
          rw [hname]
          exact comma_congr (by rw [← hname]; exact ha) (by rw [← hname]; exact hr) hc
        rw [key]
        refine bind_congr fun st' he => ?_
        rw [hname] at he
        obtain ⟨h1, h2, -⟩ := comma_clean hc he
        exact next st' (by omega) h1
      · rename_i h1 h2
        exact next st hn (drop_concat_not_mem hc (fun h => h1 h.symm))

/-- an opening parenthesis further on is followed by no closing one -/
def OneOpen (s : Str) : Prop := ∃ u t, s = u ++ t ∧ '(' ∉ u.drop 1 ∧ ')' ∉ t

theorem oneOpen_prefix {s x : Str} (h : OneOpen s) (hx : x <+: s) : OneOpen x := by
  obtain ⟨u, t, rfl, h1, h2⟩ := h
  by_cases hl : x.length ≤ u.length
  · have : x <+: u := List.prefix_of_prefix_length_le hx (List.prefix_append _ _) hl
    obtain ⟨v, rfl⟩ := this
    refine ⟨x, [], by simp, ?_, by simp⟩
    intro hm
    apply h1
    rw [List.drop_append]
    exact List.mem_append_left _ hm
  · obtain ⟨v, hv⟩ := hx
    have hu : u <+: x := List.prefix_of_prefix_length_le ⟨t, rfl⟩ ⟨v, hv⟩ (by omega)
    obtain ⟨w, rfl⟩ := hu
    refine ⟨u, w, rfl, h1, ?_⟩
    rw [List.append_assoc, List.append_cancel_left_eq] at hv
    intro hm
    apply h2
    rw [← hv]
    simp [hm]

theorem oneOpen_closed {s : Str} (h : OneOpen s) (hl : s.getLast? = some ')') : '(' ∉ s.drop 1 := by
  obtain ⟨u, t, rfl, h1, h2⟩ := h
  cases t with
  | nil => simpa using h1
  | cons c t =>
    have hl' : (c :: t).getLast? = some ')' := by
      rw [List.getLast?_append] at hl
      rw [List.getLast?_eq_some_getLast (by simp : c :: t ≠ [])] at hl ⊢
      simpa using hl
    exact absurd (getLast_mem hl') h2

theorem starts_open {c : Char} {cs : Str} (h : ¬ (!startsWith (lit "(") (c :: cs)) = true) : c = '(' := by
  by_contra hc
  apply h
  have : lit "(" = ['('] := rfl
  rw [this]
  have h2 : ('(' == c) = false := by simpa using fun e => hc e.symm
  simp [startsWith, List.isPrefixOf, h2]

theorem groups (beyond : Res ParamType) : ∀ (n : Nat) (s : Str), ascii s → OneOpen s → brackets s + 2 ≤ n →
    readWithin beyond n s = read s
  | 0, _, _, _, h => by omega
  | n + 1, s, ha, ho, hn => by
    rw [readWithin, read_eq]
    by_cases hl : s.getLast? = some ']'
    · exact array_congr hl fun x hx hb => groups beyond n x (infix_ascii hx.isInfix ha) (oneOpen_prefix ho hx) (by omega)
    · by_cases hp : s.getLast? = some ')'
      · have ho' := oneOpen_closed ho hp
        unfold readStep
        rw [if_pos hp, if_pos hp]
        split
        · rfl
        · rename_i hs
          cases s with
          | nil => rfl
          | cons c cs =>
            obtain rfl : c = '(' := starts_open hs
            have key := flat_loop (r1 := readWithin beyond n) (r2 := read) ha
              (fun x hx hq => items beyond n x hq (by have := brackets_infix hx; omega)) cs ['(']
              (readOpen 0 { subtypes := [], subtuples := [], nested := 0, topOpen := 0, lastItem := 1 }) rfl ho'
              (by simp [readOpen]) (by simp [readOpen, CleanAt])
            simp only [readLoop, if_true]
            simp only [List.length_singleton] at key
            rw [key]
      · exact plain_congr _ _ hp hl

/-! ### any text -/

/-- no opening parenthesis since the last one the reader has noted -/
def Noted (pre : Str) (st : ReadSt) : Prop := st.topOpen ≤ pre.length ∧ '(' ∉ pre.drop (st.topOpen + 1)

theorem inner_oneOpen {pre rest x : Str} {a k : Nat} (ha : ascii (pre ++ ')' :: rest)) (hal : a ≤ pre.length)
    (hn : '(' ∉ pre.drop (a + 1)) (ht : ')' ∉ rest.take k) (hk : k ≤ rest.length)
    (h : strSlice (pre ++ ')' :: rest) a (pre.length + k + 1) = .ok x) :
    x = ((pre ++ [')']).drop a) ++ rest.take k ∧ OneOpen x := by
  obtain ⟨hlen, h1, -, -⟩ := strSlice_ok h
  rw [strSlice_ascii ha h1 (by simp; omega)] at h
  have e : (pre ++ ')' :: rest).take (pre.length + k + 1) = (pre ++ [')']) ++ rest.take k := by
    rw [show pre ++ ')' :: rest = (pre ++ [')']) ++ rest by simp,
      show pre.length + k + 1 = (pre ++ [')']).length + k by simp; omega, List.take_length_add_append]
  rw [e] at h
  injection h with h
  have e2 : x = ((pre ++ [')']).drop a) ++ rest.take k := by
    rw [← h, List.drop_append_of_le_length (by simp; omega)]
  refine ⟨e2, _, _, e2, ?_, ht⟩
  rw [List.drop_drop]
  exact drop_concat_not_mem hn (by decide)

/-- an accepted group has no opening parenthesis in what follows it -/
theorem trailing_closed {y t : Str} {p : ParamType} (ha : ascii (y ++ t)) (ht : ')' ∉ t) (h : read (y ++ t) = .ok p) :
    '(' ∉ t := by
  intro hm
  obtain ⟨a, b, rfl⟩ := List.append_of_mem hm
  obtain ⟨e, he⟩ := AnyText.open_err b.length (y ++ a) b rfl (by simpa using ha) (fun h => ht (by simp [h]))
  rw [show y ++ (a ++ '(' :: b) = y ++ a ++ '(' :: b by simp, he] at h
  cases h

theorem loop_skip (rec : Str → Res ParamType) (name : Str) : ∀ (k : Nat) (cs : Str) (pos : Nat) (st : ReadSt), k ≤ cs.length →
    readLoop rec name cs pos k st = readLoop rec name (cs.drop k) (pos + k) 0 st
  | 0, _, _, _, _ => by simp
  | k + 1, [], _, _, h => by simp at h
  | k + 1, c :: cs, pos, st, h => by
    rw [readLoop, loop_skip rec name k cs (pos + 1) st (by simpa using h)]
    simp [Nat.add_comm, Nat.add_left_comm]

theorem close_congr {r : Str → Res ParamType} {pre cs : Str} {st : ReadSt} (ha : ascii (pre ++ ')' :: cs))
    (hr : ∀ x, x <:+: pre ++ ')' :: cs → ')' ∉ x → r x = read x) (hg : ∀ x, x <:+: pre ++ ')' :: cs → OneOpen x → r x = read x)
    (hc : CleanAt pre st) (ho : Noted pre st) :
    readClose r (pre ++ ')' :: cs) cs pre.length st = readClose read (pre ++ ')' :: cs) cs pre.length st := by
  unfold readClose
  simp only []
  split
  · rfl
  · refine bind_congr fun item hi => ?_
    split
    · rfl
    · have e := slice_item ha hi
      split
      · rw [hr item (infix_of_slice hi) (by rw [e]; exact hc)]
      · refine bind_congr fun inner hi2 => ?_
        obtain ⟨h1, h2⟩ := AnyText.trailing_take cs
        rw [hg inner (infix_of_slice hi2) (inner_oneOpen ha ho.1 ho.2 h1 h2 hi2).2]

theorem close_inv {pre cs : Str} {st st' : ReadSt} {k : Nat} (ha : ascii (pre ++ ')' :: cs))
    (ho : Noted pre st) (h : readClose read (pre ++ ')' :: cs) cs pre.length st = .ok (st', k)) :
    k ≤ cs.length ∧ CleanAt (pre ++ ')' :: cs.take k) st' ∧ Noted (pre ++ ')' :: cs.take k) st' := by
  have now : ∀ n : Nat, n ≤ pre.length ∧ '(' ∉ pre.drop (n + 1) →
      n ≤ (pre ++ ')' :: cs.take 0).length ∧ '(' ∉ (pre ++ ')' :: cs.take 0).drop (n + 1) := by
    intro n hn
    refine ⟨by simp; omega, ?_⟩
    simpa using drop_concat_not_mem hn.2 (d := ')') (by decide)
  have fresh : ')' ∉ (pre ++ ')' :: cs.take 0).drop (pre.length + 1) := by simp
  unfold readClose at h
  simp only [] at h
  split at h
  · cases h
  · simp only [Res.bind_eq_ok] at h
    obtain ⟨item, -, h⟩ := h
    split at h
    · simp only [Res.ok.injEq, Prod.mk.injEq] at h
      obtain ⟨rfl, rfl⟩ := h
      exact ⟨by simp, fresh, now _ ho⟩
    · split at h
      · simp only [Res.bind_eq_ok, Res.ok.injEq, Prod.mk.injEq] at h
        obtain ⟨t, -, rfl, rfl⟩ := h
        exact ⟨by simp, fresh, now _ ho⟩
      · simp only [Res.bind_eq_ok] at h
        obtain ⟨inner, hi, t, ht, h⟩ := h
        obtain ⟨h1, h2⟩ := AnyText.trailing_take cs
        obtain ⟨e, -⟩ := inner_oneOpen ha ho.1 ho.2 h1 h2 hi
        have hin := infix_ascii (infix_of_slice hi) ha
        rw [e] at ht hin
        have h3 := trailing_closed hin h1 ht
        have clean : ')' ∉ (pre ++ ')' :: cs.take (trailing cs)).drop (pre.length + trailing cs + 1) := by
          rw [List.drop_of_length_le (by simp; omega)]; simp
        have noted : st.topOpen ≤ (pre ++ ')' :: cs.take (trailing cs)).length ∧
            '(' ∉ (pre ++ ')' :: cs.take (trailing cs)).drop (st.topOpen + 1) := by
          refine ⟨by have := ho.1; simp; omega, ?_⟩
          rw [show pre ++ ')' :: cs.take (trailing cs) = (pre ++ [')']) ++ cs.take (trailing cs) by simp, List.drop_append]
          simp only [List.mem_append, not_or]
          exact ⟨drop_concat_not_mem ho.2 (by decide), fun hm => h3 (List.mem_of_mem_drop hm)⟩
        split at h
        · simp only [Res.bind_eq_ok, Res.ok.injEq, Prod.mk.injEq] at h
          obtain ⟨_, -, rfl, rfl⟩ := h
          exact ⟨h2, clean, noted⟩
        · simp only [Res.ok.injEq, Prod.mk.injEq] at h
          obtain ⟨rfl, rfl⟩ := h
          exact ⟨h2, clean, noted⟩

theorem any_loop {r : Str → Res ParamType} {name : Str} (ha : ascii name)
    (hr : ∀ x, x <:+: name → ')' ∉ x → r x = read x) (hg : ∀ x, x <:+: name → OneOpen x → r x = read x) :
    ∀ (n : Nat) (cs pre : Str) (st : ReadSt), cs.length = n → name = pre ++ cs → CleanAt pre st → Noted pre st →
      readLoop r name cs pre.length 0 st = readLoop read name cs pre.length 0 st := by
  intro n
  induction n using Nat.strongRecOn with
  | _ n ih =>
  intro cs pre st hlen hname hc ho
  cases cs with
  | nil => simp [readLoop]
  | cons c cs =>
    have next : ∀ st', CleanAt (pre ++ [c]) st' → Noted (pre ++ [c]) st' →
        readLoop r name cs (pre.length + 1) 0 st' = readLoop read name cs (pre.length + 1) 0 st' := by
      intro st' h1 h2
      have := ih cs.length (by rw [← hlen]; simp) cs (pre ++ [c]) st' rfl (by rw [hname]; simp) h1 h2
      simpa using this
    have stay : ∀ d, c = d → d ≠ '(' → Noted (pre ++ [c]) st := fun d hd hne =>
      ⟨by have := ho.1; simp; omega, drop_concat_not_mem ho.2 (by rw [hd]; exact hne.symm)⟩
    simp only [readLoop]
    by_cases h1 : c = '('
    · rw [if_pos h1, if_pos h1]
      refine next _ ?_ ?_
      · unfold readOpen
        dsimp only
        split
        · exact clean_end
        · exact drop_concat_not_mem hc (by rw [h1]; decide)
      · unfold readOpen
        dsimp only
        split
        · exact ⟨by simp, clean_end⟩
        · exact ⟨by simp, clean_end⟩
    · rw [if_neg h1, if_neg h1]
      by_cases h2 : c = ')'
      · rw [if_pos h2, if_pos h2]
        subst h2
        have key : readClose r name cs pre.length st = readClose read name cs pre.length st := by
          rw [hname] at ha hr hg ⊢
          exact close_congr ha hr hg hc ho
        rw [key]
        refine bind_congr ?_
        rintro ⟨st', k⟩ he
        rw [hname] at he
        obtain ⟨hk, i1, i2⟩ := close_inv (by rw [← hname]; exact ha) ho he
        dsimp only
        rw [loop_skip _ _ k cs _ _ hk, loop_skip _ _ k cs _ _ hk]
        have := ih (cs.drop k).length (by rw [← hlen]; simp; omega) (cs.drop k) (pre ++ ')' :: cs.take k) st' rfl
          (by rw [hname]; simp) i1 i2
        have e : (pre ++ ')' :: cs.take k).length = pre.length + 1 + k := by simp; omega
        rw [e] at this
        exact this
      · rw [if_neg h2, if_neg h2]
        by_cases h3 : c = ','
        · rw [if_pos h3, if_pos h3]
          have key : readComma r name pre.length st = readComma read name pre.length st := by
            rw [hname] at ha hr ⊢
            exact comma_congr ha hr hc
          rw [key]
          refine bind_congr fun st' he => ?_
          rw [hname] at he
          obtain ⟨i1, -, i2⟩ := comma_clean hc he
          have i3 := stay _ h3 (by decide)
          refine next st' (by rw [h3]; exact i1) ?_
          unfold Noted at i3 ⊢
          rw [i2]
          exact i3
        · rw [if_neg h3, if_neg h3]
          exact next st (drop_concat_not_mem hc fun h => h2 h.symm) (stay c rfl h1)

theorem texts (beyond : Res ParamType) : ∀ (n : Nat) (s : Str), ascii s → brackets s + 3 ≤ n →
    readWithin beyond n s = read s
  | 0, _, _, h => by omega
  | n + 1, s, ha, hn => by
    rw [readWithin, read_eq]
    by_cases hl : s.getLast? = some ']'
    · exact array_congr hl fun x hx hb => texts beyond n x (infix_ascii hx.isInfix ha) (by omega)
    · by_cases hp : s.getLast? = some ')'
      · unfold readStep
        rw [if_pos hp, if_pos hp]
        split
        · rfl
        · have key := any_loop (r := readWithin beyond n) ha
            (fun x hx hq => items beyond n x hq (by have := brackets_infix hx; omega))
            (fun x hx hq => groups beyond n x (infix_ascii hx ha) hq (by have := brackets_infix hx; omega)) _ s []
              { subtypes := [], subtuples := [], nested := 0, topOpen := 0, lastItem := 1 } rfl rfl (by simp [CleanAt])
              (by simp [Noted])
          simp only [List.length_nil] at key
          rw [key]
      · exact plain_congr _ _ hp hl

/-! ### how many are needed -/

theorem boolArrays_ascii : ∀ k, ascii (boolArrays k)
  | 0 => by unfold ascii; decide
  | k + 1 => ascii_append (boolArrays_ascii k) (by unfold ascii; decide)

theorem boolArrays_items : ∀ k, ')' ∉ boolArrays k ∧ brackets (boolArrays k) = k
  | 0 => by decide
  | k + 1 => by
    obtain ⟨h1, h2⟩ := boolArrays_items k
    refine ⟨by simp [boolArrays, h1], ?_⟩
    simp only [brackets] at h2 ⊢
    rw [boolArrays, List.count_append, h2]
    rfl

theorem boolArrays_step (r : Str → Res ParamType) (k : Nat) :
    readStep r (boolArrays (k + 1)) = (r (boolArrays k) >>= fun t => .ok (.array t)) := by
  have e : boolArrays (k + 1) = boolArrays k ++ '[' :: ([] ++ [']']) := rfl
  have hl : (boolArrays (k + 1)).getLast? = some ']' := by simp [e]
  have hl' : (boolArrays (k + 1)).getLast? ≠ some ')' := by rw [hl]; decide
  have ha := boolArrays_ascii (k + 1)
  unfold readStep
  rw [if_neg hl', if_pos hl]
  have h1 : arrayNum (boolArrays (k + 1)) = [] := by rw [e]; exact arrayNum_append _ _ (by simp)
  have h2 : indexSub (boolArrays (k + 1)).length 2 = .ok (boolArrays k).length := by simp [e, indexSub]
  have h3 : strSlice (boolArrays (k + 1)) 0 (boolArrays k).length = .ok (boolArrays k) := by
    rw [strSlice_ascii ha (by omega) (by simp [e])]
    simp [e]
  simp only [h1, h2, if_true]
  change (strSlice (boolArrays (k + 1)) 0 (boolArrays k).length >>= fun sub => r sub >>= fun t => Res.ok (ParamType.array t)) = _
  rw [h3]
  rfl

theorem boolArrays_short {beyond : Res ParamType} (hb : ∀ t, beyond ≠ .ok t) : ∀ (n k : Nat), n ≤ k →
    readWithin beyond n (boolArrays k) = beyond
  | 0, _, _ => rfl
  | n + 1, 0, h => by omega
  | n + 1, k + 1, h => by
    rw [readWithin, boolArrays_step, boolArrays_short hb n k (by omega)]
    cases beyond with
    | ok t => exact absurd rfl (hb t)
    | err e => rfl
    | panic => rfl

theorem enough (beyond : Res ParamType) : ∀ (n : Nat) (s : Str), byteLen s < n → readWithin beyond n s = read s
  | 0, _, h => by omega
  | n + 1, s, h => by
    rw [readWithin, read_eq]
    exact readStep_congr fun t ht => enough beyond n t (by omega)

end Ethabi.Depth

import Verif.Proofs.Depth
import Verif.Model.ReaderCount
/-! The work of `Reader::read`: at most quadratic in the text. -/
namespace Ethabi.ReaderCount
open Spec Counted Depth

/-! ### the results are those of the reader -/

theorem res_bind {α β : Type} (x : Counted α) (f : α → Counted β) : (x >>= f).res = (x.res >>= fun a => (f a).res) := by
  change (Counted.bind x f).res = _
  unfold Counted.bind
  cases h : x.res <;> rfl

@[simp] theorem res_free {α : Type} (x : Res α) : (free x).res = x := rfl
@[simp] theorem work_free {α : Type} (x : Res α) : (free x).work = 0 := rfl

theorem res_ite {α : Type} (p : Prop) [Decidable p] (x y : Counted α) : (if p then x else y).res = if p then x.res else y.res := by
  split <;> rfl

theorem res_close (rec : Str → Counted ParamType) (name rest : Str) (pos : Nat) (st : ReadSt) :
    (readCloseCount rec name rest pos st).res = readClose (fun s => (rec s).res) name rest pos st := by
  unfold readCloseCount readClose
  simp only [res_ite, res_bind, res_free]

theorem res_comma (rec : Str → Counted ParamType) (name : Str) (pos : Nat) (st : ReadSt) :
    (readCommaCount rec name pos st).res = readComma (fun s => (rec s).res) name pos st := by
  unfold readCommaCount readComma
  simp only [res_ite, res_bind, res_free]

theorem res_loop (rec : Str → Counted ParamType) (name : Str) : ∀ (cs : Str) (pos skip : Nat) (st : ReadSt),
    (readLoopCount rec name cs pos skip st).res = readLoop (fun s => (rec s).res) name cs pos skip st
  | [], _, _, _ => by simp [readLoopCount, readLoop]
  | _ :: cs, pos, skip + 1, st => by
    rw [readLoopCount, readLoop]; exact res_loop rec name cs _ _ _
  | c :: cs, pos, 0, st => by
    rw [readLoopCount, readLoop]
    simp only [res_ite, res_bind, res_close, res_comma]
    simp only [res_loop rec name cs]

theorem res_body (rec : Str → Counted ParamType) (name : Str) :
    (readBodyCount rec name).res = readStep (fun s => (rec s).res) name := by
  unfold readBodyCount readStep
  simp only [res_ite, res_bind, res_free, res_loop]

theorem res_fuel (beyond : Counted ParamType) : ∀ (n : Nat) (s : Str),
    (readFuelCount beyond n s).res = readWithin beyond.res n s
  | 0, _ => rfl
  | n + 1, s => by
    rw [readFuelCount, readWithin, readStepCount]
    dsimp only
    rw [res_body]
    congr 1
    funext x
    exact res_fuel beyond n x

/-! ### bounds -/

theorem work_bind_le {α β : Type} {x : Counted α} {f : α → Counted β} {m : Nat}
    (h : ∀ a, x.res = .ok a → (f a).work ≤ m) : (x >>= f).work ≤ x.work + m := by
  change (Counted.bind x f).work ≤ _
  unfold Counted.bind
  cases hx : x.res with
  | ok a => have := h a hx; simp only []; omega
  | err e => simp
  | panic => simp

theorem work_free_bind {α β : Type} {x : Res α} {f : α → Counted β} {m : Nat}
    (h : ∀ a, x = .ok a → (f a).work ≤ m) : (free x >>= f).work ≤ m := by
  have := work_bind_le (x := free x) (f := f) (m := m) h
  simpa using this

theorem work_assoc {α β γ : Type} (x : Counted α) (f : α → Counted β) (g : β → Counted γ) :
    ((x >>= f) >>= g).work ≤ (x >>= fun a => f a >>= g).work := by
  change (Counted.bind (Counted.bind x f) g).work ≤ (Counted.bind x fun a => Counted.bind (f a) g).work
  unfold Counted.bind
  cases x.res with
  | ok a => dsimp only; cases (f a).res <;> dsimp only <;> omega
  | err e => simp
  | panic => simp

/-- the array suffix -/
theorem work_array {rec : Str → Counted ParamType} {s : Str} {m : Nat} (hl : s.getLast? = some ']')
    (hr : ∀ x, x <+: s → brackets x < brackets s → (rec x).work ≤ m) : (readBodyCount rec s).work ≤ m := by
  obtain ⟨p, rfl⟩ := ends_with hl
  have hl' : (p ++ [']']).getLast? ≠ some ')' := by rw [hl]; decide
  unfold readBodyCount
  rw [if_neg hl', if_pos hl]
  simp only []
  split
  · refine work_free_bind fun e he => work_free_bind fun x hx => ?_
    unfold indexSub at he
    split at he
    · cases he
      obtain ⟨h1, -, h2⟩ := array_slice (by simp) hx
      exact Nat.le_trans (work_bind_le (m := 0) fun _ _ => by simp) (by have := hr x h1 h2; omega)
    · cases he
  · refine work_free_bind fun len _ => work_free_bind fun e1 he1 => work_free_bind fun e he => work_free_bind fun x hx => ?_
    unfold indexSub at he he1
    split at he1
    · cases he1
      split at he
      · cases he
        obtain ⟨h1, -, h2⟩ := array_slice (by simp; omega) hx
        exact Nat.le_trans (work_bind_le (m := 0) fun _ _ => by simp) (by have := hr x h1 h2; omega)
      · cases he
    · cases he1

theorem work_plain (rec : Str → Counted ParamType) {s : Str} (h1 : s.getLast? ≠ some ')') (h2 : s.getLast? ≠ some ']') :
    (readBodyCount rec s).work = 0 := by
  unfold readBodyCount
  rw [if_neg h1, if_neg h2]
  rfl

theorem budget {B a c x w v : Nat} (h1 : w ≤ B * a) (h2 : v ≤ B * c) (h : a + c ≤ x) : w + v ≤ B * x := by
  have := Nat.mul_le_mul_left B h
  rw [Nat.mul_add] at this
  omega

theorem fewer {b c a x B : Nat} (hb : b < c) (ha : a ≤ x) : (b + B) * (a + 1) + (x + 1) ≤ (c + B) * (x + 1) := by
  have h1 : (b + B) * (a + 1) ≤ (b + B) * (x + 1) := Nat.mul_le_mul_left _ (by omega)
  have h2 : (b + B + 1) * (x + 1) ≤ (c + B) * (x + 1) := Nat.mul_le_mul_right _ (by omega)
  have e : (b + B + 1) * (x + 1) = (b + B) * (x + 1) + (x + 1) := Nat.succ_mul _ _
  omega

/-! ### texts without a closing parenthesis -/

theorem items_work (beyond : Counted ParamType) : ∀ (n : Nat) (s : Str), ')' ∉ s → brackets s + 1 ≤ n →
    (readFuelCount beyond n s).work ≤ (brackets s + 1) * (s.length + 1)
  | 0, _, _, h => by omega
  | n + 1, s, hp, hn => by
    rw [readFuelCount, readStepCount]
    dsimp only
    by_cases hl : s.getLast? = some ']'
    · have hb : 1 ≤ brackets s := List.count_pos_iff.2 (getLast_mem hl)
      have key : (readBodyCount (readFuelCount beyond n) s).work ≤ (brackets s - 1 + 1) * (s.length + 1) :=
        work_array hl fun x hx hlt => Nat.le_trans (items_work beyond n x (fun h => hp (hx.subset h)) (by omega))
          (Nat.mul_le_mul (by omega) (by have := hx.length_le; omega))
      have := fewer (b := brackets s - 1) (c := brackets s) (B := 1) (by omega) (Nat.le_refl s.length)
      omega
    · rw [work_plain _ (fun h => hp (getLast_mem h)) hl]
      have := Nat.mul_le_mul_right (s.length + 1) (show 1 ≤ brackets s + 1 by omega)
      omega

/-! ### the loop -/

theorem comma_work {rec : Str → Counted ParamType} {pre rest : Str} {st : ReadSt} {B : Nat} (ha : ascii (pre ++ rest))
    (hr : ∀ x, x <:+: pre ++ rest → ')' ∉ x → (rec x).work ≤ B * (x.length + 1)) (hc : CleanAt pre st) :
    (readCommaCount rec (pre ++ rest) pre.length st).work ≤ B * (pre.length + 1 - st.lastItem) := by
  unfold readCommaCount
  refine work_free_bind fun item hi => ?_
  have e := slice_item ha hi
  obtain ⟨-, hle, -, -⟩ := strSlice_ok hi
  have hw := hr item (infix_of_slice hi) (by rw [e]; exact hc)
  rw [show item.length + 1 = pre.length + 1 - st.lastItem by rw [e, List.length_drop]; omega] at hw
  split
  · simp
  · split
    · exact Nat.le_trans (work_bind_le (m := 0) fun _ _ => by simp) (by omega)
    · split
      · exact Nat.le_trans (work_bind_le (m := 0) fun _ _ => work_free_bind fun _ _ => by simp) (by omega)
      · simp

theorem comma_last {rec : Str → Res ParamType} {pre rest : Str} {st st' : ReadSt}
    (h : readComma rec (pre ++ rest) pre.length st = .ok st') : st.lastItem ≤ pre.length ∧
      (st'.lastItem = pre.length + 1 ∨ (st' = st ∧ ∀ r : Str → Counted ParamType, (readCommaCount r (pre ++ rest) pre.length st).work = 0)) := by
  unfold readComma at h
  simp only [Res.bind_eq_ok] at h
  obtain ⟨item, hi, h⟩ := h
  obtain ⟨-, hle, -, -⟩ := strSlice_ok hi
  refine ⟨hle, ?_⟩
  split at h
  · cases h
    exact Or.inl rfl
  · rename_i h0
    split at h
    · simp only [Res.bind_eq_ok, Res.ok.injEq] at h
      obtain ⟨t, -, rfl⟩ := h
      exact Or.inl rfl
    · rename_i h1
      split at h
      · simp only [Res.bind_eq_ok, Res.ok.injEq] at h
        obtain ⟨t, -, _, -, rfl⟩ := h
        exact Or.inl rfl
      · rename_i h2
        cases h
        refine Or.inr ⟨rfl, fun r => Nat.le_zero.1 ?_⟩
        unfold readCommaCount
        refine work_free_bind fun item' hi' => ?_
        rw [hi] at hi'
        cases hi'
        rw [if_neg h0, if_neg h1, if_neg h2]
        simp

theorem comma_turn {rec : Str → Counted ParamType} {pre rest : Str} {st : ReadSt} {B : Nat} (ha : ascii (pre ++ rest))
    (hr : ∀ x, x <:+: pre ++ rest → ')' ∉ x → (rec x).work ≤ B * (x.length + 1)) (hc : CleanAt pre st)
    (hlen : pre.length + 1 ≤ (pre ++ rest).length) {f : ReadSt → Counted ReadSt} {g : ReadSt → Nat} {m : Nat}
    (hf : ∀ st', readComma (fun s => (rec s).res) (pre ++ rest) pre.length st = .ok st' →
      (f st').work ≤ B * ((pre ++ rest).length - st'.lastItem + g st') ∧ g st' ≤ m) :
    (readCommaCount rec (pre ++ rest) pre.length st >>= f).work ≤ B * ((pre ++ rest).length - st.lastItem + m) := by
  have hw := comma_work ha hr hc
  by_cases h : ∃ st', readComma (fun s => (rec s).res) (pre ++ rest) pre.length st = .ok st'
  · obtain ⟨st', h⟩ := h
    obtain ⟨h1, h2⟩ := hf st' h
    obtain ⟨h3, h4⟩ := comma_last h
    have key : (readCommaCount rec (pre ++ rest) pre.length st >>= f).work ≤
        (readCommaCount rec (pre ++ rest) pre.length st).work + (f st').work :=
      work_bind_le fun a e => by
        rw [res_comma, h] at e
        cases e
        exact Nat.le_refl _
    refine Nat.le_trans key ?_
    rcases h4 with h4 | ⟨rfl, h4⟩
    · exact budget hw h1 (by rw [h4]; omega)
    · rw [h4 rec, Nat.zero_add]
      exact Nat.le_trans h1 (Nat.mul_le_mul_left _ (by omega))
  · have key : (readCommaCount rec (pre ++ rest) pre.length st >>= f).work ≤
        (readCommaCount rec (pre ++ rest) pre.length st).work + 0 :=
      work_bind_le fun a e => absurd ⟨a, by rw [res_comma] at e; exact e⟩ h
    exact Nat.le_trans key (Nat.le_trans hw (Nat.mul_le_mul_left _ (by omega)))

/-- the loop once no opening parenthesis is ahead and at most one is open -/
theorem flat_work {rec : Str → Counted ParamType} {name : Str} {B : Nat} (ha : ascii name)
    (hr : ∀ x, x <:+: name → ')' ∉ x → (rec x).work ≤ B * (x.length + 1)) : ∀ (cs pre : Str) (st : ReadSt),
      name = pre ++ cs → '(' ∉ cs → st.nested ≤ 1 → CleanAt pre st →
      (readLoopCount rec name cs pre.length 0 st).work ≤ B * (name.length - st.lastItem)
  | [], _, _, _, _, _, _ => by simp [readLoopCount]
  | c :: cs, pre, st, hname, ho, hn, hc => by
    have ho' : '(' ∉ cs := fun h => ho (by simp [h])
    have hc' : c ≠ '(' := fun h => ho (by simp [h])
    have hnext : name = (pre ++ [c]) ++ cs := by rw [hname]; simp
    have hlen : pre.length + 1 ≤ name.length := by rw [hname]; simp
    have next : ∀ st', st'.nested ≤ 1 → CleanAt (pre ++ [c]) st' →
        (readLoopCount rec name cs (pre.length + 1) 0 st').work ≤ B * (name.length - st'.lastItem) := by
      intro st' h1 h2
      have := flat_work ha hr cs (pre ++ [c]) st' hnext ho' h1 h2
      simpa using this
    simp only [readLoopCount]
    rw [if_neg hc']
    split
    · rename_i hcl
      subst hcl
      unfold readCloseCount
      simp only []
      split
      · refine work_free_bind fun a e => ?_
        cases e
      · rename_i hneg
        refine Nat.le_trans (work_assoc _ _ _) (work_free_bind fun item hi => ?_)
        have e : item = pre.drop st.lastItem := by rw [hname] at hi; exact slice_item (by rw [← hname]; exact ha) hi
        obtain ⟨-, hle, -, -⟩ := strSlice_ok hi
        split
        · refine work_free_bind fun a ea => ?_
          cases ea
          exact Nat.le_trans (next _ (by dsimp only; omega) clean_end) (Nat.mul_le_mul_left _ (by dsimp only; omega))
        · rw [if_pos (by omega)]
          have hw := hr item (infix_of_slice hi) (by rw [e]; exact hc)
          rw [show item.length + 1 = pre.length + 1 - st.lastItem by rw [e, List.length_drop]; omega] at hw
          refine Nat.le_trans (work_assoc _ _ _) ?_
          refine Nat.le_trans (work_bind_le (m := B * (name.length - (pre.length + 1))) fun t _ => ?_)
            (budget hw (Nat.le_refl _) (by omega))
          refine work_free_bind fun a ea => ?_
          cases ea
          exact next _ (by dsimp only; omega) clean_end
    · split
      · rename_i hcm
        subst hcm
        have key := comma_turn (rec := rec) (B := B) (pre := pre) (rest := ',' :: cs) (st := st)
          (f := fun st' => readLoopCount rec name cs (pre.length + 1) 0 st') (g := fun _ => 0) (m := 0)
          (by rw [← hname]; exact ha) (by rw [← hname]; exact hr) hc (by rw [← hname]; exact hlen)
          (fun st' he => by
            obtain ⟨h1, h2, -⟩ := comma_clean hc he
            rw [← hname]
            exact ⟨next st' (by omega) h1, Nat.le_refl _⟩)
        rw [← hname] at key
        exact key
      · rename_i h1 h2
        exact next st hn (drop_concat_not_mem hc (fun h => h1 h.symm))

theorem groups_work (beyond : Counted ParamType) : ∀ (n : Nat) (s : Str), ascii s → OneOpen s → brackets s + 2 ≤ n →
    (readFuelCount beyond n s).work ≤ (brackets s + 2) * (s.length + 1)
  | 0, _, _, _, h => by omega
  | n + 1, s, ha, ho, hn => by
    rw [readFuelCount, readStepCount]
    dsimp only
    have one := Nat.mul_le_mul_right (s.length + 1) (show 1 ≤ brackets s + 2 by omega)
    by_cases hl : s.getLast? = some ']'
    · have hb : 1 ≤ brackets s := List.count_pos_iff.2 (getLast_mem hl)
      have key : (readBodyCount (readFuelCount beyond n) s).work ≤ (brackets s - 1 + 2) * (s.length + 1) :=
        work_array hl fun x hx hlt => Nat.le_trans
          (groups_work beyond n x (infix_ascii hx.isInfix ha) (oneOpen_prefix ho hx) (by omega))
          (Nat.mul_le_mul (by omega) (by have := hx.length_le; omega))
      have := fewer (b := brackets s - 1) (c := brackets s) (B := 2) (by omega) (Nat.le_refl s.length)
      omega
    · by_cases hp : s.getLast? = some ')'
      · have ho' := oneOpen_closed ho hp
        unfold readBodyCount
        rw [if_pos hp]
        split
        · simp only [work_free]; omega
        · rename_i hs
          cases s with
          | nil => cases hp
          | cons c cs =>
            obtain rfl : c = '(' := starts_open hs
            have key := flat_work (rec := readFuelCount beyond n) (B := brackets ('(' :: cs) + 1) ha
              (fun x hx hq => Nat.le_trans (items_work beyond n x hq (by have := brackets_infix hx; omega))
                (Nat.mul_le_mul_right _ (by have := brackets_infix hx; omega))) cs ['(']
              (readOpen 0 { subtypes := [], subtuples := [], nested := 0, topOpen := 0, lastItem := 1 }) rfl ho'
              (by simp [readOpen]) (by simp [readOpen, CleanAt])
            simp only [readLoopCount, if_true]
            simp only [List.length_singleton] at key
            have h4 := Nat.le_trans key (Nat.mul_le_mul_left (brackets ('(' :: cs) + 1)
              (show ('(' :: cs).length - _ ≤ ('(' :: cs).length + 1 by omega))
            have h3 : (brackets ('(' :: cs) + 1) * (('(' :: cs).length + 1) + (('(' :: cs).length + 1) ≤
                (brackets ('(' :: cs) + 2) * (('(' :: cs).length + 1) :=
              fewer (b := brackets ('(' :: cs)) (c := brackets ('(' :: cs) + 1) (B := 1) (by omega) (Nat.le_refl _)
            refine Nat.le_trans (Nat.add_le_add_left (work_bind_le (m := 0) fun _ _ => by simp) _) ?_
            rw [Nat.add_zero]
            refine Nat.le_trans (Nat.add_le_add_left h4 _) ?_
            rw [Nat.add_comm]
            exact h3
      · rw [work_plain _ hp hl]
        omega

/-! ### a second closing parenthesis -/

theorem closes_not_ok (r : Str → Res ParamType) (name : Str) : ∀ (cs : Str) (pos skip : Nat) (st : ReadSt), '(' ∉ cs →
    ')' ∉ cs.take skip → 0 ≤ st.nested → st.nested < cs.count ')' → ∀ st', readLoop r name cs pos skip st ≠ .ok st'
  | [], _, _, st, _, _, h0, h => by simp at h; omega
  | c :: cs, pos, skip + 1, st, ho, hs, h0, h => by
    have hc : c ≠ ')' := fun e => hs (by simp [e])
    rw [readLoop]
    exact closes_not_ok r name cs _ _ _ (fun h => ho (by simp [h])) (fun h => hs (by simp [h])) h0
      (by rw [List.count_cons_of_ne hc] at h; exact h)
  | c :: cs, pos, 0, st, ho, _, h0, h => by
    have ho' : '(' ∉ cs := fun h => ho (by simp [h])
    have hc : c ≠ '(' := fun e => ho (by simp [e])
    intro st'
    rw [readLoop, if_neg hc]
    split
    · rename_i hcl
      subst hcl
      rw [List.count_cons_self] at h
      simp only [ne_eq, Res.bind_eq_ok, not_exists, not_and]
      rintro ⟨st1, k⟩ he
      have : st1.nested = st.nested - 1 ∧ 0 ≤ st1.nested ∧ ')' ∉ cs.take k := by
        unfold readClose at he
        simp only [] at he
        split at he
        · cases he
        · simp only [Res.bind_eq_ok] at he
          obtain ⟨item, -, he⟩ := he
          split at he
          · simp only [Res.ok.injEq, Prod.mk.injEq] at he
            obtain ⟨rfl, rfl⟩ := he
            exact ⟨rfl, by dsimp only; omega, by simp⟩
          · split at he
            · simp only [Res.bind_eq_ok, Res.ok.injEq, Prod.mk.injEq] at he
              obtain ⟨t, -, rfl, rfl⟩ := he
              exact ⟨rfl, by dsimp only; omega, by simp⟩
            · simp only [Res.bind_eq_ok] at he
              obtain ⟨inner, -, t, -, he⟩ := he
              split at he
              · simp only [Res.bind_eq_ok, Res.ok.injEq, Prod.mk.injEq] at he
                obtain ⟨_, -, rfl, rfl⟩ := he
                exact ⟨rfl, by dsimp only; omega, (AnyText.trailing_take cs).1⟩
              · simp only [Res.ok.injEq, Prod.mk.injEq] at he
                obtain ⟨rfl, rfl⟩ := he
                exact ⟨rfl, by dsimp only; omega, (AnyText.trailing_take cs).1⟩
      obtain ⟨h1, h2, h3⟩ := this
      exact closes_not_ok r name cs _ _ _ ho' h3 h2 (by push_cast at h; omega) st'
    · rename_i hcl
      rw [List.count_cons_of_ne hcl] at h
      split
      · simp only [ne_eq, Res.bind_eq_ok, not_exists, not_and]
        intro st1 he
        have : st1.nested = st.nested := by
          unfold readComma at he
          simp only [Res.bind_eq_ok] at he
          obtain ⟨item, -, he⟩ := he
          split at he
          · cases he; rfl
          · split at he
            · simp only [Res.bind_eq_ok, Res.ok.injEq] at he
              obtain ⟨t, -, rfl⟩ := he
              rfl
            · split at he
              · simp only [Res.bind_eq_ok, Res.ok.injEq] at he
                obtain ⟨t, -, _, -, rfl⟩ := he
                rfl
              · cases he; rfl
        exact closes_not_ok r name cs _ _ _ ho' (by simp) (by omega) (by omega) st'
      · exact closes_not_ok r name cs _ _ _ ho' (by simp) h0 h st'

theorem closed_twice {u : Str} (ho : '(' ∉ u.drop 1) (hl : u.getLast? = some ')') (h2 : 2 ≤ u.count ')') (p : ParamType) :
    read u ≠ .ok p := by
  rw [read_eq]
  unfold readStep
  rw [if_pos hl]
  split
  · simp
  · rename_i hs
    cases u with
    | nil => cases hl
    | cons c cs =>
      obtain rfl : c = '(' := starts_open hs
      simp only [readLoop, if_true, ne_eq, Res.bind_eq_ok, not_exists, not_and]
      intro st h
      refine absurd h (closes_not_ok _ _ cs _ _ _ (by simpa using ho) (by simp) (by simp [readOpen]) ?_ st)
      rw [List.count_cons_of_ne (by decide)] at h2
      simp [readOpen]
      omega

theorem spent : ∀ (n : Nat) (u t : Str), t.length = n → ascii (u ++ t) → '(' ∉ u.drop 1 → u.getLast? = some ')' →
    2 ≤ u.count ')' → ')' ∉ t → ∀ p, read (u ++ t) ≠ .ok p := by
  intro n
  induction n using Nat.strongRecOn with
  | _ n ih =>
  intro u t hn ha ho hl h2 ht p
  obtain ⟨y, rfl⟩ := ends_with hl
  by_cases h1 : (y ++ [')'] ++ t).getLast? = some ')'
  · rcases List.eq_nil_or_concat t with rfl | ⟨t', c, rfl⟩
    · rw [List.append_nil]
      exact closed_twice ho hl h2 p
    · rw [List.concat_eq_append, ← List.append_assoc, List.getLast?_concat] at h1
      cases h1
      simp at ht
  by_cases h3 : (y ++ [')'] ++ t).getLast? = some ']'
  · rcases List.eq_nil_or_concat t with rfl | ⟨t', c, rfl⟩
    · rw [List.append_nil, hl] at h3; cases h3
    · rw [List.concat_eq_append, ← List.append_assoc, List.getLast?_concat] at h3
      cases h3
      rw [List.concat_eq_append] at *
      by_cases hb : '[' ∈ t'
      · obtain ⟨q, num, rfl, hnum⟩ := last_bracket t' hb
        have e1 : y ++ [')'] ++ (q ++ '[' :: num ++ [']']) = (y ++ [')'] ++ q) ++ '[' :: (num ++ [']']) := by simp
        rw [e1] at ha ⊢
        have haq : ascii (y ++ [')'] ++ q) := fun x hx => ha x (by simp only [List.mem_append] at hx ⊢; tauto)
        have hq := ih q.length (by rw [← hn]; simp) (y ++ [')']) q rfl haq ho hl h2 (fun h => ht (by simp [h]))
        by_cases hne : num = []
        · subst hne
          rw [show y ++ [')'] ++ q ++ '[' :: ([] ++ [']']) = y ++ [')'] ++ q ++ lit "[]" by rfl, read_array haq]
          simp only [ne_eq, Res.bind_eq_ok, not_exists, not_and]
          exact fun a h => absurd h (hq a)
        · rw [read_fixedArray haq (fun x hx => ha x (by simp [hx])) hne hnum]
          simp only [ne_eq, Res.bind_eq_ok, not_exists, not_and]
          exact fun _ _ a h => absurd h (hq a)
      · have e2 : y ++ [')'] ++ (t' ++ [']']) = y ++ ')' :: (t' ++ [']']) := by simp
        rw [e2] at ha ⊢
        obtain ⟨e, he⟩ := AnyText.across_err (c := ')') (Or.inr rfl) ha hb
        rw [he]; simp
  · obtain ⟨e, he⟩ := AnyText.elementary_err (c := ')') (Or.inr rfl) (by simp) h1 h3
    rw [he]; simp

/-! ### any text -/

/-- where the next group can start: at the parenthesis last opened, or if that is closed, here -/
def groupFrom (pre : Str) (top : Nat) : Nat := if ')' ∈ pre.drop top then pre.length else top

/-- what is left to do, in characters -/
def ahead (N : Nat) (pre : Str) (st : ReadSt) : Nat := N - st.lastItem + (N + 1 - groupFrom pre st.topOpen) + (N + 1)

theorem groupFrom_le {pre : Str} {st : ReadSt} (h : Noted pre st) : groupFrom pre st.topOpen ≤ pre.length := by
  unfold groupFrom
  split
  · exact Nat.le_refl _
  · exact h.1

theorem groupFrom_grows (pre more : Str) (top : Nat) : groupFrom pre top ≤ groupFrom (pre ++ more) top := by
  unfold groupFrom
  by_cases hm : ')' ∈ pre.drop top
  · rw [if_pos hm, if_pos (by rw [List.drop_append]; exact List.mem_append_left _ hm)]
    simp
  · rw [if_neg hm]
    split
    · by_contra hlt
      rename_i hm2
      rw [List.drop_of_length_le (by simp at hlt ⊢; omega)] at hm2
      simp at hm2
    · exact Nat.le_refl _

theorem groupFrom_closed {pre : Str} (more : Str) {st : ReadSt} (hn : Noted pre st) :
    groupFrom (pre ++ ')' :: more) st.topOpen = pre.length + more.length + 1 := by
  unfold groupFrom
  rw [if_pos]
  · simp; omega
  · rw [List.drop_append_of_le_length hn.1]
    simp

/-- one closing parenthesis and what follows -/
theorem close_turn {rec : Str → Counted ParamType} {pre cs : Str} {st : ReadSt} {B : Nat} (ha : ascii (pre ++ ')' :: cs))
    (hr : ∀ x, x <:+: pre ++ ')' :: cs → ')' ∉ x → (rec x).work ≤ B * (x.length + 1))
    (hg : ∀ x, x <:+: pre ++ ')' :: cs → OneOpen x → (rec x).work ≤ B * (x.length + 1) ∧ (rec x).res = read x)
    (hc : CleanAt pre st) (ho : Noted pre st) {f : ReadSt × Nat → Counted ReadSt}
    (hf : ∀ st' k, readClose (fun s => (rec s).res) (pre ++ ')' :: cs) cs pre.length st = .ok (st', k) →
      (f (st', k)).work ≤ B * ahead (pre ++ ')' :: cs).length (pre ++ ')' :: cs.take k) st') :
    (readCloseCount rec (pre ++ ')' :: cs) cs pre.length st >>= f).work ≤ B * ahead (pre ++ ')' :: cs).length pre st := by
  have hlen : pre.length + 1 + cs.length = (pre ++ ')' :: cs).length := by simp; omega
  have hgf := groupFrom_le ho
  unfold readClose at hf
  unfold readCloseCount
  simp only [] at hf ⊢
  split
  · refine work_free_bind fun a e => ?_
    cases e
  · rename_i hneg
    rw [if_neg hneg] at hf
    refine Nat.le_trans (work_assoc _ _ _) (work_free_bind fun item hi => ?_)
    simp only [Res.bind_eq_ok] at hf
    have hf := fun st' k h => hf st' k ⟨item, hi, h⟩
    have e := slice_item ha hi
    obtain ⟨-, hle, -, -⟩ := strSlice_ok hi
    split
    · rename_i h0
      rw [if_pos h0] at hf
      refine work_free_bind fun a ea => ?_
      cases ea
      refine Nat.le_trans (hf _ _ rfl) (Nat.mul_le_mul_left _ ?_)
      unfold ahead
      dsimp only
      rw [groupFrom_closed _ ho]
      simp only [List.take_zero, List.length_nil]
      omega
    · rename_i h0
      rw [if_neg h0] at hf
      have hne : st.lastItem < pre.length := by
        by_contra hlt
        apply h0
        rw [e]
        exact List.drop_of_length_le (by omega)
      split
      · rename_i h1
        rw [if_pos h1] at hf
        have hw := hr item (infix_of_slice hi) (by rw [e]; exact hc)
        refine Nat.le_trans (work_assoc _ _ _) ?_
        refine Nat.le_trans (work_bind_le (m := B * (ahead (pre ++ ')' :: cs).length pre st - (item.length + 1))) fun t ht => ?_)
          (budget hw (Nat.le_refl _) ?_)
        · refine work_free_bind fun a ea => ?_
          cases ea
          refine Nat.le_trans (hf _ _ (by rw [ht]; rfl)) (Nat.mul_le_mul_left _ ?_)
          unfold ahead
          dsimp only
          rw [groupFrom_closed _ ho, e, List.length_drop]
          simp only [List.take_zero, List.length_nil]
          omega
        · unfold ahead
          rw [e, List.length_drop]
          omega
      · rename_i h1
        rw [if_neg h1] at hf
        simp only [Res.bind_eq_ok] at hf
        obtain ⟨t1, t2⟩ := AnyText.trailing_take cs
        refine Nat.le_trans (work_assoc _ _ _) (work_free_bind fun inner hin => ?_)
        obtain ⟨ein, hone⟩ := inner_oneOpen ha ho.1 ho.2 t1 t2 hin
        obtain ⟨hw, hres⟩ := hg inner (infix_of_slice hin) hone
        have hil : inner.length = pre.length + 1 - st.topOpen + trailing cs := by
          rw [ein, List.length_append, List.length_drop, List.length_take]; simp; omega
        have htop := ho.1
        refine Nat.le_trans (work_assoc _ _ _) ?_
        by_cases hok : ∃ t, (rec inner).res = .ok t
        · obtain ⟨t, hok⟩ := hok
          have fresh : ')' ∉ pre.drop st.topOpen := by
            intro hm
            rw [hres, ein] at hok
            refine spent _ _ _ rfl (by rw [← ein]; exact infix_ascii (infix_of_slice hin) ha) ?_ ?_ ?_ t1 t hok
            · rw [List.drop_drop]
              exact drop_concat_not_mem ho.2 (by decide)
            · rw [List.drop_append_of_le_length htop]; simp
            · rw [List.drop_append_of_le_length htop, List.count_append]
              have := List.count_pos_iff.2 hm
              simp
              omega
          have hgf' : groupFrom pre st.topOpen = st.topOpen := by unfold groupFrom; rw [if_neg fresh]
          refine Nat.le_trans (work_bind_le (m := B * (ahead (pre ++ ')' :: cs).length pre st - (inner.length + 1))) fun t' ht => ?_)
            (budget hw (Nat.le_refl _) ?_)
          · have room : ∀ (sub : List (List ParamType)) (ts : List ParamType) (nn : Int),
                ahead (pre ++ ')' :: cs).length (pre ++ ')' :: cs.take (trailing cs))
                  { subtypes := ts, subtuples := sub, nested := nn, topOpen := st.topOpen,
                    lastItem := pre.length + trailing cs + 1 } ≤
                ahead (pre ++ ')' :: cs).length pre st - (inner.length + 1) := by
              intro sub ts nn
              unfold ahead
              dsimp only
              rw [groupFrom_closed _ ho, hgf', hil, List.length_take]
              omega
            have hf := fun st' k h => hf st' k ⟨inner, hin, t', ht, h⟩
            split
            · rename_i h2
              rw [if_pos h2] at hf
              refine Nat.le_trans (work_assoc _ _ _) (work_free_bind fun us hus => ?_)
              refine work_free_bind fun a ea => ?_
              cases ea
              exact Nat.le_trans (hf _ _ (by rw [hus]; rfl)) (Nat.mul_le_mul_left _ (room _ _ _))
            · rename_i h2
              rw [if_neg h2] at hf
              refine work_free_bind fun a ea => ?_
              cases ea
              exact Nat.le_trans (hf _ _ rfl) (Nat.mul_le_mul_left _ (room _ _ _))
          · unfold ahead
            rw [hgf', hil]
            omega
        · refine Nat.le_trans (work_bind_le (m := 0) fun t ht => absurd ⟨t, ht⟩ hok) ?_
          refine Nat.le_trans hw (Nat.mul_le_mul_left _ ?_)
          unfold ahead
          rw [hil]
          omega

theorem loop_skip_count (rec : Str → Counted ParamType) (name : Str) : ∀ (k : Nat) (cs : Str) (pos : Nat) (st : ReadSt),
    k ≤ cs.length → readLoopCount rec name cs pos k st = readLoopCount rec name (cs.drop k) (pos + k) 0 st
  | 0, _, _, _, _ => by simp
  | k + 1, [], _, _, h => by simp at h
  | k + 1, c :: cs, pos, st, h => by
    rw [readLoopCount, loop_skip_count rec name k cs (pos + 1) st (by simpa using h)]
    simp [Nat.add_comm, Nat.add_left_comm]

theorem any_work {rec : Str → Counted ParamType} {name : Str} {B : Nat} (ha : ascii name)
    (hr : ∀ x, x <:+: name → ')' ∉ x → (rec x).work ≤ B * (x.length + 1) ∧ (rec x).res = read x)
    (hg : ∀ x, x <:+: name → OneOpen x → (rec x).work ≤ B * (x.length + 1) ∧ (rec x).res = read x) :
    ∀ (n : Nat) (cs pre : Str) (st : ReadSt), cs.length = n → name = pre ++ cs → CleanAt pre st → Noted pre st →
      st.lastItem ≤ pre.length + 1 →
      (readLoopCount rec name cs pre.length 0 st).work ≤ B * ahead name.length pre st := by
  intro n
  induction n using Nat.strongRecOn with
  | _ n ih =>
  intro cs pre st hlen hname hc ho hli
  cases cs with
  | nil => simp [readLoopCount]
  | cons c cs =>
    have next : ∀ st', CleanAt (pre ++ [c]) st' → Noted (pre ++ [c]) st' → st'.lastItem ≤ pre.length + 2 →
        (readLoopCount rec name cs (pre.length + 1) 0 st').work ≤ B * ahead name.length (pre ++ [c]) st' := by
      intro st' h1 h2 h3
      have := ih cs.length (by rw [← hlen]; simp) cs (pre ++ [c]) st' rfl (by rw [hname]; simp) h1 h2 (by simpa using h3)
      simpa using this
    have stay : ∀ d, c = d → d ≠ '(' → Noted (pre ++ [c]) st := fun d hd hne =>
      ⟨by have := ho.1; simp; omega, drop_concat_not_mem ho.2 (by rw [hd]; exact hne.symm)⟩
    have hgrow := groupFrom_grows pre [c] st.topOpen
    have hgf := groupFrom_le ho
    have hN : name.length = pre.length + 1 + cs.length := by rw [hname]; simp; omega
    simp only [readLoopCount]
    by_cases h1 : c = '('
    · rw [if_pos h1]
      have hli' : st.lastItem ≤ (readOpen pre.length st).lastItem := by
        unfold readOpen; dsimp only; split
        · exact hli
        · exact Nat.le_refl _
      have htop : (readOpen pre.length st).topOpen = pre.length := by
        unfold readOpen; dsimp only; split <;> rfl
      refine Nat.le_trans (next _ ?_ ?_ ?_) (Nat.mul_le_mul_left _ ?_)
      · unfold readOpen
        dsimp only
        split
        · exact clean_end
        · exact drop_concat_not_mem hc (by rw [h1]; decide)
      · exact ⟨by rw [htop]; simp, by rw [htop]; exact clean_end⟩
      · unfold readOpen
        dsimp only
        split
        · simp
        · exact Nat.le_trans hli (by omega)
      · unfold ahead
        have : groupFrom (pre ++ [c]) (readOpen pre.length st).topOpen = pre.length := by
          unfold groupFrom
          rw [htop, if_neg (by rw [h1]; simp)]
        rw [this]
        omega
    · rw [if_neg h1]
      by_cases h2 : c = ')'
      · rw [if_pos h2]
        subst h2
        rw [hname] at ha hr hg ⊢
        refine close_turn ha (fun x hx hp => (hr x hx hp).1) hg hc ho fun st' k he => ?_
        have he' : readClose read (pre ++ ')' :: cs) cs pre.length st = .ok (st', k) := by
          rw [← he]
          exact (close_congr ha (fun x hx hp => (hr x hx hp).2) (fun x hx hp => (hg x hx hp).2) hc ho).symm
        obtain ⟨hk, i1, i2⟩ := close_inv ha ho he'
        have i3 : st'.lastItem ≤ (pre ++ ')' :: cs.take k).length + 1 := by
          unfold readClose at he'
          simp only [] at he'
          split at he'
          · cases he'
          · simp only [Res.bind_eq_ok] at he'
            obtain ⟨item, -, he'⟩ := he'
            split at he'
            · simp only [Res.ok.injEq, Prod.mk.injEq] at he'
              obtain ⟨rfl, rfl⟩ := he'
              simp
            · split at he'
              · simp only [Res.bind_eq_ok, Res.ok.injEq, Prod.mk.injEq] at he'
                obtain ⟨t, -, rfl, rfl⟩ := he'
                simp
              · simp only [Res.bind_eq_ok] at he'
                obtain ⟨inner, -, t, -, he'⟩ := he'
                split at he'
                · simp only [Res.bind_eq_ok, Res.ok.injEq, Prod.mk.injEq] at he'
                  obtain ⟨_, -, rfl, rfl⟩ := he'
                  simp; omega
                · simp only [Res.ok.injEq, Prod.mk.injEq] at he'
                  obtain ⟨rfl, rfl⟩ := he'
                  simp; omega
        dsimp only
        rw [loop_skip_count _ _ k cs _ _ hk]
        have := ih (cs.drop k).length (by rw [← hlen]; simp; omega) (cs.drop k) (pre ++ ')' :: cs.take k) st' rfl
          (by rw [hname]; simp) i1 i2 i3
        have e : (pre ++ ')' :: cs.take k).length = pre.length + 1 + k := by simp; omega
        rw [e, hname] at this
        exact this
      · rw [if_neg h2]
        by_cases h3 : c = ','
        · rw [if_pos h3]
          subst h3
          have key := comma_turn (rec := rec) (B := B) (pre := pre) (rest := ',' :: cs) (st := st)
            (f := fun st' => readLoopCount rec name cs (pre.length + 1) 0 st')
            (g := fun st' => (name.length + 1 - groupFrom (pre ++ [',']) st'.topOpen) + (name.length + 1))
            (m := (name.length + 1 - groupFrom pre st.topOpen) + (name.length + 1))
            (by rw [← hname]; exact ha) (by rw [← hname]; exact fun x hx hp => (hr x hx hp).1) hc
            (by rw [← hname]; omega)
            (fun st' he => by
              obtain ⟨i1, -, i2⟩ := comma_clean hc he
              have i3 := stay _ rfl (by decide)
              have i4 : st'.lastItem ≤ pre.length + 2 := by
                rcases (comma_last he).2 with h | ⟨rfl, -⟩
                · omega
                · omega
              have i5 : Noted (pre ++ [',']) st' := by
                unfold Noted at i3 ⊢
                rw [i2]
                exact i3
              rw [← hname]
              refine ⟨?_, ?_⟩
              · have := next st' i1 i5 i4
                unfold ahead at this
                rw [Nat.add_assoc] at this
                exact this
              · rw [i2]
                omega)
          rw [← hname] at key
          unfold ahead
          rw [Nat.add_assoc]
          exact key
        · rw [if_neg h3]
          refine Nat.le_trans (next st (drop_concat_not_mem hc fun h => h2 h.symm) (stay c rfl h1) (by omega))
            (Nat.mul_le_mul_left _ ?_)
          unfold ahead
          omega

theorem texts_work (beyond : Counted ParamType) : ∀ (n : Nat) (s : Str), ascii s → brackets s + 3 ≤ n →
    (readFuelCount beyond n s).work ≤ 3 * (brackets s + 3) * (s.length + 1)
  | 0, _, _, h => by omega
  | n + 1, s, ha, hn => by
    rw [readFuelCount, readStepCount]
    dsimp only
    have one : 1 * (s.length + 1) ≤ 3 * (brackets s + 3) * (s.length + 1) := Nat.mul_le_mul_right _ (by omega)
    by_cases hl : s.getLast? = some ']'
    · have hb : 1 ≤ brackets s := List.count_pos_iff.2 (getLast_mem hl)
      have key : (readBodyCount (readFuelCount beyond n) s).work ≤ 3 * (brackets s - 1 + 3) * (s.length + 1) :=
        work_array hl fun x hx hlt => Nat.le_trans
          (texts_work beyond n x (infix_ascii hx.isInfix ha) (by omega))
          (Nat.mul_le_mul (by omega) (by have := hx.length_le; omega))
      refine Nat.le_trans (Nat.add_le_add_left key _) ?_
      have : (1 + 3 * (brackets s - 1 + 3)) * (s.length + 1) ≤ 3 * (brackets s + 3) * (s.length + 1) :=
        Nat.mul_le_mul_right _ (by omega)
      rw [Nat.add_mul] at this
      omega
    · by_cases hp : s.getLast? = some ')'
      · unfold readBodyCount
        rw [if_pos hp]
        split
        · simp only [work_free]; omega
        · have key := any_work (rec := readFuelCount beyond n) (B := brackets s + 2) ha
            (fun x hx hq => ⟨Nat.le_trans (items_work beyond n x hq (by have := brackets_infix hx; omega))
                (Nat.mul_le_mul_right _ (by have := brackets_infix hx; omega)),
              by rw [res_fuel]; exact items _ n x hq (by have := brackets_infix hx; omega)⟩)
            (fun x hx hq => ⟨Nat.le_trans (groups_work beyond n x (infix_ascii hx ha) hq (by have := brackets_infix hx; omega))
                (Nat.mul_le_mul_right _ (by have := brackets_infix hx; omega)),
              by rw [res_fuel]; exact groups _ n x (infix_ascii hx ha) hq (by have := brackets_infix hx; omega)⟩) _ s []
              { subtypes := [], subtuples := [], nested := 0, topOpen := 0, lastItem := 1 } rfl rfl (by simp [CleanAt])
              (by simp [Noted]) (by simp)
          simp only [List.length_nil] at key
          refine Nat.le_trans (Nat.add_le_add_left (work_bind_le (m := 0) fun _ _ => by simp) _) ?_
          rw [Nat.add_zero]
          refine Nat.le_trans (Nat.add_le_add_left key _) ?_
          have h1 : (brackets s + 2) * ahead s.length [] { subtypes := [], subtuples := [], nested := 0, topOpen := 0, lastItem := 1 } ≤
              (brackets s + 2) * (3 * (s.length + 1)) := Nat.mul_le_mul_left _ (by unfold ahead; simp; omega)
          have h2 : (1 + 3 * (brackets s + 2)) * (s.length + 1) ≤ 3 * (brackets s + 3) * (s.length + 1) :=
            Nat.mul_le_mul_right _ (by omega)
          have h3 : (brackets s + 2) * (3 * (s.length + 1)) = 3 * (brackets s + 2) * (s.length + 1) := by
            rw [← Nat.mul_assoc, Nat.mul_comm (brackets s + 2) 3]
          rw [Nat.add_mul] at h2
          omega
      · rw [work_plain _ hp hl]
        omega

/-! ### the work is reached -/

theorem boolArrays_length : ∀ k, (boolArrays k).length = 2 * k + 4
  | 0 => rfl
  | k + 1 => by rw [boolArrays, List.length_append, boolArrays_length k]; simp; omega

theorem boolArrays_body (rec : Str → Counted ParamType) (k : Nat) :
    readBodyCount rec (boolArrays (k + 1)) = (rec (boolArrays k) >>= fun t => free (.ok (.array t))) := by
  have e : boolArrays (k + 1) = boolArrays k ++ '[' :: ([] ++ [']']) := rfl
  have hl : (boolArrays (k + 1)).getLast? = some ']' := by simp [e]
  have hl' : (boolArrays (k + 1)).getLast? ≠ some ')' := by rw [hl]; decide
  have ha := boolArrays_ascii (k + 1)
  unfold readBodyCount
  rw [if_neg hl', if_pos hl]
  have h1 : arrayNum (boolArrays (k + 1)) = [] := by rw [e]; exact arrayNum_append _ _ (by simp)
  have h2 : indexSub (boolArrays (k + 1)).length 2 = .ok (boolArrays k).length := by simp [e, indexSub]
  have h3 : strSlice (boolArrays (k + 1)) 0 (boolArrays k).length = .ok (boolArrays k) := by
    rw [strSlice_ascii ha (by omega) (by simp [e])]
    simp [e]
  have free_ok : ∀ {α β : Type} (a : α) (f : α → Counted β), (free (.ok a) >>= f) = f a := by
    intro α β a f
    change Counted.bind _ f = _
    unfold Counted.bind free
    simp
  simp only [h1, h2, if_true, free_ok, h3]

theorem boolArrays_work (beyond : Counted ParamType) : ∀ (k n : Nat), k + 1 ≤ n →
    (readFuelCount beyond n (boolArrays k)).work = (k + 1) * (k + 5)
  | _, 0, h => by omega
  | 0, n + 1, _ => by
    rw [readFuelCount, readStepCount]
    dsimp only
    rw [work_plain _ (by decide) (by decide)]
    rfl
  | k + 1, n + 1, h => by
    rw [readFuelCount, readStepCount]
    dsimp only
    have ih := boolArrays_work beyond k n (by omega)
    have hok : ∃ t, (readFuelCount beyond n (boolArrays k)).res = .ok t := by
      rw [res_fuel]
      obtain ⟨h1, h2⟩ := boolArrays_items k
      rw [items _ n _ h1 (by omega)]
      clear ih h h1 h2
      induction k with
      | zero => exact ⟨.bool, by decide +kernel⟩
      | succ k ih =>
        obtain ⟨t, ht⟩ := ih
        exact ⟨.array t, by rw [read_eq, boolArrays_step, ht]; rfl⟩
    obtain ⟨t, ht⟩ := hok
    rw [boolArrays_body, boolArrays_length]
    change _ + (Counted.bind _ _).work = _
    unfold Counted.bind
    rw [ht]
    dsimp only
    rw [ih]
    simp only [work_free]
    have : (k + 1 + 1) * (k + 1 + 5) = (k + 1) * (k + 5) + 2 * (k + 1) + 5 := by
      simp only [Nat.add_mul, Nat.mul_add]
      omega
    omega

end Ethabi.ReaderCount

import Verif.Model.ReaderOn
import Verif.Spec.TargetText
import Verif.Proofs.ReaderSizes
import Verif.Proofs.ReaderExact
import Verif.Proofs.TokenText
/-! Type strings on other targets. -/
namespace Ethabi.ReaderOn
open Spec

/-! ### what is collected satisfies `P` if the recursive calls return such types -/

/-- recursive calls return machine-sized types -/
def RecFits (P : ParamType → Prop) (rec : Str → Res ParamType) : Prop := ∀ s t, rec s = .ok t → P t

/-- everything collected in the state is machine-sized -/
def StFits (P : ParamType → Prop) (st : ReadSt) : Prop :=
  (∀ t ∈ st.subtypes, P t) ∧ ∀ l ∈ st.subtuples, ∀ t ∈ l, P t

theorem set_fits {P : ParamType → Prop} {S : List (List ParamType)} {i : Nat} {l : List ParamType}
    (h1 : ∀ l ∈ S, ∀ t ∈ l, P t) (h2 : ∀ t ∈ l, P t) :
    ∀ l' ∈ S.set i l, ∀ t ∈ l', P t := by
  intro l' hl' t ht
  rcases List.mem_or_eq_of_mem_set hl' with h | rfl
  · exact h1 l' h t ht
  · exact h2 t ht

theorem append_fits {P : ParamType → Prop} {l : List ParamType} {t : ParamType} (h1 : ∀ t ∈ l, P t) (h2 : P t) :
    ∀ u ∈ l ++ [t], P u := by
  intro u hu
  rcases List.mem_append.1 hu with h | h
  · exact h1 u h
  · rw [List.mem_singleton.1 h]; exact h2

theorem readOpen_fits {P : ParamType → Prop} {pos : Nat} {st : ReadSt} (h : StFits P st) : StFits P (readOpen pos st) := by
  unfold readOpen
  simp only []
  split
  · refine ⟨h.1, ?_⟩
    intro l hl
    rcases List.mem_append.1 hl with hl | hl
    · exact h.2 l hl
    · rw [List.mem_singleton.1 hl]; simp
  · exact h

theorem readClose_fits {P : ParamType → Prop} (ht0 : ∀ ts, (∀ t ∈ ts, P t) → P (.tuple ts)) {rec : Str → Res ParamType} (hr : RecFits P rec) {name rest : Str} {pos k : Nat} {st st' : ReadSt}
    (h : StFits P st) (he : readClose rec name rest pos st = .ok (st', k)) : StFits P st' := by
  unfold readClose at he
  simp only [] at he
  split at he
  · cases he
  · simp only [Res.bind_eq_ok] at he
    obtain ⟨item, -, he⟩ := he
    split at he
    · simp only [Res.ok.injEq, Prod.mk.injEq] at he
      obtain ⟨rfl, -⟩ := he
      exact h
    · split at he
      · simp only [Res.bind_eq_ok, Res.ok.injEq, Prod.mk.injEq] at he
        obtain ⟨t, ht, rfl, -⟩ := he
        exact ⟨append_fits h.1 (hr _ _ ht), h.2⟩
      · simp only [Res.bind_eq_ok] at he
        obtain ⟨inner, -, t, ht, he⟩ := he
        split at he
        · simp only [Res.bind_eq_ok, Res.ok.injEq, Prod.mk.injEq] at he
          obtain ⟨s, hs, rfl, -⟩ := he
          refine ⟨append_fits h.1 ?_, set_fits h.2 (by simp)⟩
          exact ht0 _ (append_fits (h.2 _ (indexVec_mem hs)) (hr _ _ ht))
        · simp only [Res.ok.injEq, Prod.mk.injEq] at he
          obtain ⟨rfl, -⟩ := he
          exact ⟨append_fits h.1 (hr _ _ ht), h.2⟩

theorem readComma_fits {P : ParamType → Prop} {rec : Str → Res ParamType} (hr : RecFits P rec) {name : Str} {pos : Nat} {st st' : ReadSt}
    (h : StFits P st) (he : readComma rec name pos st = .ok st') : StFits P st' := by
  unfold readComma at he
  simp only [Res.bind_eq_ok] at he
  obtain ⟨item, -, he⟩ := he
  split at he
  · simp only [Res.ok.injEq] at he; subst he; exact h
  · split at he
    · simp only [Res.bind_eq_ok, Res.ok.injEq] at he
      obtain ⟨t, ht, rfl⟩ := he
      exact ⟨append_fits h.1 (hr _ _ ht), h.2⟩
    · split at he
      · simp only [Res.bind_eq_ok, Res.ok.injEq] at he
        obtain ⟨t, ht, s, hs, rfl⟩ := he
        exact ⟨h.1, set_fits h.2 (append_fits (h.2 _ (indexVec_mem hs)) (hr _ _ ht))⟩
      · simp only [Res.ok.injEq] at he; subst he; exact h

theorem readLoop_fits {P : ParamType → Prop} (ht0 : ∀ ts, (∀ t ∈ ts, P t) → P (.tuple ts)) {rec : Str → Res ParamType} (hr : RecFits P rec) {name : Str} (cs : Str) :
    ∀ (pos skip : Nat) (st st' : ReadSt), StFits P st → readLoop rec name cs pos skip st = .ok st' → StFits P st' := by
  induction cs with
  | nil => intro pos skip st st' h he; simp only [readLoop, Res.ok.injEq] at he; exact he ▸ h
  | cons c cs ih =>
    intro pos skip st st' h he
    cases skip with
    | succ skip => simp only [readLoop] at he; exact ih _ _ _ _ h he
    | zero =>
      simp only [readLoop] at he
      split at he
      · exact ih _ _ _ _ (readOpen_fits h) he
      · split at he
        · simp only [Res.bind_eq_ok, Prod.exists] at he
          obtain ⟨st1, k, h1, he⟩ := he
          exact ih _ _ _ _ (readClose_fits ht0 hr h h1) he
        · split at he
          · simp only [Res.bind_eq_ok] at he
            obtain ⟨st1, h1, he⟩ := he
            exact ih _ _ _ _ (readComma_fits hr h h1) he
          · exact ih _ _ _ _ h he


/-! ### the two targets agree, or a number is too large -/

/-- the same result, or, where `q` holds, an error of the integer parser -/
def Rel {α : Type} (q : Prop) (x y : Res α) : Prop := x = y ∨ (q ∧ x = .err .parseInt)

theorem rel_refl {α : Type} {q : Prop} (x : Res α) : Rel q x x := Or.inl rfl

theorem rel_bind {α β : Type} {q : Prop} {x y : Res α} {f g : α → Res β} (h : Rel q x y)
    (hf : ∀ a, y = .ok a → Rel q (f a) (g a)) : Rel q (x >>= f) (y >>= g) := by
  rcases h with rfl | ⟨hq, rfl⟩
  · cases x with
    | ok a => exact hf a rfl
    | err e => exact Or.inl rfl
    | panic => exact Or.inl rfl
  · exact Or.inr ⟨hq, rfl⟩

theorem rel_ite {α : Type} {q c : Prop} [Decidable c] {x y x' y' : Res α} (hx : Rel q x x') (hy : Rel q y y') :
    Rel q (if c then x else y) (if c then x' else y') := by
  split
  · exact hx
  · exact hy

theorem rel_mono {α : Type} {p q : Prop} (h : p → q) {x y : Res α} (hx : Rel p x y) : Rel q x y :=
  hx.imp id fun hp => ⟨h hp.1, hp.2⟩

theorem not_below {bits : Nat} {a b : Str} (h : a <:+: b) (hn : ¬ numbersBelow bits a) : ¬ numbersBelow bits b :=
  fun hb => hn fun d n hd => hb d n (hd.trans h)

/-- the recursive calls agree on every text -/
abbrev RecRel (bits : Nat) (r1 r2 : Str → Res ParamType) : Prop := ∀ s, Rel (¬ numbersBelow bits s) (r1 s) (r2 s)

theorem rel_part {bits : Nat} {r1 r2 : Str → Res ParamType} (hr : RecRel bits r1 r2) {name item : Str} {a b : Nat}
    (h : strSlice name a b = .ok item) : Rel (¬ numbersBelow bits name) (r1 item) (r2 item) := by
  obtain ⟨x, y, rfl, -, -⟩ := TokenText.strSlice_iff.1 h
  exact rel_mono (not_below ⟨x, y, rfl⟩) (hr item)

theorem rel_parse {bits : Nat} (hb : bits ≤ 64) {name d : Str} (h : d <:+: name) :
    Rel (¬ numbersBelow bits name) (parseUsizeOn bits d) (parseUsize d) := by
  have hp : 2 ^ bits ≤ 2 ^ 64 := Nat.pow_le_pow_right (by omega) hb
  by_cases hc : stripPlus d ≠ [] ∧ (stripPlus d).all isDigit ∧ digitsVal (stripPlus d) < 2 ^ 64
  · have h64 : parseUsize d = .ok (digitsVal (stripPlus d)) := by unfold parseUsize; exact if_pos hc
    by_cases hs : digitsVal (stripPlus d) < 2 ^ bits
    · refine Or.inl ?_
      rw [h64]
      unfold parseUsizeOn
      exact if_pos ⟨hc.1, hc.2.1, hs⟩
    · refine Or.inr ⟨fun hn => hs (hn d _ h ((numberText_iff _ _).2 h64)), ?_⟩
      unfold parseUsizeOn
      exact if_neg fun hx => hs hx.2.2
  · refine Or.inl ?_
    unfold parseUsizeOn parseUsize
    simp only []
    rw [if_neg hc, if_neg fun hx => hc ⟨hx.1, hx.2.1, by omega⟩]

theorem rel_close {bits : Nat} {r1 r2 : Str → Res ParamType} (hr : RecRel bits r1 r2) (name rest : Str) (pos : Nat)
    (st : ReadSt) : Rel (¬ numbersBelow bits name) (readClose r1 name rest pos st) (readClose r2 name rest pos st) := by
  unfold readClose
  simp only []
  refine rel_ite (rel_refl _) (rel_bind (rel_refl _) fun item hi => ?_)
  refine rel_ite (rel_refl _) (rel_ite ?_ ?_)
  · exact rel_bind (rel_part hr hi) fun _ _ => rel_refl _
  · exact rel_bind (rel_refl _) fun _ hs => rel_bind (rel_part hr hs) fun _ _ => rel_refl _

theorem rel_comma {bits : Nat} {r1 r2 : Str → Res ParamType} (hr : RecRel bits r1 r2) (name : Str) (pos : Nat)
    (st : ReadSt) : Rel (¬ numbersBelow bits name) (readComma r1 name pos st) (readComma r2 name pos st) := by
  unfold readComma
  refine rel_bind (rel_refl _) fun item hi => ?_
  refine rel_ite (rel_refl _) (rel_ite ?_ (rel_ite ?_ (rel_refl _)))
  · exact rel_bind (rel_part hr hi) fun _ _ => rel_refl _
  · exact rel_bind (rel_part hr hi) fun _ _ => rel_refl _

theorem rel_loop {bits : Nat} {r1 r2 : Str → Res ParamType} (hr : RecRel bits r1 r2) (name : Str) :
    ∀ (cs : Str) (pos skip : Nat) (st : ReadSt),
      Rel (¬ numbersBelow bits name) (readLoop r1 name cs pos skip st) (readLoop r2 name cs pos skip st)
  | [], _, _, _ => by unfold readLoop; exact rel_refl _
  | _ :: cs, pos, skip + 1, st => by unfold readLoop; exact rel_loop hr name cs _ _ _
  | c :: cs, pos, 0, st => by
    unfold readLoop
    refine rel_ite (rel_loop hr name cs _ _ _) (rel_ite ?_ (rel_ite ?_ (rel_loop hr name cs _ _ _)))
    · exact rel_bind (rel_close hr _ _ _ _) fun r _ => rel_loop hr name cs _ _ _
    · exact rel_bind (rel_comma hr _ _ _) fun r _ => rel_loop hr name cs _ _ _

theorem rel_elementary {bits : Nat} (hb : bits ≤ 64) (name : Str) :
    Rel (¬ numbersBelow bits name) (readElementaryOn bits name) (readElementary name) := by
  unfold readElementaryOn readElementary
  iterate 7 refine rel_ite (rel_refl _) ?_
  iterate 3
    refine rel_ite (rel_bind (rel_parse hb (List.drop_suffix _ _).isInfix) fun _ _ => rel_refl _) ?_
  exact rel_refl _

theorem arrayNum_infix (name : Str) : arrayNum name <:+: name := by
  unfold arrayNum
  rw [← List.reverse_infix, List.reverse_reverse]
  exact (List.takeWhile_prefix _).isInfix.trans (List.drop_suffix _ _).isInfix

theorem rel_step {bits : Nat} (hb : bits ≤ 64) {r1 r2 : Str → Res ParamType} (hr : RecRel bits r1 r2) (name : Str) :
    Rel (¬ numbersBelow bits name) (readStepOn bits r1 name) (readStep r2 name) := by
  unfold readStepOn readStep
  refine rel_ite (rel_ite (rel_refl _) ?_) (rel_ite ?_ (rel_elementary hb _))
  · exact rel_bind (rel_loop hr _ _ _ _ _) fun _ _ => rel_refl _
  · simp only []
    refine rel_ite ?_ ?_
    · exact rel_bind (rel_refl _) fun _ _ => rel_bind (rel_refl _) fun _ hs =>
        rel_bind (rel_part hr hs) fun _ _ => rel_refl _
    · exact rel_bind (rel_parse hb (arrayNum_infix _)) fun _ _ => rel_bind (rel_refl _) fun _ _ =>
        rel_bind (rel_refl _) fun _ _ => rel_bind (rel_refl _) fun _ hs =>
        rel_bind (rel_part hr hs) fun _ _ => rel_refl _

theorem rel_read {bits : Nat} (hb : bits ≤ 64) (s : Str) : Rel (¬ numbersBelow bits s) (readOn bits s) (read s) := by
  unfold readOn read
  generalize byteLen s + 1 = n
  induction n generalizing s with
  | zero => exact rel_refl _
  | succ n ih => exact rel_step hb ih s

/-! ### the sizes that come back -/

theorem sizesBelowAll_iff {bits : Nat} (ts : List ParamType) : sizesBelowAll bits ts ↔ ∀ t ∈ ts, sizesBelow bits t := by
  induction ts with
  | nil => simp [sizesBelowAll]
  | cons t ts ih => simp [sizesBelowAll, ih]

theorem parseOn_lt {bits : Nat} {s : Str} {n : Nat} (h : parseUsizeOn bits s = .ok n) : n < 2 ^ bits := by
  unfold parseUsizeOn at h
  simp only [] at h
  split at h
  · rename_i hc; cases h; exact hc.2.2
  · cases h

theorem elementary_below {bits : Nat} (hb : 9 ≤ bits) {s : Str} {t : ParamType} (h : readElementaryOn bits s = .ok t) :
    sizesBelow bits t := by
  have hp : 2 ^ 9 ≤ 2 ^ bits := Nat.pow_le_pow_right (by omega) hb
  unfold readElementaryOn at h
  repeat' split at h
  all_goals first
    | (cases h; simp only [sizesBelow, sizesBelowAll]; done)
    | (cases h; simp only [sizesBelow]; omega)
    | (simp only [Res.bind_eq_ok, Res.ok.injEq] at h
       obtain ⟨n, hn, rfl⟩ := h
       exact parseOn_lt hn)
    | cases h

theorem step_below {bits : Nat} (hb : 9 ≤ bits) {rec : Str → Res ParamType} (hr : RecFits (sizesBelow bits) rec)
    {name : Str} {t : ParamType} (h : readStepOn bits rec name = .ok t) : sizesBelow bits t := by
  have ht0 : ∀ ts : List ParamType, (∀ t ∈ ts, sizesBelow bits t) → sizesBelow bits (.tuple ts) := by
    intro ts hts
    simp only [sizesBelow]
    exact (sizesBelowAll_iff ts).2 hts
  unfold readStepOn at h
  split at h
  · split at h
    · cases h
    · simp only [Res.bind_eq_ok, Res.ok.injEq] at h
      obtain ⟨st, h1, rfl⟩ := h
      exact ht0 _ (readLoop_fits ht0 hr name 0 0 _ st ⟨by simp, by simp⟩ h1).1
  · split at h
    · simp only [] at h
      split at h
      · simp only [Res.bind_eq_ok, Res.ok.injEq] at h
        obtain ⟨_, _, sub, _, u, hu, rfl⟩ := h
        simp only [sizesBelow]
        exact hr _ _ hu
      · simp only [Res.bind_eq_ok, Res.ok.injEq] at h
        obtain ⟨k, hk, _, _, _, _, sub, _, u, hu, rfl⟩ := h
        simp only [sizesBelow]
        exact ⟨parseOn_lt hk, hr _ _ hu⟩
    · exact elementary_below hb h

theorem read_below {bits : Nat} (hb : 9 ≤ bits) {s : Str} {t : ParamType} (h : readOn bits s = .ok t) :
    sizesBelow bits t := by
  have key : ∀ n, RecFits (sizesBelow bits) (readFuelOn bits n) := by
    intro n
    induction n with
    | zero => intro s t h; cases h
    | succ n ih => intro s t h; exact step_below hb ih h
  exact key _ s t h

theorem same_code : readOn 64 = read := by
  have e1 : parseUsizeOn 64 = parseUsize := rfl
  have e2 : readElementaryOn 64 = readElementary := by
    funext s; unfold readElementaryOn readElementary; rw [e1]
  have e3 : readStepOn 64 = readStep := by
    funext r s; unfold readStepOn readStep; rw [e1, e2]
  have e4 : ∀ n, readFuelOn 64 n = readFuel n := by
    intro n
    induction n with
    | zero => rfl
    | succ n ih => funext s; rw [readFuelOn, readFuel, ih, e3]
  funext s
  rw [readOn, read, e4]

/-! ### without tuples nothing is dropped -/

/-- the same result, or an error where the wider target returns a type with a size that is too large -/
def Large (bits : Nat) (x y : Res ParamType) : Prop :=
  x = y ∨ (x = .err .parseInt ∧ ∀ t, y = .ok t → ¬ sizesBelow bits t)

theorem large_parse {bits : Nat} (hb : bits ≤ 64) (d : Str) (mk : Nat → ParamType)
    (hmk : ∀ n, sizesBelow bits (mk n) → n < 2 ^ bits) :
    Large bits (parseUsizeOn bits d >>= fun n => .ok (mk n)) (parseUsize d >>= fun n => .ok (mk n)) := by
  rcases rel_parse hb (List.infix_refl d) with h | ⟨hq, h⟩
  · exact Or.inl (by rw [h])
  · refine Or.inr ⟨by rw [h]; rfl, fun t ht hs => ?_⟩
    simp only [Res.bind_eq_ok, Res.ok.injEq] at ht
    obtain ⟨n, hn, rfl⟩ := ht
    have hlt := hmk n hs
    have : parseUsizeOn bits d = .ok n := by
      unfold parseUsize at hn
      unfold parseUsizeOn
      simp only [] at hn ⊢
      split at hn
      · rename_i hc
        cases hn
        exact if_pos ⟨hc.1, hc.2.1, hlt⟩
      · cases hn
    rw [this] at h
    cases h

theorem large_ite {bits : Nat} {c : Prop} [Decidable c] {x y x' y' : Res ParamType} (hx : Large bits x x')
    (hy : Large bits y y') : Large bits (if c then x else y) (if c then x' else y') := by
  split
  · exact hx
  · exact hy

theorem large_elementary {bits : Nat} (hb : bits ≤ 64) (name : Str) :
    Large bits (readElementaryOn bits name) (readElementary name) := by
  unfold readElementaryOn readElementary
  iterate 7 refine large_ite (Or.inl rfl) ?_
  refine large_ite (large_parse hb _ .int fun n h => by simpa [sizesBelow] using h) ?_
  refine large_ite (large_parse hb _ .uint fun n h => by simpa [sizesBelow] using h) ?_
  refine large_ite (large_parse hb _ .fixedBytes fun n h => by simpa [sizesBelow] using h) ?_
  exact Or.inl rfl

theorem large_bind {bits : Nat} {α : Type} {x : Res α} {f g : α → Res ParamType}
    (h : ∀ a, x = .ok a → Large bits (f a) (g a)) : Large bits (x >>= f) (x >>= g) := by
  cases x with
  | ok a => exact h a rfl
  | err e => exact Or.inl rfl
  | panic => exact Or.inl rfl

theorem large_wrap {bits : Nat} {x y : Res ParamType} (h : Large bits x y) (f : ParamType → ParamType)
    (hf : ∀ t, sizesBelow bits (f t) → sizesBelow bits t) :
    Large bits (x >>= fun t => .ok (f t)) (y >>= fun t => .ok (f t)) := by
  rcases h with rfl | ⟨rfl, h⟩
  · exact Or.inl rfl
  · refine Or.inr ⟨rfl, fun t ht hs => ?_⟩
    simp only [Res.bind_eq_ok, Res.ok.injEq] at ht
    obtain ⟨u, hu, rfl⟩ := ht
    exact h u hu (hf u hs)

theorem large_read {bits : Nat} (hb : bits ≤ 64) (s : Str) (hs : ')' ∉ s) : Large bits (readOn bits s) (read s) := by
  unfold readOn read
  generalize byteLen s + 1 = n
  induction n generalizing s with
  | zero => exact Or.inl rfl
  | succ n ih =>
    have part : ∀ {a b : Nat} {item : Str}, strSlice s a b = .ok item → Large bits (readFuelOn bits n item) (readFuel n item) := by
      intro a b item hi
      obtain ⟨x, y, rfl, -, -⟩ := TokenText.strSlice_iff.1 hi
      exact ih item fun h => hs (by simp [h])
    rw [readFuelOn, readFuel]
    unfold readStepOn readStep
    rw [if_neg fun h => hs (List.mem_of_getLast? h), if_neg fun h => hs (List.mem_of_getLast? h)]
    refine large_ite ?_ (large_elementary hb _)
    simp only []
    refine large_ite ?_ ?_
    · exact large_bind fun _ _ => large_bind fun _ hs => large_wrap (part hs) .array fun t h => by
        simpa [sizesBelow] using h
    · rcases rel_parse hb (List.infix_refl (arrayNum s)) with h | ⟨hq, h⟩
      · rw [h]
        exact large_bind fun k _ => large_bind fun _ _ => large_bind fun _ _ => large_bind fun _ hs =>
          large_wrap (part hs) (.fixedArray · k) fun t h => by simp only [sizesBelow] at h; exact h.2
      · refine Or.inr ⟨by rw [h]; rfl, fun t ht hs => ?_⟩
        simp only [Res.bind_eq_ok, Res.ok.injEq] at ht
        obtain ⟨k, hk, _, _, _, _, sub, _, u, hu, rfl⟩ := ht
        simp only [sizesBelow] at hs
        rcases large_parse hb (arrayNum s) .int (bits := bits) (fun n h => by simpa [sizesBelow] using h) with h' | ⟨-, h'⟩
        · rw [h, hk] at h'
          cases h'
        · exact h' (.int k) (by rw [hk]; rfl) (by simpa [sizesBelow] using hs.1)

end Ethabi.ReaderOn

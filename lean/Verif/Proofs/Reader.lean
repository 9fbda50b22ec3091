import Verif.Proofs.Slice
import Verif.Proofs.Signature
import Verif.Model.Reader
/-! `Reader::read`: termination, array suffixes, round trips, absence of panics. -/
namespace Ethabi

/-! ### every recursive call is on a shorter string -/

/-- loop invariant needed for termination -/
def ReadInv (pos : Nat) (st : ReadSt) : Prop :=
  1 ≤ st.lastItem ∧ (st.topOpen = 0 → st.nested ≤ 1) ∧ (pos = 0 → st.nested = 0)

theorem readOpen_inv {pos : Nat} {st : ReadSt} (h : ReadInv pos st) : ReadInv (pos + 1) (readOpen pos st) := by
  obtain ⟨h1, h2, h3⟩ := h
  unfold readOpen
  simp only []
  split
  · refine ⟨by simp, ?_, by simp⟩
    intro e
    have := h3 e
    simp [this] at *
  · refine ⟨h1, ?_, by simp⟩
    intro e
    simp at *; omega

theorem bind_congr {α β : Type} {x : Res α} {f g : α → Res β} (h : ∀ a, x = .ok a → f a = g a) :
    (x >>= f) = (x >>= g) := by
  cases x with
  | ok a => simpa using h a rfl
  | err e => rfl
  | panic => rfl

theorem readClose_congr {r1 r2 : Str → Res ParamType} {name rest : Str} {pos : Nat} {st : ReadSt}
    (hr : ∀ s, byteLen s < byteLen name → r1 s = r2 s) (h : ReadInv pos st) :
    readClose r1 name rest pos st = readClose r2 name rest pos st := by
  obtain ⟨h1, h2, h3⟩ := h
  unfold readClose
  simp only []
  split
  · rfl
  · rename_i hn
    apply bind_congr
    intro item hi
    obtain ⟨hl, ha, hb, -⟩ := strSlice_ok hi
    split
    · rfl
    · rename_i hne
      have : byteLen item < byteLen name := by
        have := length_le_byteLen item
        have : item.length ≠ 0 := by simpa using hne
        omega
      split
      · rw [hr item this]
      · apply bind_congr
        intro inner hi2
        obtain ⟨hl2, ha2, hb2, -⟩ := strSlice_ok hi2
        have : st.topOpen ≠ 0 := by intro e; have := h2 e; omega
        rw [hr inner (by omega)]

theorem readClose_inv {rec : Str → Res ParamType} {name rest : Str} {pos k : Nat} {st st' : ReadSt}
    (h : ReadInv pos st) (he : readClose rec name rest pos st = .ok (st', k)) : ReadInv (pos + 1) st' := by
  obtain ⟨h1, h2, h3⟩ := h
  unfold readClose at he
  simp only [] at he
  split at he
  · cases he
  · simp only [Res.bind_eq_ok] at he
    obtain ⟨item, -, he⟩ := he
    split at he
    · simp only [Res.ok.injEq, Prod.mk.injEq] at he
      obtain ⟨rfl, -⟩ := he
      exact ⟨by simp, fun e => by have := h2 e; simp; omega, by simp⟩
    · split at he
      · simp only [Res.bind_eq_ok, Res.ok.injEq, Prod.mk.injEq] at he
        obtain ⟨t, -, rfl, -⟩ := he
        exact ⟨by simp, fun e => by have := h2 e; simp; omega, by simp⟩
      · simp only [Res.bind_eq_ok] at he
        obtain ⟨inner, -, t, -, he⟩ := he
        split at he
        · simp only [Res.bind_eq_ok, Res.ok.injEq, Prod.mk.injEq] at he
          obtain ⟨_, -, rfl, -⟩ := he
          exact ⟨by simp, fun e => by have := h2 e; simp; omega, by simp⟩
        · simp only [Res.ok.injEq, Prod.mk.injEq] at he
          obtain ⟨rfl, -⟩ := he
          exact ⟨by simp, fun e => by have := h2 e; simp; omega, by simp⟩

theorem readComma_congr {r1 r2 : Str → Res ParamType} {name : Str} {pos : Nat} {st : ReadSt}
    (hr : ∀ s, byteLen s < byteLen name → r1 s = r2 s) (h : ReadInv pos st) :
    readComma r1 name pos st = readComma r2 name pos st := by
  obtain ⟨h1, h2, h3⟩ := h
  unfold readComma
  apply bind_congr
  intro item hi
  obtain ⟨hl, ha, hb, -⟩ := strSlice_ok hi
  split
  · rfl
  · rename_i hne
    have : byteLen item < byteLen name := by
      have := length_le_byteLen item
      have : item.length ≠ 0 := by simpa using hne
      omega
    rw [hr item this]

theorem readComma_inv {rec : Str → Res ParamType} {name : Str} {pos : Nat} {st st' : ReadSt}
    (h : ReadInv pos st) (he : readComma rec name pos st = .ok st') : ReadInv (pos + 1) st' := by
  obtain ⟨h1, h2, h3⟩ := h
  unfold readComma at he
  simp only [Res.bind_eq_ok] at he
  obtain ⟨item, -, he⟩ := he
  split at he
  · simp only [Res.ok.injEq] at he; subst he
    exact ⟨by simp, fun e => by have := h2 e; simp; omega, by simp⟩
  · split at he
    · simp only [Res.bind_eq_ok, Res.ok.injEq] at he
      obtain ⟨t, -, rfl⟩ := he
      exact ⟨by simp, fun e => by have := h2 e; simp; omega, by simp⟩
    · split at he
      · simp only [Res.bind_eq_ok, Res.ok.injEq] at he
        obtain ⟨t, -, _, -, rfl⟩ := he
        exact ⟨by simp, fun e => by have := h2 e; simp; omega, by simp⟩
      · simp only [Res.ok.injEq] at he; subst he
        exact ⟨h1, h2, by simp⟩

theorem readLoop_congr {r1 r2 : Str → Res ParamType} {name : Str}
    (hr : ∀ s, byteLen s < byteLen name → r1 s = r2 s) (cs : Str) :
    ∀ (pos skip : Nat) (st : ReadSt), ReadInv pos st →
      readLoop r1 name cs pos skip st = readLoop r2 name cs pos skip st := by
  induction cs with
  | nil => intros; simp [readLoop]
  | cons c cs ih =>
    intro pos skip st h
    cases skip with
    | succ skip =>
      simp only [readLoop]
      exact ih _ _ _ ⟨h.1, h.2.1, by simp⟩
    | zero =>
      simp only [readLoop]
      split
      · exact ih _ _ _ (readOpen_inv h)
      · split
        · rw [readClose_congr hr h]
          apply bind_congr
          rintro ⟨st', k⟩ e
          exact ih _ _ _ (readClose_inv h e)
        · split
          · rw [readComma_congr hr h]
            apply bind_congr
            intro st' e
            exact ih _ _ _ (readComma_inv h e)
          · exact ih _ _ _ ⟨h.1, h.2.1, by simp⟩

theorem getLast?_pos {name : Str} {c : Char} (h : name.getLast? = some c) : 1 ≤ name.length := by
  cases name with
  | nil => simp at h
  | cons => simp

/-- `Reader::read` only calls itself on strings of fewer bytes. -/
theorem readStep_congr {r1 r2 : Str → Res ParamType} {name : Str}
    (hr : ∀ s, byteLen s < byteLen name → r1 s = r2 s) : readStep r1 name = readStep r2 name := by
  unfold readStep
  have hlb := length_le_byteLen name
  split
  · split
    · rfl
    · rw [readLoop_congr hr name 0 0 _ ⟨by simp, by simp, by simp⟩]
  · split
    · rename_i hl
      have := getLast?_pos hl
      simp only []
      split
      · apply bind_congr
        intro e he
        apply bind_congr
        intro sub hs
        obtain ⟨h1, -, -, -⟩ := strSlice_ok hs
        unfold indexSub at he
        split at he
        · cases he
          rw [hr sub (by omega)]
        · cases he
      · apply bind_congr
        intro len _
        apply bind_congr
        intro e1 he1
        apply bind_congr
        intro e he
        apply bind_congr
        intro sub hs
        obtain ⟨h1, -, -, -⟩ := strSlice_ok hs
        unfold indexSub at he he1
        split at he1
        · cases he1
          split at he
          · cases he
            rw [hr sub (by omega)]
          · cases he
        · cases he1
    · rfl

theorem readFuel_eq (n : Nat) : ∀ (s : Str), byteLen s < n → readFuel n s = read s := by
  induction n using Nat.strongRecOn with
  | ind n ih =>
    intro s hs
    unfold read
    by_cases h : n = byteLen s + 1
    · rw [h]
    · obtain ⟨m, rfl⟩ : ∃ m, n = m + 1 := ⟨n - 1, by omega⟩
      rw [readFuel, readFuel]
      apply readStep_congr
      intro t ht
      rw [ih m (by omega) t (by omega)]
      have := ih (byteLen s) (by omega) t (by omega)
      rw [this]

/-- `read` satisfies the recursive equation of the source. -/
theorem read_eq (name : Str) : read name = readStep read name := by
  rw [read, readFuel]
  apply readStep_congr
  intro s hs
  exact readFuel_eq _ s hs

/-! ### array suffixes -/

theorem arrayNum_append (s num : Str) (h : '[' ∉ num) : arrayNum (s ++ '[' :: (num ++ [']'])) = num := by
  have hnum : ∀ x ∈ num.reverse, (x != '[') = true := by
    intro x hx
    simp only [bne_iff_ne, ne_eq]
    rintro rfl
    exact h (by simpa using hx)
  have : (s ++ '[' :: (num ++ [']'])).reverse.drop 1 = num.reverse ++ '[' :: s.reverse := by simp
  rw [arrayNum, this, List.takeWhile_append_of_pos hnum]
  simp

theorem read_array {s : Str} (hs : ascii s) : read (s ++ lit "[]") = (read s >>= fun t => .ok (.array t)) := by
  have e : s ++ lit "[]" = s ++ '[' :: ([] ++ [']']) := by simp [lit]
  have h1 := arrayNum_append s [] (by simp)
  have hasc : ascii (s ++ '[' :: ([] ++ [']'])) := ascii_append hs (by intro c hc; simp at hc; rcases hc with rfl | rfl <;> decide)
  have hlast : (s ++ '[' :: ([] ++ [']'])).getLast? = some ']' := by
    simp only [List.nil_append]
    rw [show s ++ ['[', ']'] = (s ++ ['[']) ++ [']'] by simp]
    exact List.getLast?_concat ..
  rw [e, read_eq, readStep, if_neg (by rw [hlast]; simp), if_pos hlast]
  simp only [h1]
  rw [if_pos trivial, indexSub, if_pos (by simp)]
  simp only [Res.ok_bind]
  rw [show (s ++ '[' :: ([] ++ [']'])).length - 2 = s.length by simp, strSlice_ascii hasc (by omega) (by simp)]
  simp

theorem read_fixedArray {s num : Str} (hs : ascii s) (hn : ascii num) (hne : num ≠ []) (hb : '[' ∉ num) :
    read (s ++ '[' :: (num ++ [']'])) =
      (parseUsize num >>= fun k => read s >>= fun t => .ok (.fixedArray t k)) := by
  have h1 := arrayNum_append s num hb
  have hasc : ascii (s ++ '[' :: (num ++ [']'])) := by
    refine ascii_append hs ?_
    intro c hc
    simp at hc
    rcases hc with rfl | hc | rfl
    · decide
    · exact hn c hc
    · decide
  have hlast : (s ++ '[' :: (num ++ [']'])).getLast? = some ']' := by
    rw [show s ++ '[' :: (num ++ [']']) = (s ++ '[' :: num) ++ [']'] by simp]
    exact List.getLast?_concat ..
  rw [read_eq, readStep, if_neg (by rw [hlast]; simp), if_pos hlast]
  simp only [h1]
  rw [if_neg hne, byteLen_ascii hn]
  apply bind_congr
  intro k _
  rw [indexSub, if_pos (by simp; omega)]
  simp only [Res.ok_bind]
  rw [indexSub, if_pos (by simp; omega)]
  simp only [Res.ok_bind]
  rw [show (s ++ '[' :: (num ++ [']'])).length - num.length - 2 = s.length by simp; omega,
    strSlice_ascii hasc (by omega) (by simp)]
  simp

theorem ascii_natText (n : Nat) : ascii (natText n) := by
  intro c hc
  have := isDigit_natText hc
  rw [Char.isDigit_iff_toNat] at this
  simp at this
  omega

theorem read_fixedArray_nat {s : Str} (hs : ascii s) {k : Nat} (hk : k < 2 ^ 64) :
    read (s ++ '[' :: (natText k ++ [']'])) = (read s >>= fun t => .ok (.fixedArray t k)) := by
  rw [read_fixedArray hs (ascii_natText k) (natText_ne_nil k)
    (fun h => natText_ne h (by decide) rfl), parseUsize_natText hk]
  rfl

/-! ### elementary types and ABI-JSON type strings -/

theorem read_plain {w : Str} (h1 : w.getLast? ≠ some ')') (h2 : w.getLast? ≠ some ']') :
    read w = readElementary w := by
  rw [read_eq, readStep, if_neg h1, if_neg h2]

theorem natText_last (p : Str) (n : Nat) (c : Char) (hc : c.isDigit = false) : (p ++ natText n).getLast? ≠ some c := by
  have e := List.dropLast_concat_getLast (natText_ne_nil n)
  rw [← e, ← List.append_assoc, List.getLast?_concat]
  intro h
  have hm := List.getLast_mem (natText_ne_nil n)
  rw [Option.some.inj h] at hm
  exact natText_ne hm hc rfl

theorem read_num {p : Str} {n : Nat} {mk : Nat → ParamType} (hn : n < 2 ^ 64)
    (hp : (p = lit "int" ∧ mk = .int) ∨ (p = lit "uint" ∧ mk = .uint) ∨ (p = lit "bytes" ∧ mk = .fixedBytes)) :
    read (p ++ natText n) = .ok (mk n) := by
  rw [read_plain (natText_last _ _ _ (by decide)) (natText_last _ _ _ (by decide))]
  have hne := natText_ne_nil n
  have hof := parseUsize_natText hn
  generalize natText n = ds at *
  cases ds with
  | nil => exact absurd rfl hne
  | cons d ds => rcases hp with ⟨rfl, rfl⟩ | ⟨rfl, rfl⟩ | ⟨rfl, rfl⟩ <;> simp [readElementary, lit, startsWith, hof]

theorem ascii_lit_natText {p : Str} (hp : p.all (fun c => decide (c.toNat < 128)) = true) (n : Nat) :
    ascii (p ++ natText n) :=
  ascii_append (fun c hc => by simpa using List.all_eq_true.1 hp c hc) (ascii_natText n)

theorem ascii_of_all {p : Str} (hp : p.all (fun c => decide (c.toNat < 128)) = true) : ascii p :=
  fun c hc => by simpa using List.all_eq_true.1 hp c hc

theorem ascii_join {l : List Str} (h : ∀ s ∈ l, ascii s) : ascii (join (lit ",") l) := by
  induction l with
  | nil => intro c hc; simp [join] at hc
  | cons a l ih =>
    cases l with
    | nil => simpa [join] using h a (by simp)
    | cons b l =>
      rw [join_cons_cons]
      exact ascii_append (ascii_append (h a (by simp)) (ascii_of_all (by decide))) (ih fun s hs => h s (by simp [hs]))

mutual
theorem ascii_write (b : Bool) : ∀ (t : ParamType), ascii (writeForAbi b t)
  | .address => by rw [writeForAbi]; exact ascii_of_all (by decide)
  | .bytes => by rw [writeForAbi]; exact ascii_of_all (by decide)
  | .bool => by rw [writeForAbi]; exact ascii_of_all (by decide)
  | .string => by rw [writeForAbi]; exact ascii_of_all (by decide)
  | .int n => by rw [writeForAbi]; exact ascii_lit_natText (by decide) n
  | .uint n => by rw [writeForAbi]; exact ascii_lit_natText (by decide) n
  | .fixedBytes n => by rw [writeForAbi]; exact ascii_lit_natText (by decide) n
  | .array t => by rw [writeForAbi]; exact ascii_append (ascii_write b t) (ascii_of_all (by decide))
  | .fixedArray t n => by
      rw [writeForAbi]
      exact ascii_append (ascii_append (ascii_append (ascii_write b t) (ascii_of_all (by decide)))
        (ascii_natText n)) (ascii_of_all (by decide))
  | .tuple ts => by
      rw [writeForAbi]
      split
      · exact ascii_append (ascii_append (ascii_of_all (by decide)) (ascii_join (ascii_writeAll b ts)))
          (ascii_of_all (by decide))
      · exact ascii_of_all (by decide)
theorem ascii_writeAll (b : Bool) : ∀ (ts : List ParamType), ∀ s ∈ writeAll b ts, ascii s
  | [], s, h => by simp [writeAll] at h
  | t :: ts, s, h => by
      simp only [writeAll, List.mem_cons] at h
      rcases h with rfl | h
      · exact ascii_write b t
      · exact ascii_writeAll b ts s h
end

/-- the type with its innermost tuple emptied -/
def eraseTuple : ParamType → ParamType
  | .array t => .array (eraseTuple t)
  | .fixedArray t n => .fixedArray (eraseTuple t) n
  | .tuple _ => .tuple []
  | t => t

/-- sizes fit in `usize`, ignoring tuple members -/
def sizesFit : ParamType → Bool
  | .int n => decide (n < 2 ^ 64)
  | .uint n => decide (n < 2 ^ 64)
  | .fixedBytes n => decide (n < 2 ^ 64)
  | .array t => sizesFit t
  | .fixedArray t n => decide (n < 2 ^ 64) && sizesFit t
  | _ => true

theorem sizesFit_of_usizeOk : ∀ (t : ParamType), t.usizeOk = true → sizesFit t = true
  | .address, _ => rfl
  | .bytes, _ => rfl
  | .bool, _ => rfl
  | .string, _ => rfl
  | .int _, h => h
  | .uint _, h => h
  | .fixedBytes _, h => h
  | .array t, h => sizesFit_of_usizeOk t h
  | .fixedArray t n, h => by
      simp only [ParamType.usizeOk, Bool.and_eq_true] at h
      simp [sizesFit, sizesFit_of_usizeOk t h.2]; simpa using h.1
  | .tuple _, _ => rfl

theorem read_writeForAbi : ∀ (t : ParamType), sizesFit t = true →
    read (writeForAbi false t) = .ok (eraseTuple t)
  | .address, _ => by rw [read_plain (by decide) (by decide)]; rfl
  | .bytes, _ => by rw [read_plain (by decide) (by decide)]; rfl
  | .bool, _ => by rw [read_plain (by decide) (by decide)]; rfl
  | .string, _ => by rw [read_plain (by decide) (by decide)]; rfl
  | .tuple ts, _ => by
      rw [writeForAbi, if_neg (by simp), read_plain (by decide) (by decide)]; rfl
  | .int n, h => by rw [writeForAbi]; exact read_num (by simpa [sizesFit] using h) (Or.inl ⟨rfl, rfl⟩)
  | .uint n, h => by rw [writeForAbi]; exact read_num (by simpa [sizesFit] using h) (Or.inr (Or.inl ⟨rfl, rfl⟩))
  | .fixedBytes n, h => by rw [writeForAbi]; exact read_num (by simpa [sizesFit] using h) (Or.inr (Or.inr ⟨rfl, rfl⟩))
  | .array t, h => by
      rw [writeForAbi, read_array (ascii_write _ t), read_writeForAbi t h]; rfl
  | .fixedArray t n, h => by
      simp only [sizesFit, Bool.and_eq_true, decide_eq_true_eq] at h
      have e : writeForAbi false (.fixedArray t n) = writeForAbi false t ++ '[' :: (natText n ++ [']']) := by
        simp [writeForAbi, lit]
      rw [e, read_fixedArray_nat (ascii_write _ t) h.1, read_writeForAbi t h.2]; rfl

end Ethabi

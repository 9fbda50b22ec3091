import Mathlib.Data.List.Nodup
import Verif.Proofs.Written
import Verif.Proofs.Reader
/-! A type string with components describes one type. -/
namespace Ethabi.Written
open Spec

/-- what the string looks like, by type -/
def Shape : ParamType → Str → Option Json → Prop
  | .address, s, c => s = "address".toList ∧ c = none
  | .bytes, s, c => s = "bytes".toList ∧ c = none
  | .bool, s, c => s = "bool".toList ∧ c = none
  | .string, s, c => s = "string".toList ∧ c = none
  | .int n, s, c => s = "int".toList ++ inDecimal n ∧ c = none
  | .uint n, s, c => s = "uint".toList ++ inDecimal n ∧ c = none
  | .fixedBytes n, s, c => s = "bytes".toList ++ inDecimal n ∧ c = none
  | .array t, s, c => ∃ s', Describes t s' c ∧ s = s' ++ ['[', ']']
  | .fixedArray t k, s, c => ∃ s', Describes t s' c ∧ s = s' ++ '[' :: (inDecimal k ++ [']'])
  | .tuple ts, s, c => ∃ js, DescribesAll ts js ∧ s = "tuple".toList ∧ c = some (.arr js)

theorem shape {t : ParamType} {s : Str} {c : Option Json} (h : Describes t s c) : Shape t s c := by
  cases h with
  | address => exact ⟨rfl, rfl⟩
  | bytes => exact ⟨rfl, rfl⟩
  | bool => exact ⟨rfl, rfl⟩
  | string => exact ⟨rfl, rfl⟩
  | int n => exact ⟨rfl, rfl⟩
  | uint n => exact ⟨rfl, rfl⟩
  | fixedBytes n => exact ⟨rfl, rfl⟩
  | array h => exact ⟨_, h, rfl⟩
  | fixedArray k h => exact ⟨_, h, rfl⟩
  | tuple h => exact ⟨_, h, rfl, rfl⟩

/-- the types whose string does not end in a bracket, with the first letters of the string -/
def letters : ParamType → Option Str
  | .address => some ['a', 'd']
  | .bytes => some ['b', 'y']
  | .bool => some ['b', 'o']
  | .string => some ['s', 't']
  | .int _ => some ['i', 'n']
  | .uint _ => some ['u', 'i']
  | .fixedBytes _ => some ['b', 'y']
  | .tuple _ => some ['t', 'u']
  | .array _ => none
  | .fixedArray _ _ => none

theorem letters_some {t : ParamType} {s l : Str} {c : Option Json} (h : Describes t s c) (hl : letters t = some l) :
    s.take 2 = l ∧ s.getLast? ≠ some ']' := by
  have hs := shape h
  cases t <;> simp only [letters, Option.some.injEq, reduceCtorEq] at hl <;> subst hl <;> simp only [Shape] at hs
  case address => rw [hs.1]; decide
  case bytes => rw [hs.1]; decide
  case bool => rw [hs.1]; decide
  case string => rw [hs.1]; decide
  case int n => rw [hs.1, numeral_eq]; exact ⟨rfl, natText_last _ n _ (by decide)⟩
  case uint n => rw [hs.1, numeral_eq]; exact ⟨rfl, natText_last _ n _ (by decide)⟩
  case fixedBytes n => rw [hs.1, numeral_eq]; exact ⟨rfl, natText_last _ n _ (by decide)⟩
  case tuple ts => obtain ⟨js, _, h2, _⟩ := hs; rw [h2]; decide

theorem letters_none {t : ParamType} {s : Str} {c : Option Json} (h : Describes t s c) (hl : letters t = none) :
    s.getLast? = some ']' := by
  have hs := shape h
  cases t <;> simp only [letters, reduceCtorEq] at hl <;> simp only [Shape] at hs
  case array t => obtain ⟨s', _, rfl⟩ := hs; simp
  case fixedArray t k =>
    obtain ⟨s', _, rfl⟩ := hs
    have : s' ++ '[' :: (inDecimal k ++ [']']) = (s' ++ '[' :: inDecimal k) ++ [']'] := by simp
    rw [this, List.getLast?_append]; rfl

theorem letters_eq {t t' : ParamType} {s : Str} {c c' : Option Json} (h : Describes t s c) (h' : Describes t' s c') :
    letters t = letters t' := by
  cases hl : letters t with
  | none =>
    cases hl' : letters t' with
    | none => rfl
    | some l => exact absurd (letters_none h hl) (letters_some h' hl').2
  | some l =>
    cases hl' : letters t' with
    | none => exact absurd (letters_none h' hl') (letters_some h hl).2
    | some l' => rw [← (letters_some h hl).1, ← (letters_some h' hl').1]

theorem numeral_ne_nil (n : Nat) : inDecimal n ≠ [] := by rw [numeral_eq]; exact natText_ne_nil n

theorem numeral_inj {m n : Nat} (h : inDecimal m = inDecimal n) : m = n := by
  rw [numeral_eq, numeral_eq] at h
  rw [← ofDigitChars_natText m, h, ofDigitChars_natText]

theorem numeral_bracket (n : Nat) : '[' ∉ inDecimal n := by
  rw [numeral_eq]; exact fun h => natText_ne h (by decide) rfl

/-- an object with the same entries -/
theorem entries_value {j : Json} {es es' : List (String × Option Json)} (h : Entries j es) (h' : Entries j es') (e : String × Option Json)
    (he : e ∈ es) (v : Json) (hv : e.2 = some v) : ∃ e' ∈ es', e'.1.toList = e.1.toList ∧ e'.2 = some v := by
  obtain ⟨fs, rfl, _, h1⟩ := h
  obtain ⟨fs', h0, _, h2⟩ := h'
  cases h0
  exact (h2 e.1.toList v).1 ((h1 _ v).2 ⟨e, he, rfl, hv⟩)

/-- the same keys in the same order, each once: the same entries -/
theorem entries_same {j : Json} {es es' : List (String × Option Json)} (h : Entries j es) (h' : Entries j es')
    (hk : es.map (·.1) = es'.map (·.1)) (hn : (es.map (·.1)).Nodup) : es = es' := by
  have one : ∀ {es es' : List (String × Option Json)}, Entries j es → Entries j es' → (es'.map (·.1)).Nodup →
      ∀ k o o' v, (k, o) ∈ es → (k, o') ∈ es' → o = some v → o' = some v := by
    intro es es' h h' hn k o o' v hm hm' hv
    obtain ⟨e, he, h1, h2⟩ := entries_value h h' (k, o) hm v hv
    have : e = (k, o') := List.inj_on_of_nodup_map hn he hm' (String.toList_inj.1 h1)
    rw [this] at h2
    exact h2
  have hn' : (es'.map (·.1)).Nodup := hk ▸ hn
  have hl : es.length = es'.length := by simpa using congrArg List.length hk
  refine List.ext_getElem hl fun i h1 h2 => ?_
  have hki : es[i].1 = es'[i].1 := by
    have := congrArg (fun l => l[i]?) hk
    simpa [h1, h2] using this
  have m1 : (es[i].1, es[i].2) ∈ es := List.getElem_mem h1
  have m2 : (es[i].1, es'[i].2) ∈ es' := by rw [hki]; exact List.getElem_mem h2
  exact Prod.ext hki (Option.ext fun v => ⟨one h h' hn' _ _ _ v m1 m2, one h' h hn _ _ _ v m2 m1⟩)

theorem member_value {j : Json} {s s' : Str} {c c' : Option Json}
    (h : Entries j [("type", some (.str s)), ("components", c)]) (h' : Entries j [("type", some (.str s')), ("components", c')]) :
    s = s' ∧ c = c' := by
  have := entries_same h h' rfl (by simp)
  simpa using this

mutual
theorem unique : ∀ (t t' : ParamType) (s : Str) (c : Option Json), Describes t s c → Describes t' s c → t = t'
  | .address, t', s, c, h, h' => by
      have hl := letters_eq h h'
      cases t' <;> simp [letters] at hl ⊢
  | .bool, t', s, c, h, h' => by
      have hl := letters_eq h h'
      cases t' <;> simp [letters] at hl ⊢
  | .string, t', s, c, h, h' => by
      have hl := letters_eq h h'
      cases t' <;> simp [letters] at hl ⊢
  | .int n, t', s, c, h, h' => by
      have hl := letters_eq h h'
      have h1 := shape h
      have h2 := shape h'
      cases t' <;> simp [letters] at hl
      case int m =>
        rw [h1.1] at h2
        exact congrArg _ (numeral_inj (List.append_cancel_left h2.1))
  | .uint n, t', s, c, h, h' => by
      have hl := letters_eq h h'
      have h1 := shape h
      have h2 := shape h'
      cases t' <;> simp [letters] at hl
      case uint m =>
        rw [h1.1] at h2
        exact congrArg _ (numeral_inj (List.append_cancel_left h2.1))
  | .bytes, t', s, c, h, h' => by
      have hl := letters_eq h h'
      have h1 := shape h
      have h2 := shape h'
      cases t' <;> simp [letters] at hl
      case bytes => rfl
      case fixedBytes m =>
        exfalso
        have e := h1.1.symm.trans h2.1
        have := congrArg List.length e
        rw [List.length_append] at this
        exact numeral_ne_nil m (List.length_eq_zero_iff.1 (by omega))
  | .fixedBytes n, t', s, c, h, h' => by
      have hl := letters_eq h h'
      have h1 := shape h
      have h2 := shape h'
      cases t' <;> simp [letters] at hl
      case bytes =>
        exfalso
        have e := h2.1.symm.trans h1.1
        have := congrArg List.length e
        rw [List.length_append] at this
        exact numeral_ne_nil n (List.length_eq_zero_iff.1 (by omega))
      case fixedBytes m =>
        rw [h1.1] at h2
        exact congrArg _ (numeral_inj (List.append_cancel_left h2.1))
  | .array t, t', s, c, h, h' => by
      have hl := letters_eq h h'
      obtain ⟨s1, h1, e1⟩ := shape h
      have h2 := shape h'
      cases t' <;> simp [letters] at hl
      case array u =>
        obtain ⟨s2, h2, e2⟩ := h2
        have e := e1.symm.trans e2
        have := List.append_cancel_right e
        subst this
        rw [unique t u s1 c h1 h2]
      case fixedArray u k =>
        exfalso
        obtain ⟨s2, h2, e2⟩ := h2
        have e := congrArg arrayNum (e1.symm.trans e2)
        rw [arrayNum_append _ _ (numeral_bracket k)] at e
        have e0 : arrayNum (s1 ++ ['[', ']']) = [] := arrayNum_append s1 [] (by simp)
        exact numeral_ne_nil k (e.symm.trans e0)
  | .fixedArray t n, t', s, c, h, h' => by
      have hl := letters_eq h h'
      obtain ⟨s1, h1, e1⟩ := shape h
      have h2 := shape h'
      cases t' <;> simp [letters] at hl
      case array u =>
        exfalso
        obtain ⟨s2, h2, e2⟩ := h2
        have e := congrArg arrayNum (e2.symm.trans e1)
        rw [arrayNum_append _ _ (numeral_bracket n)] at e
        have e0 : arrayNum (s2 ++ ['[', ']']) = [] := arrayNum_append s2 [] (by simp)
        exact numeral_ne_nil n (e.symm.trans e0)
      case fixedArray u k =>
        obtain ⟨s2, h2, e2⟩ := h2
        have e := congrArg arrayNum (e1.symm.trans e2)
        rw [arrayNum_append _ _ (numeral_bracket k), arrayNum_append _ _ (numeral_bracket n)] at e
        have := numeral_inj e
        subst this
        have := List.append_cancel_right (e1.symm.trans e2)
        subst this
        rw [unique t u s1 c h1 h2]
  | .tuple ts, t', s, c, h, h' => by
      have hl := letters_eq h h'
      obtain ⟨js, h1, _, e1⟩ := shape h
      have h2 := shape h'
      cases t' <;> simp [letters] at hl
      case tuple us =>
        obtain ⟨ks, h2, _, e2⟩ := h2
        have e : (some (Json.arr js)) = some (.arr ks) := e1.symm.trans e2
        simp only [Option.some.injEq, Json.arr.injEq] at e
        subst e
        rw [uniqueAll ts us js h1 h2]
theorem uniqueAll : ∀ (ts us : List ParamType) (js : List Json), DescribesAll ts js → DescribesAll us js → ts = us
  | [], us, js, h, h' => by
      cases h
      cases h'
      rfl
  | t :: ts, us, js, h, h' => by
      cases h with
      | cons h1 h2 h3 =>
        cases h' with
        | cons g1 g2 g3 =>
          obtain ⟨rfl, rfl⟩ := member_value h2 g2
          rw [unique t _ _ _ h1 g1, uniqueAll ts _ _ h3 g3]
end

end Ethabi.Written

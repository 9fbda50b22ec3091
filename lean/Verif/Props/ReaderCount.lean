import Verif.Proofs.ReaderCount
import Verif.Props.Depth
/-! C107: the work of the type reader. -/
namespace Ethabi.Props
open Spec

/-- the counted reader is the reader, with any limit on the calls -/
theorem C107_same (beyond : Counted ParamType) (n : Nat) (s : Str) :
    (readFuelCount beyond n s).res = readWithin beyond.res n s := ReaderCount.res_fuel beyond n s

/-- **C107.** On an ASCII text the calls of the reader go through at most 3 (b + 3) (n + 1) characters in total, where the
text has `n` characters and `b` of them are `]`.  `beyond`, the work of a call nested deeper than `b + 3`, does not count. -/
theorem C107_work (s : Str) (ha : s.all (fun c => decide (c.toNat < 128)) = true) (m : Nat) (hm : s.count ']' + 3 ≤ m)
    (beyond : Counted ParamType) : (readFuelCount beyond m s).res = read s ∧
      (readFuelCount beyond m s).work ≤ 3 * (s.count ']' + 3) * (s.length + 1) := by
  refine ⟨by rw [C107_same, C106_enough s ha m hm], ?_⟩
  exact ReaderCount.texts_work beyond m s (fun c hc => by simpa using List.all_eq_true.1 ha c hc) hm

/-- **C107**, in terms of the length alone. -/
theorem C107_quadratic (s : Str) (ha : s.all (fun c => decide (c.toNat < 128)) = true) (m : Nat) (hm : s.length + 3 ≤ m)
    (beyond : Counted ParamType) : (readFuelCount beyond m s).work ≤ 3 * (s.length + 3) * (s.length + 1) := by
  have hc : s.count ']' ≤ s.length := List.count_le_length
  exact Nat.le_trans (C107_work s ha m (by omega) beyond).2 (Nat.mul_le_mul_right _ (by omega))

/-- **C107.** Without brackets the work is linear. -/
theorem C107_linear (s : Str) (ha : s.all (fun c => decide (c.toNat < 128)) = true) (hb : ']' ∉ s) (m : Nat) (hm : 3 ≤ m)
    (beyond : Counted ParamType) : (readFuelCount beyond m s).work ≤ 9 * (s.length + 1) := by
  have hc : s.count ']' = 0 := List.count_eq_zero.2 hb
  have := (C107_work s ha m (by omega) beyond).2
  rw [hc] at this
  exact this

/-- **C107.** The text `bool[]…[]` with `k` suffixes, of length 2 k + 4, takes (k + 1) (k + 5): the square is reached. -/
theorem C107_reached (k m : Nat) (hm : k + 1 ≤ m) (beyond : Counted ParamType) : (boolArrays k).length = 2 * k + 4 ∧
    (readFuelCount beyond m (boolArrays k)).res = .ok (boolArray k) ∧
    (readFuelCount beyond m (boolArrays k)).work = (k + 1) * (k + 5) := by
  refine ⟨ReaderCount.boolArrays_length k, ?_, ReaderCount.boolArrays_work beyond k m hm⟩
  rw [C107_same]
  exact (C106_needed k).2.1 m hm _

/-- a text whose members are read twice: once for the list they are in, once by themselves -/
example : (readFuelCount ⟨.panic, 1000⟩ 3 (lit "(int,(uint,(bool,int)),string)")).work = 72 ∧
    (∃ t, (readFuelCount ⟨.panic, 1000⟩ 3 (lit "(int,(uint,(bool,int)),string)")).res = .ok t) ∧
    (lit "(int,(uint,(bool,int)),string)").length = 30 ∧
    -- refused late
    (readFuelCount ⟨.panic, 1000⟩ 3 (lit "((bool,int)uint,string)")).work = 44 ∧
    -- not enough room
    (readFuelCount ⟨.panic, 1000⟩ 2 (lit "((bool))")).work = 1016 := by
  refine ⟨by decide +kernel, ⟨?_, ?_⟩, by decide, by decide +kernel, by decide +kernel⟩
  · exact .tuple [.int 256, .tuple [.uint 256, .tuple [.bool, .int 256]], .string]
  · decide +kernel

end Ethabi.Props

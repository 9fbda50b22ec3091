import Verif.Proofs.Depth
/-! C106: how many calls of the type reader are under way at a time. -/
namespace Ethabi.Props
open Spec

/-- **C106.** On an ASCII text three more calls than there are `]` in it are enough, whatever the text: one call more is
never made. -/
theorem C106_enough (s : Str) (ha : s.all (fun c => decide (c.toNat < 128)) = true) (n : Nat) (hn : s.count ']' + 3 ≤ n)
    (beyond : Res ParamType) : readWithin beyond n s = read s :=
  Depth.texts beyond n s (fun c hc => by simpa using List.all_eq_true.1 ha c hc) hn

/-- **C106.** Any text: one more than it has bytes. -/
theorem C106_enough_bytes (s : Str) (n : Nat) (hn : byteLen s + 1 ≤ n) (beyond : Res ParamType) :
    readWithin beyond n s = read s := Depth.enough beyond n s hn

/-- `bool` with `k` dimensions -/
def boolArray : Nat → ParamType
  | 0 => .bool
  | k + 1 => .array (boolArray k)

/-- **C106.** The text `bool[]…[]` with `k` suffixes is accepted, and takes `k + 1` calls: with fewer the reader gets to
the call it has no room for. -/
theorem C106_needed (k : Nat) : read (boolArrays k) = .ok (boolArray k) ∧
    (∀ n, k + 1 ≤ n → ∀ beyond, readWithin beyond n (boolArrays k) = .ok (boolArray k)) ∧
    ∀ n, n ≤ k → ∀ beyond, (∀ t, beyond ≠ .ok t) → readWithin beyond n (boolArrays k) = beyond := by
  have h : read (boolArrays k) = .ok (boolArray k) := by
    induction k with
    | zero => decide +kernel
    | succ k ih => rw [read_eq, Depth.boolArrays_step, ih]; rfl
  refine ⟨h, fun n hn beyond => ?_, fun n hn beyond hb => Depth.boolArrays_short hb n k hn⟩
  obtain ⟨h1, h2⟩ := Depth.boolArrays_items k
  rw [Depth.items beyond n _ h1 (by omega), h]

/-- **C106**, a consequence: no number of calls is enough for all texts. -/
theorem C106_no_bound (n : Nat) : ∃ s t, s.all (fun c => decide (c.toNat < 128)) = true ∧ read s = .ok t ∧
    readWithin .panic n s = .panic := by
  refine ⟨boolArrays n, boolArray n, ?_, (C106_needed n).1, (C106_needed n).2.2 n (Nat.le_refl n) _ (by simp)⟩
  exact List.all_eq_true.2 fun c hc => by simpa using Depth.boolArrays_ascii n c hc

/-- **C106.** Three calls beyond the suffixes are needed for a tuple in a tuple, and tuples further inside take no more. -/
theorem C106_three : (∀ t, readWithin .panic 2 (lit "((bool))") ≠ .ok t) ∧
    readWithin .panic 3 (lit "((bool))") = read (lit "((bool))") ∧
    readWithin .panic 3 (lit "((((((bool))))))") = read (lit "((((((bool))))))") ∧
    (∃ t, read (lit "((((((bool))))))") = .ok t) := by
  refine ⟨?_, C106_enough _ (by decide) _ (by decide) _, C106_enough _ (by decide) _ (by decide) _, ?_⟩
  · have : readWithin .panic 2 (lit "((bool))") = .panic := by decide +kernel
    rw [this]; simp
  · exact ⟨.tuple [.tuple [.tuple [.bool]]], by decide +kernel⟩

/-- **C106**, for texts that are not ASCII three are not enough. -/
theorem C106_counterexample_unicode : (lit "(é((bool)x)").count ']' = 0 ∧
    readWithin .panic 3 (lit "(é((bool)x)") = .panic ∧ ∃ t, read (lit "(é((bool)x)") = .ok t := by
  refine ⟨by decide, by decide +kernel, ?_⟩
  exact ⟨_, (by decide +kernel : read (lit "(é((bool)x)") = .ok (.tuple [.tuple [.tuple [.tuple [.bool]]]]))⟩

example : (lit "((bool[2],uint)[][],(int[])[3])").count ']' + 3 = 8 ∧
    readWithin (.err .other) 8 (lit "((bool[2],uint)[][],(int[])[3])") = read (lit "((bool[2],uint)[][],(int[])[3])") ∧
    readWithin (.err .other) 4 (lit "((bool[2],uint)[][],(int[])[3])") ≠ read (lit "((bool[2],uint)[][],(int[])[3])") := by
  decide +kernel

end Ethabi.Props

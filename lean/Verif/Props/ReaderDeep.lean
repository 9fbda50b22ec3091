import Verif.Proofs.ReaderDeepWork
import Verif.Props.TypeSize
/-! C112: type texts outside ASCII yield types, and need work, beyond every power of their length. -/
namespace Ethabi.Props
open Spec

/-- **C112.** For every `d` and `k ≥ 1` there is a text of at most 6 · 5^d · k bytes that the reader takes for a type which
holds at least k^d / d! types. -/
theorem C112_large (d k : Nat) (hk : 1 ≤ k) : ∃ s t, read s = .ok t ∧ bytesIn s ≤ 6 * 5 ^ d * k ∧
    k ^ d ≤ d.factorial * nodes t := by
  obtain ⟨s, t, h1, h2, h3⟩ := Deep.large d k hk
  refine ⟨s, t, h1, by rw [← TokenText.byteLen_eq]; exact h2, ?_⟩
  have := Deep.pow_choose d (k - 1)
  rw [Nat.sub_add_cancel hk] at this
  exact Nat.le_trans this (Nat.mul_le_mul_left _ h3)

/-- **C112.** No power of the length of the text bounds the size of the type read from it, with whatever factor. -/
theorem C112_size (c e : Nat) : ∃ s t, read s = .ok t ∧ c * bytesIn s ^ e < nodes t := by
  obtain ⟨s, t, h1, h2⟩ := Deep.beyond_powers c e
  exact ⟨s, t, h1, by rw [← TokenText.byteLen_eq]; exact h2⟩

/-- **C112.** Whatever type the reader yields, its calls have gone through at least as many characters as the type holds
types (each call counted as one more than its text has characters). -/
theorem C112_at_least (s : Str) (t : ParamType) (h : read s = .ok t) (m : Nat) (hm : bytesIn s < m) :
    (readFuelCount ⟨.panic, 0⟩ m s).res = .ok t ∧ nodes t ≤ (readFuelCount ⟨.panic, 0⟩ m s).work := by
  have hr : (readFuelCount ⟨.panic, 0⟩ m s).res = .ok t := by
    rw [ReaderCount.res_fuel, Depth.enough _ m s (by rw [TokenText.byteLen_eq]; exact hm), h]
  exact ⟨hr, Deep.fair (beyond := ⟨.panic, 0⟩) (fun _ _ h => by cases h) m s t hr⟩

/-- **C112.** Nor does any power of the length bound the work of the reader; the bound 3 (n + 3) (n + 1) of C107 for ASCII texts
does not extend to other texts. -/
theorem C112_work (c e : Nat) : ∃ s, ∀ m, bytesIn s < m → c * bytesIn s ^ e < (readFuelCount ⟨.panic, 0⟩ m s).work := by
  obtain ⟨s, t, h1, h2⟩ := C112_size c e
  exact ⟨s, fun m hm => Nat.lt_of_lt_of_le h2 (C112_at_least s t h1 m hm).2⟩

/-- **C112.** The texts in question are not ASCII texts: for `c, e ≥ 1` the bound of C95 excludes those. -/
theorem C112_outside_ascii (c e : Nat) (hc : 1 ≤ c) (he : 1 ≤ e) (s : Str) (t : ParamType) (h : read s = .ok t)
    (hl : c * bytesIn s ^ e < nodes t) : s.all (fun x => decide (x.toNat < 128)) = false := by
  cases ha : s.all (fun x => decide (x.toNat < 128)) with
  | false => rfl
  | true =>
    have h1 := C95_size s ha t h
    have h2 := Deep.length_le s
    rw [TokenText.byteLen_eq] at h2
    have h3 : bytesIn s ≤ bytesIn s ^ e := Nat.le_self_pow (by omega) _
    have h4 : bytesIn s ^ e ≤ c * bytesIn s ^ e := Nat.le_mul_of_pos_left _ hc
    omega

/-- one of the texts: `int`, `int000` and `int000000` are read from the same place -/
example : read (lit "(((ééééééééééé0int0000000(int000000,a(a),a),a)") =
    .ok (.tuple [.tuple [.int 0, .int 256], .tuple [.int 0], .tuple [.int 0]]) := by decide +kernel

/-- one of the next: 205 characters -/
example : ((Deep.level 2 2).text 2).length = 205 ∧ (match read ((Deep.level 2 2).text 2) with
      | .ok t => nodes t
      | _ => 0) = 29 := ⟨by decide +kernel, by decide +kernel⟩

end Ethabi.Props

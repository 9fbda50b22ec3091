import Verif.Proofs.Significant
import Verif.Proofs.TypeCheck
import Verif.Spec.Canonical
/-! Lemmas for C116: when the encoding of the values read is the data themselves. -/
namespace Ethabi.Canonical
open Spec Significant

theorem join_slice {off m n : Nat} {a x y : Bytes} (hx : x.length = m) :
    x ++ y = (a.drop off).take (m + n) ↔ x = (a.drop off).take m ∧ y = (a.drop (off + m)).take n := by
  constructor
  · intro h
    have h1 := congrArg (List.take m) h
    have h2 := congrArg (List.drop m) h
    rw [List.take_left' hx, List.take_take, Nat.min_eq_left (by omega)] at h1
    rw [List.drop_left' hx, List.drop_take, List.drop_drop, Nat.add_sub_cancel_left] at h2
    exact ⟨h1, h2⟩
  · rintro ⟨h1, h2⟩
    rw [slice_split, ← h1, ← h2]

theorem array_slice (a : Bytes) (t : ParamType) (hd : dynamic t = false) (hc : codable t = true)
    (hs : ∀ o tok, hasType tok t = true → reads t a o tok → (enc tok t = (a.drop o).take (staticSize t) ↔ padded t o a)) :
    ∀ (toks : List Token) (off : Nat), allHaveType toks t = true → spaced (reads t a) (staticSize t) off toks →
      (layout (encAll toks t) = (a.drop off).take (toks.length * staticSize t) ↔
        ∀ i, i < toks.length → padded t (off + i * staticSize t) a)
  | [], off, _, _ => by simp [encAll, layout, Spec.heads, Spec.tails]
  | tok :: toks, off, hy, hr => by
    simp only [allHaveType, Bool.and_eq_true] at hy
    have h0 := hr 0 tok rfl
    rw [Nat.zero_mul, Nat.add_zero] at h0
    have h1 : spaced (reads t a) (staticSize t) (off + staticSize t) toks := by
      intro i x hi
      have := hr (i + 1) x (by simpa using hi)
      rwa [Nat.succ_mul, Nat.add_comm (i * _), ← Nat.add_assoc] at this
    rw [static_layout (allStatic_encAll _ _ hd)]
    simp only [encAll, List.flatMap_cons, List.length_cons]
    rw [← static_layout (allStatic_encAll _ _ hd), Nat.succ_mul, Nat.add_comm (toks.length * _),
      join_slice (staticSize_enc tok t hy.1 hc hd), hs off tok hy.1 h0, array_slice a t hd hc hs toks _ hy.2 h1]
    constructor
    · rintro ⟨x, y⟩ i hi
      cases i with
      | zero => simpa using x
      | succ i =>
        have := y i (by omega)
        rwa [Nat.add_assoc, Nat.add_comm (staticSize t), ← Nat.succ_mul] at this
    · intro x
      refine ⟨by simpa using x 0 (by omega), fun i hi => ?_⟩
      have := x (i + 1) (by omega)
      rwa [Nat.succ_mul, Nat.add_comm (i * _), ← Nat.add_assoc] at this

mutual
theorem enc_slice (a : Bytes) : ∀ (t : ParamType) (off : Nat) (tok : Token), dynamic t = false → codable t = true →
    hasType tok t = true → reads t a off tok → (enc tok t = (a.drop off).take (staticSize t) ↔ padded t off a)
  | .address, off, tok, _, _, _, h => by
    unfold reads at h
    obtain ⟨pad, x, h1, h2, rfl⟩ := h
    have hx : x.1.length = 20 := x.2
    simp only [enc, staticSize, padded]
    rw [h2]
    have h3 : (a.drop off).take 12 = pad := by
      have := congrArg (List.take 12) h2
      rwa [List.take_take, List.take_left' h1] at this
    rw [h3]
    constructor
    · intro h; exact (List.append_inj h (by simp [h1])).1.symm
    · intro h; rw [h]
  | .int m, off, tok, _, _, _, h => by
    unfold reads at h
    obtain ⟨n, ⟨h1, h2⟩, rfl⟩ := h
    simp only [enc, staticSize, padded, h2, BitVec.toNat_ofNat, Nat.mod_eq_of_lt h1]
  | .uint m, off, tok, _, _, _, h => by
    unfold reads at h
    obtain ⟨n, ⟨h1, h2⟩, rfl⟩ := h
    simp only [enc, staticSize, padded, h2, BitVec.toNat_ofNat, Nat.mod_eq_of_lt h1]
  | .bool, off, tok, _, _, _, h => by
    unfold reads at h
    obtain ⟨n, h1, ⟨_, h2⟩, rfl⟩ := h
    have hb := get_word h1 h2
    simp only [enc, staticSize, padded, h2, hb, Option.some.injEq]
    have e0 : (UInt8.ofNat n = 0) ↔ n = 0 := by
      constructor
      · intro h
        have := congrArg UInt8.toNat h
        simpa [Nat.mod_eq_of_lt h1] using this
      · rintro rfl; rfl
    have e1 : (UInt8.ofNat n = 1) ↔ n = 1 := by
      constructor
      · intro h
        have := congrArg UInt8.toNat h
        simpa [Nat.mod_eq_of_lt h1] using this
      · rintro rfl; rfl
    rw [e0, e1]
    constructor
    · intro h
      rw [word_small h1, word_small (by split <;> decide)] at h
      have := List.append_cancel_left h
      simp only [List.cons.injEq, and_true] at this
      by_cases hn : n = 1
      · exact .inr hn
      · left
        rw [if_neg (by simpa using hn)] at this
        exact e0.1 this.symm
    · rintro (rfl | rfl) <;> rfl
  | .fixedBytes n, off, tok, _, hc, _, h => by
    unfold reads at h
    obtain ⟨h1, rfl⟩ := h
    simp only [codable, decide_eq_true_eq] at hc
    have hl : ((a.drop off).take n).length = n := by simp only [List.length_take, List.length_drop]; omega
    simp only [enc, staticSize, padded, padRight, hl]
    have e : (32 - n % 32) % 32 = 32 - n := by omega
    have e2 : 32 = n + (32 - n) := by omega
    rw [e]
    conv => lhs; rhs; rw [e2]
    rw [join_slice hl]
    exact ⟨fun h => h.2.symm, fun h => ⟨rfl, h.symm⟩⟩
  | .bytes, _, _, hd, _, _, _ => by simp [dynamic] at hd
  | .string, _, _, hd, _, _, _ => by simp [dynamic] at hd
  | .array _, _, _, hd, _, _, _ => by simp [dynamic] at hd
  | .fixedArray t k, off, tok, hd, hc, ht, h => by
    have hd' : dynamic t = false := by simpa [dynamic] using hd
    rw [reads, hd'] at h
    simp only [Bool.false_eq_true, if_false] at h
    obtain ⟨toks, h1, h2, rfl⟩ := h
    simp only [codable, Bool.and_eq_true] at hc
    simp only [hasType, Bool.and_eq_true, beq_iff_eq] at ht
    rw [headWidth_static hd'] at h2
    subst h1
    simp only [enc, staticSize, padded]
    exact array_slice a t hd' hc.1 (fun o tok hy hr => enc_slice a t o tok hd' hc.1 hy hr) toks off ht.2 h2
  | .tuple ts, off, tok, hd, hc, ht, h => by
    have hd' : dynamicAny ts = false := by simpa [dynamic] using hd
    rw [reads, hd'] at h
    simp only [Bool.false_eq_true, if_false] at h
    obtain ⟨toks, h1, rfl⟩ := h
    simp only [codable] at hc
    simp only [hasType] at ht
    simp only [enc, staticSize, padded]
    exact encZip_slice a ts off toks hd' hc ht h1
theorem encZip_slice (a : Bytes) : ∀ (ts : List ParamType) (off : Nat) (toks : List Token), dynamicAny ts = false →
    codableAll ts = true → haveTypes toks ts = true → readsAll ts a off toks →
    (layout (encZip toks ts) = (a.drop off).take (staticSizeAll ts) ↔ paddedAll ts off a)
  | [], off, toks, _, _, _, h => by
    unfold readsAll at h
    subst h
    simp [encZip, layout, Spec.heads, Spec.tails, staticSizeAll, paddedAll]
  | t :: ts, off, toks, hd, hc, ht, h => by
    unfold readsAll at h
    obtain ⟨tok, rest, h1, h2, rfl⟩ := h
    have hd0 := hd
    simp only [dynamicAny, Bool.or_eq_false_iff] at hd
    simp only [codableAll, Bool.and_eq_true] at hc
    simp only [haveTypes, Bool.and_eq_true] at ht
    rw [headWidth_static hd.1] at h2
    rw [static_layout (allStatic_encZip _ _ hd0)]
    simp only [encZip, List.flatMap_cons, staticSizeAll, paddedAll]
    rw [← static_layout (allStatic_encZip _ _ hd.2), join_slice (staticSize_enc tok t ht.1 hc.1 hd.1),
      enc_slice a t off tok hd.1 hc.1 ht.1 h1, encZip_slice a ts _ rest hd.2 hc.2 ht.2 h2]
end

mutual
theorem narrow_of_codable : ∀ (t : ParamType), codable t = true → narrow t = true
  | .fixedBytes n, h => by
    simp only [codable, decide_eq_true_eq] at h
    simp only [narrow, decide_eq_true_eq]; omega
  | .array t, h => by simp only [codable] at h; simpa only [narrow] using narrow_of_codable t h
  | .fixedArray t k, h => by
    simp only [codable, Bool.and_eq_true] at h
    simpa only [narrow] using narrow_of_codable t h.1
  | .tuple ts, h => by simp only [codable] at h; simpa only [narrow] using narrowAll_of_codable ts h
  | .address, _ => rfl
  | .bytes, _ => rfl
  | .int _, _ => rfl
  | .uint _, _ => rfl
  | .bool, _ => rfl
  | .string, _ => rfl
theorem narrowAll_of_codable : ∀ (ts : List ParamType), codableAll ts = true → narrowAll ts = true
  | [], _ => rfl
  | t :: ts, h => by
    simp only [codableAll, Bool.and_eq_true] at h
    simp only [narrowAll, narrow_of_codable t h.1, narrowAll_of_codable ts h.2, Bool.and_self]
end

mutual
theorem padded_full (a : Bytes) : ∀ (t : ParamType) (off : Nat), full t = true → padded t off a
  | .int _, _, _ => by simp only [padded]
  | .uint _, _, _ => by simp only [padded]
  | .fixedBytes n, off, h => by
    simp only [full, beq_iff_eq] at h
    subst h; simp [padded]
  | .fixedArray t k, off, h => by
    simp only [full] at h
    simp only [padded]
    exact fun i _ => padded_full a t _ h
  | .tuple ts, off, h => by
    simp only [full] at h
    simp only [padded]
    exact paddedAll_full a ts off h
theorem paddedAll_full (a : Bytes) : ∀ (ts : List ParamType) (off : Nat), fullAll ts = true → paddedAll ts off a
  | [], _, _ => by simp only [paddedAll]
  | t :: ts, off, h => by
    simp only [fullAll, Bool.and_eq_true] at h
    simp only [paddedAll]
    exact ⟨padded_full a t off h.1, paddedAll_full a ts _ h.2⟩
end

end Ethabi.Canonical

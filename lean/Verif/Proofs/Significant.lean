import Verif.Proofs.ReadingExact
import Verif.Spec.Significant
/-! # Significant bytes: lemmas for C114 -/
namespace Ethabi.Significant
open Spec

theorem slice_length {off n : Nat} {b x : Bytes} (h : (b.drop off).take n = x) (hx : x.length = n) (hn : n ≠ 0) :
    off + n ≤ b.length := by
  subst h
  simp only [List.length_take, List.length_drop] at hx
  omega

theorem slice_split {off m n : Nat} (b : Bytes) :
    (b.drop off).take (m + n) = (b.drop off).take m ++ (b.drop (off + m)).take n := by
  rw [List.take_add, List.drop_drop]

theorem number_alike {off n : Nat} {a b : Bytes} (ha : numberAt a off n) : numberAt b off n ↔ sameBytes off 32 a b := by
  obtain ⟨h1, h2⟩ := ha
  constructor
  · rintro ⟨_, h3⟩
    exact ⟨take32_length h3, by rw [h2, h3]⟩
  · rintro ⟨_, h4⟩
    exact ⟨h1, by rw [← h4, h2]⟩

theorem number_inj {off n m : Nat} {a : Bytes} (h : numberAt a off n) (h' : numberAt a off m) : n = m :=
  word_inj h.1 h'.1 (h.2.symm.trans h'.2)

theorem int_alike {off n : Nat} {a b : Bytes} {f : U256 → Token} (hf : ∀ x y, f x = f y → x = y) (ha : numberAt a off n) :
    (∃ m, numberAt b off m ∧ f (BitVec.ofNat 256 n) = f (BitVec.ofNat 256 m)) ↔ sameBytes off 32 a b := by
  rw [← number_alike ha]
  constructor
  · rintro ⟨m, hm, e⟩
    have e1 := congrArg BitVec.toNat (hf _ _ e)
    simp only [BitVec.toNat_ofNat] at e1
    rw [Nat.mod_eq_of_lt ha.1, Nat.mod_eq_of_lt hm.1] at e1
    rw [e1]; exact hm
  · intro h; exact ⟨n, h, rfl⟩

theorem word_small {n : Nat} (h : n < 256) : word n = List.replicate 31 0 ++ [UInt8.ofNat n] := by
  have : ∀ k : Fin 256, word k.1 = List.replicate 31 0 ++ [UInt8.ofNat k.1] := by decide +kernel
  exact this ⟨n, h⟩

theorem get_word {off n : Nat} {a : Bytes} (h : n < 256) (ha : (a.drop off).take 32 = word n) :
    a[off + 31]? = some (UInt8.ofNat n) := by
  have h1 : ((a.drop off).take 32)[31]? = some (UInt8.ofNat n) := by
    rw [ha, word_small h]
    simp
  simpa [List.getElem?_take, List.getElem?_drop] using h1

theorem byte_one {n : Nat} (h : n < 256) : (some (UInt8.ofNat n) = some (1 : UInt8)) ↔ n = 1 := by
  have : ∀ k : Fin 256, (some (UInt8.ofNat k.1) = some (1 : UInt8)) ↔ k.1 = 1 := by decide +kernel
  exact this ⟨n, h⟩

theorem bool_alike {off n : Nat} {a b : Bytes} (hn : n < 256) (ha : numberAt a off n) :
    (∃ m, m < 256 ∧ numberAt b off m ∧ Token.bool (decide (n = 1)) = .bool (decide (m = 1))) ↔ alike .bool off a b := by
  have ea : (a.drop off).take 31 = List.replicate 31 0 := by
    have h2 := ha.2
    rw [word_small hn, slice_split (m := 31) (n := 1)] at h2
    have hl : ((a.drop off).take 31).length = 31 := by
      have := take32_length ha.2
      simp only [List.length_take, List.length_drop]; omega
    exact (List.append_inj h2 (by rw [hl]; rfl)).1
  unfold alike sameBytes
  constructor
  · rintro ⟨m, hm, hb, e⟩
    have hlen := take32_length hb.2
    have eb : (b.drop off).take 31 = List.replicate 31 0 := by
      have h2 := hb.2
      rw [word_small hm, slice_split (m := 31) (n := 1)] at h2
      have hl : ((b.drop off).take 31).length = 31 := by
        simp only [List.length_take, List.length_drop]; omega
      exact (List.append_inj h2 (by rw [hl]; rfl)).1
    refine ⟨⟨by omega, by rw [ea, eb]⟩, hlen, ?_⟩
    rw [get_word hn ha.2, get_word hm hb.2, byte_one hn, byte_one hm]
    have e1 := Token.bool.inj e
    by_cases h1 : n = 1 <;> by_cases h2 : m = 1 <;> simp_all
  · rintro ⟨⟨_, h1⟩, hlen, h2⟩
    have hlt : off + 31 < b.length := by omega
    have hg : b[off + 31]? = some b[off + 31] := List.getElem?_eq_getElem hlt
    have hw : b[off + 31].toNat < 256 := b[off + 31].toNat_lt
    have hb : numberAt b off b[off + 31].toNat := by
      refine ⟨by omega, ?_⟩
      rw [word_small hw, slice_split (m := 31) (n := 1), ← h1, ea]
      congr 1
      rw [List.take_one, List.head?_drop, hg]
      simp
    refine ⟨_, hw, hb, ?_⟩
    rw [get_word hn ha.2, get_word hw hb.2, byte_one hn, byte_one hw] at h2
    congr 1
    exact decide_eq_decide.2 h2

theorem address_alike {off : Nat} {a b pad : Bytes} {x : Address} (hp : pad.length = 12) (ha : (a.drop off).take 32 = pad ++ x.1) :
    (∃ (pad' : Bytes) (y : Address), pad'.length = 12 ∧ (b.drop off).take 32 = pad' ++ y.1 ∧ Token.address x = .address y) ↔
      sameBytes (off + 12) 20 a b := by
  have hx : x.1.length = 20 := x.2
  have ea : (a.drop (off + 12)).take 20 = x.1 := by
    have h := ha
    rw [slice_split (m := 12) (n := 20)] at h
    have hl : ((a.drop off).take 12).length = pad.length := by
      have := slice_length ha (by simp [hp, hx]) (by decide)
      simp only [List.length_take, List.length_drop]; omega
    exact (List.append_inj h hl).2
  unfold sameBytes
  constructor
  · rintro ⟨pad', y, hp', hb, e⟩
    cases Token.address.inj e
    have hlen := slice_length hb (by simp [hp', hx]) (by decide)
    have h := hb
    rw [slice_split (m := 12) (n := 20)] at h
    have hl : ((b.drop off).take 12).length = pad'.length := by
      simp only [List.length_take, List.length_drop]; omega
    exact ⟨by omega, by rw [ea, (List.append_inj h hl).2]⟩
  · rintro ⟨h1, h2⟩
    refine ⟨(b.drop off).take 12, x, ?_, ?_, rfl⟩
    · simp only [List.length_take, List.length_drop]; omega
    · rw [slice_split (m := 12) (n := 20), ← h2, ea]

theorem fixed_alike {off n : Nat} {a b : Bytes} :
    (off + n ≤ b.length ∧ Token.fixedBytes ((a.drop off).take n) = .fixedBytes ((b.drop off).take n)) ↔ sameBytes off n a b := by
  unfold sameBytes
  constructor
  · rintro ⟨h1, h2⟩; exact ⟨h1, Token.fixedBytes.inj h2⟩
  · rintro ⟨h1, h2⟩; exact ⟨h1, by rw [h2]⟩

theorem array_alike {p q : Nat → Token → Prop} {r : Nat → Prop} {w off k : Nat} {toks : List Token}
    (h : ∀ o tok, p o tok → (q o tok ↔ r o)) (hl : toks.length = k) (hp : spaced p w off toks) :
    (∃ toks', toks'.length = k ∧ spaced q w off toks' ∧ Token.fixedArray toks = .fixedArray toks') ↔
      ∀ i, i < k → r (off + i * w) := by
  constructor
  · rintro ⟨toks', _, hq, e⟩ i hi
    cases Token.fixedArray.inj e
    have hg : toks[i]? = some toks[i] := List.getElem?_eq_getElem (by omega)
    exact (h _ _ (hp i _ hg)).1 (hq i _ hg)
  · intro hr
    refine ⟨toks, hl, ?_, rfl⟩
    intro i tok hi
    have hlt : i < toks.length := (List.getElem?_eq_some_iff.1 hi).1
    exact (h _ _ (hp i tok hi)).2 (hr i (by omega))

mutual
theorem reads_alike (a b : Bytes) : ∀ (t : ParamType) (off : Nat) (tok : Token), dynamic t = false → reads t a off tok →
    (reads t b off tok ↔ alike t off a b)
  | .address, off, tok, _, h => by
    unfold reads at h ⊢
    obtain ⟨pad, x, h1, h2, rfl⟩ := h
    rw [address_alike h1 h2]; unfold alike; rfl
  | .int m, off, tok, _, h => by
    unfold reads at h ⊢
    obtain ⟨n, h1, rfl⟩ := h
    rw [int_alike (f := Token.int) (fun x y e => Token.int.inj e) h1]; unfold alike; rfl
  | .uint m, off, tok, _, h => by
    unfold reads at h ⊢
    obtain ⟨n, h1, rfl⟩ := h
    rw [int_alike (f := Token.uint) (fun x y e => Token.uint.inj e) h1]; unfold alike; rfl
  | .bool, off, tok, _, h => by
    unfold reads at h ⊢
    obtain ⟨n, h1, h2, rfl⟩ := h
    exact bool_alike h1 h2
  | .fixedBytes n, off, tok, _, h => by
    unfold reads at h ⊢
    obtain ⟨h1, rfl⟩ := h
    rw [fixed_alike]; unfold alike; rfl
  | .bytes, _, _, hd, _ => by simp [dynamic] at hd
  | .string, _, _, hd, _ => by simp [dynamic] at hd
  | .array _, _, _, hd, _ => by simp [dynamic] at hd
  | .fixedArray t k, off, tok, hd, h => by
    have hd' : dynamic t = false := by simpa [dynamic] using hd
    rw [reads, hd'] at h ⊢
    simp only [Bool.false_eq_true, if_false] at h ⊢
    obtain ⟨toks, h1, h2, rfl⟩ := h
    rw [array_alike (fun o tok => reads_alike a b t o tok hd') h1 h2, headWidth_static hd']
    simp only [alike]
  | .tuple ts, off, tok, hd, h => by
    have hd' : dynamicAny ts = false := by simpa [dynamic] using hd
    rw [reads, hd'] at h ⊢
    simp only [Bool.false_eq_true, if_false] at h ⊢
    obtain ⟨toks, h1, rfl⟩ := h
    have hx := readsAll_alike a b ts off toks hd' h1
    simp only [alike, ← hx]
    constructor
    · rintro ⟨toks', h2, e⟩; cases Token.tuple.inj e; exact h2
    · intro h2; exact ⟨toks, h2, rfl⟩
theorem readsAll_alike (a b : Bytes) : ∀ (ts : List ParamType) (off : Nat) (toks : List Token), dynamicAny ts = false →
    readsAll ts a off toks → (readsAll ts b off toks ↔ alikeAll ts off a b)
  | [], off, toks, _, h => by
    unfold readsAll at h ⊢; unfold alikeAll
    simp [h]
  | t :: ts, off, toks, hd, h => by
    simp only [dynamicAny, Bool.or_eq_false_iff] at hd
    unfold readsAll at h ⊢; unfold alikeAll
    obtain ⟨tok, rest, h1, h2, rfl⟩ := h
    rw [headWidth_static hd.1] at h2 ⊢
    rw [← reads_alike a b t off tok hd.1 h1, ← readsAll_alike a b ts _ rest hd.2 h2]
    constructor
    · rintro ⟨tok', rest', h3, h4, e⟩
      cases e
      exact ⟨h3, h4⟩
    · rintro ⟨h3, h4⟩; exact ⟨tok, rest, h3, h4, rfl⟩
end

theorem same_join {off m n : Nat} {a b : Bytes} (ha : off + m + n ≤ a.length) :
    (sameBytes off m a b ∧ sameBytes (off + m) n a b) ↔ sameBytes off (m + n) a b := by
  unfold sameBytes
  rw [slice_split, slice_split]
  constructor
  · rintro ⟨⟨_, h2⟩, h3, h4⟩; exact ⟨by omega, by rw [h2, h4]⟩
  · rintro ⟨h1, h2⟩
    have hl : ((a.drop off).take m).length = ((b.drop off).take m).length := by
      simp only [List.length_take, List.length_drop]; omega
    have := List.append_inj h2 hl
    exact ⟨⟨by omega, this.1⟩, by omega, this.2⟩

theorem same_rep {off w : Nat} {a b : Bytes} : ∀ (k : Nat), off + k * w ≤ a.length → off ≤ b.length →
    ((∀ i, i < k → sameBytes (off + i * w) w a b) ↔ sameBytes off (k * w) a b)
  | 0, _, hb => by simp [sameBytes, hb]
  | k + 1, h, hb => by
    rw [Nat.succ_mul] at h ⊢
    rw [← same_join (by omega), ← same_rep k (by omega) hb]
    constructor
    · intro hi; exact ⟨fun i hk => hi i (by omega), hi k (by omega)⟩
    · rintro ⟨h1, h2⟩ i hi
      by_cases hk : i = k
      · subst hk; exact h2
      · exact h1 i (by omega)

mutual
theorem full_static : ∀ (t : ParamType), full t = true → dynamic t = false ∧ narrow t = true
  | .int _, _ => ⟨rfl, rfl⟩
  | .uint _, _ => ⟨rfl, rfl⟩
  | .fixedBytes n, h => by
    simp only [full, beq_iff_eq] at h
    subst h; exact ⟨rfl, rfl⟩
  | .fixedArray t k, h => by
    simp only [full] at h
    simpa [dynamic, narrow] using full_static t h
  | .tuple ts, h => by
    simp only [full] at h
    simpa [dynamic, narrow] using fullAll_static ts h
theorem fullAll_static : ∀ (ts : List ParamType), fullAll ts = true → dynamicAny ts = false ∧ narrowAll ts = true
  | [], _ => ⟨rfl, rfl⟩
  | t :: ts, h => by
    simp only [fullAll, Bool.and_eq_true] at h
    simp [dynamicAny, narrowAll, full_static t h.1, fullAll_static ts h.2]
end

mutual
theorem full_alike (a b : Bytes) : ∀ (t : ParamType) (off : Nat), full t = true → off + staticSize t ≤ a.length → off ≤ b.length →
    (alike t off a b ↔ sameBytes off (staticSize t) a b)
  | .int _, off, _, _, _ => by simp only [alike, staticSize]
  | .uint _, off, _, _, _ => by simp only [alike, staticSize]
  | .fixedBytes n, off, h, _, _ => by
    simp only [full, beq_iff_eq] at h
    subst h; simp only [alike, staticSize]
  | .fixedArray t k, off, h, ha, hb => by
    simp only [full] at h
    simp only [staticSize] at ha ⊢
    rw [← same_rep k ha hb]
    simp only [alike]
    constructor
    · intro hi i hk
      have hle : (i + 1) * staticSize t ≤ k * staticSize t := Nat.mul_le_mul_right _ hk
      rw [Nat.succ_mul] at hle
      have hbound : ∀ j, j ≤ i → off + j * staticSize t ≤ b.length := by
        intro j
        induction j with
        | zero => intro _; simpa using hb
        | succ j ih =>
          intro hj
          have hjl : (j + 1) * staticSize t ≤ i * staticSize t := Nat.mul_le_mul_right _ hj
          rw [Nat.succ_mul] at hjl ⊢
          have := ((full_alike a b t (off + j * staticSize t) h (by omega) (ih (by omega))).1 (hi j (by omega))).1
          omega
      exact (full_alike a b t _ h (by omega) (hbound i (by omega))).1 (hi i hk)
    · intro hi i hk
      have hle : (i + 1) * staticSize t ≤ k * staticSize t := Nat.mul_le_mul_right _ hk
      rw [Nat.succ_mul] at hle
      have hs := hi i hk
      exact (full_alike a b t _ h (by omega) (by have := hs.1; omega)).2 hs
  | .tuple ts, off, h, ha, hb => by
    simp only [full] at h
    simp only [staticSize] at ha ⊢
    simp only [alike]
    exact fullAll_alike a b ts off h ha hb
theorem fullAll_alike (a b : Bytes) : ∀ (ts : List ParamType) (off : Nat), fullAll ts = true →
    off + staticSizeAll ts ≤ a.length → off ≤ b.length → (alikeAll ts off a b ↔ sameBytes off (staticSizeAll ts) a b)
  | [], off, _, _, hb => by simp [alikeAll, sameBytes, staticSizeAll, hb]
  | t :: ts, off, h, ha, hb => by
    simp only [fullAll, Bool.and_eq_true] at h
    simp only [staticSizeAll] at ha ⊢
    rw [← same_join (by omega)]
    simp only [alikeAll]
    rw [full_alike a b t off h.1 (by omega) hb]
    constructor
    · rintro ⟨h1, h2⟩
      exact ⟨h1, (fullAll_alike a b ts _ h.2 (by omega) h1.1).1 h2⟩
    · rintro ⟨h1, h2⟩
      exact ⟨h1, (fullAll_alike a b ts _ h.2 (by omega) h1.1).2 h2⟩
end

mutual
/-- data that hold a value of a full type reach to its end -/
theorem reads_reach (a : Bytes) : ∀ (t : ParamType) (off : Nat) (tok : Token), full t = true → reads t a off tok → off ≤ a.length →
    off + staticSize t ≤ a.length
  | .int _, off, tok, _, h, _ => by
    unfold reads at h
    obtain ⟨n, h1, _⟩ := h
    exact take32_length h1.2
  | .uint _, off, tok, _, h, _ => by
    unfold reads at h
    obtain ⟨n, h1, _⟩ := h
    exact take32_length h1.2
  | .fixedBytes n, off, tok, hf, h, _ => by
    simp only [full, beq_iff_eq] at hf
    subst hf
    unfold reads at h
    exact h.1
  | .fixedArray t k, off, tok, hf, h, ho => by
    simp only [full] at hf
    have hd' := (full_static t hf).1
    rw [reads, hd'] at h
    simp only [Bool.false_eq_true, if_false] at h
    obtain ⟨toks, h1, h2, _⟩ := h
    rw [headWidth_static hd'] at h2
    simp only [staticSize]
    have hj : ∀ j, j ≤ k → off + j * staticSize t ≤ a.length := by
      intro j
      induction j with
      | zero => intro _; simpa using ho
      | succ j ih =>
        intro hj
        have hg : toks[j]? = some toks[j] := List.getElem?_eq_getElem (by omega)
        have := reads_reach a t _ _ hf (h2 j _ hg) (ih (by omega))
        rw [Nat.succ_mul]; omega
    exact hj k (by omega)
  | .tuple ts, off, tok, hf, h, ho => by
    simp only [full] at hf
    rw [reads, (fullAll_static ts hf).1] at h
    simp only [Bool.false_eq_true, if_false] at h
    obtain ⟨toks, h1, _⟩ := h
    simpa only [staticSize] using readsAll_reach a ts off toks hf h1 ho
theorem readsAll_reach (a : Bytes) : ∀ (ts : List ParamType) (off : Nat) (toks : List Token), fullAll ts = true →
    readsAll ts a off toks → off ≤ a.length → off + staticSizeAll ts ≤ a.length
  | [], off, _, _, _, ho => by simpa [staticSizeAll] using ho
  | t :: ts, off, toks, hf, h, ho => by
    simp only [fullAll, Bool.and_eq_true] at hf
    unfold readsAll at h
    obtain ⟨tok, rest, h1, h2, _⟩ := h
    rw [headWidth_static (full_static t hf.1).1] at h2
    have := reads_reach a t off tok hf.1 h1 ho
    have := readsAll_reach a ts _ rest hf.2 h2 this
    simp only [staticSizeAll]; omega
end

end Ethabi.Significant

import Verif.Proofs.ReadingExact
import Verif.Proofs.Lossy
import Verif.Spec.Weight
/-! # The size of decoded values (for C83) -/
namespace Ethabi.Weight
open Spec

theorem utf8Char_le4 (c : Char) : (utf8Char c).length ≤ 4 := by
  unfold utf8Char; simp only []; split
  · simp
  · split
    · simp
    · split <;> simp

theorem replacement_len : (utf8Char replacementChar).length = 3 := by decide

theorem lossy_len (b : Bytes) : (utf8 (fromUtf8Lossy b)).length ≤ 3 * b.length := by
  have h3 := replacement_len
  have e : ∀ (c : Char) (s : Str), (utf8 (c :: s)).length = (utf8Char c).length + (utf8 s).length := by
    intro c s; rw [show utf8 (c :: s) = utf8Char c ++ utf8 s from rfl, List.length_append]
  have e0 : (utf8 []).length = 0 := rfl
  fun_induction fromUtf8Lossy b
  case case1 => simp [utf8]
  case case2 b rest n hw ih =>
    have h := (width_cases b).1 hw
    have h1 : (utf8Char (Char.ofNat n)).length = 1 := by
      simp only [utf8Char]
      rw [toNat_ofNat_valid (by omega), if_pos (by omega)]; rfl
    rw [e, h1]; simp only [List.length_cons]; omega
  all_goals
    first
    | (rw [e, h3]; simp only [List.length_cons, List.length_nil, e0] at *; omega)
    | (rw [e]; simp only [List.length_cons, List.length_nil, e0] at *
       refine Nat.le_trans (Nat.add_le_add_right (utf8Char_le4 _) _) ?_
       omega)

theorem weightAll_le {m : Nat} : ∀ (toks : List Token), (∀ tok ∈ toks, weight tok ≤ m) → weightAll toks ≤ toks.length * m
  | [], _ => by simp [weightAll]
  | tok :: toks, h => by
    have h1 := h tok (by simp)
    have h2 := weightAll_le toks (fun x hx => h x (by simp [hx]))
    rw [weightAll, List.length_cons, Nat.succ_mul]; omega

theorem spaced_mem {p : Nat → Token → Prop} {w off : Nat} {toks : List Token} (h : spaced p w off toks) {tok : Token}
    (hm : tok ∈ toks) : ∃ o, p o tok := by
  obtain ⟨i, hi, rfl⟩ := List.mem_iff_getElem.1 hm
  exact ⟨_, h i _ (List.getElem?_eq_getElem hi)⟩

theorem payload_len {data b : Bytes} {o l : Nat} (hl : data.length ≤ l) (h : payloadAt data o b) : b.length ≤ l := by
  have := congrArg List.length h.2
  rw [List.length_take, List.length_drop] at this
  omega

mutual
theorem reads_weight (l : Nat) : ∀ (t : ParamType) (data : Bytes) (off : Nat) (tok : Token), data.length ≤ l →
    reads t data off tok → arraysAtMost (l / 32) tok → weight tok ≤ maxWeight l t
  | .address, data, off, tok, hl, h, _ => by
      obtain ⟨_, _, -, -, rfl⟩ := h; exact Nat.le_refl _
  | .int _, data, off, tok, hl, h, _ => by
      obtain ⟨_, -, rfl⟩ := h; exact Nat.le_refl _
  | .uint _, data, off, tok, hl, h, _ => by
      obtain ⟨_, -, rfl⟩ := h; exact Nat.le_refl _
  | .bool, data, off, tok, hl, h, _ => by
      obtain ⟨_, -, -, rfl⟩ := h; exact Nat.le_refl _
  | .fixedBytes n, data, off, tok, hl, h, _ => by
      obtain ⟨-, rfl⟩ := h
      simp only [weight, maxWeight, List.length_take]; omega
  | .bytes, data, off, tok, hl, h, _ => by
      obtain ⟨_, b, -, hp, rfl⟩ := h
      have := payload_len hl hp
      simp only [weight, maxWeight]; omega
  | .string, data, off, tok, hl, h, _ => by
      obtain ⟨_, b, -, hp, rfl⟩ := h
      have := payload_len hl hp
      have h3 := lossy_len b
      simp only [weight, maxWeight, ← utf8_eq_core]; omega
  | .array t, data, off, tok, hl, h, ha => by
      obtain ⟨o, toks, -, -, hs, rfl⟩ := h
      cases ha with
      | array _ hc ha =>
        have h1 := weightAll_le toks (m := maxWeight l t) fun tok hm => by
          obtain ⟨o', hr⟩ := spaced_mem hs hm
          exact reads_weight l t _ _ tok (by rw [List.length_drop]; omega) hr (ha tok hm)
        have h2 := Nat.mul_le_mul_right (maxWeight l t) hc
        simp only [weight, maxWeight]; omega
  | .fixedArray t k, data, off, tok, hl, h, ha => by
      rw [reads] at h
      split at h
      · obtain ⟨o, toks, -, -, hk, hs, rfl⟩ := h
        cases ha with
        | fixedArray _ ha =>
          have h1 := weightAll_le toks (m := maxWeight l t) fun tok hm => by
            obtain ⟨o', hr⟩ := spaced_mem hs hm
            exact reads_weight l t _ _ tok (by rw [List.length_drop]; omega) hr (ha tok hm)
          rw [hk] at h1
          simp only [weight, maxWeight]; omega
      · obtain ⟨toks, hk, hs, rfl⟩ := h
        cases ha with
        | fixedArray _ ha =>
          have h1 := weightAll_le toks (m := maxWeight l t) fun tok hm => by
            obtain ⟨o', hr⟩ := spaced_mem hs hm
            exact reads_weight l t _ _ tok hl hr (ha tok hm)
          rw [hk] at h1
          simp only [weight, maxWeight]; omega
  | .tuple ts, data, off, tok, hl, h, ha => by
      rw [reads] at h
      split at h
      · obtain ⟨o, toks, -, -, hr, rfl⟩ := h
        cases ha with
        | tuple _ ha =>
          have := readsAll_weight l ts _ _ toks (by rw [List.length_drop]; omega) hr ha
          simp only [weight, maxWeight]; omega
      · obtain ⟨toks, hr, rfl⟩ := h
        cases ha with
        | tuple _ ha =>
          have := readsAll_weight l ts _ _ toks hl hr ha
          simp only [weight, maxWeight]; omega
theorem readsAll_weight (l : Nat) : ∀ (ts : List ParamType) (data : Bytes) (off : Nat) (toks : List Token), data.length ≤ l →
    readsAll ts data off toks → (∀ tok ∈ toks, arraysAtMost (l / 32) tok) → weightAll toks ≤ maxWeightAll l ts
  | [], data, off, toks, _, h, _ => by
      rw [readsAll] at h; subst h; exact Nat.le_refl _
  | t :: ts, data, off, toks, hl, h, ha => by
      rw [readsAll] at h
      obtain ⟨tok, rest, h1, h2, rfl⟩ := h
      have e1 := reads_weight l t _ _ tok hl h1 (ha tok (by simp))
      have e2 := readsAll_weight l ts _ _ rest hl h2 (fun x hx => ha x (by simp [hx]))
      rw [weightAll, maxWeightAll]; omega
end

/-! ### the bound is a polynomial -/

theorem skeleton_pos : ∀ (t : ParamType), 1 ≤ skeleton t
  | .fixedBytes n => by simp [skeleton]
  | .bytes => by simp [skeleton]
  | .string => by simp [skeleton]
  | .array t => by rw [skeleton]; exact skeleton_pos t
  | .fixedArray t k => by simp [skeleton]
  | .tuple ts => by simp [skeleton]
  | .address => by simp [skeleton]
  | .int _ => by simp [skeleton]
  | .uint _ => by simp [skeleton]
  | .bool => by simp [skeleton]

theorem pow_pos' (l d : Nat) : 1 ≤ (l + 1) ^ d := Nat.one_le_pow _ _ (by omega)

mutual
theorem maxWeight_poly (l : Nat) : ∀ (t : ParamType), maxWeight l t ≤ skeleton t * (l + 1) ^ layers t
  | .fixedBytes n => by simp [maxWeight, skeleton, layers]
  | .bytes => by simp [maxWeight, skeleton, layers]; omega
  | .string => by simp [maxWeight, skeleton, layers]; omega
  | .array t => by
      have h := maxWeight_poly l t
      have hx : 1 ≤ skeleton t * (l + 1) ^ layers t := Nat.mul_pos (skeleton_pos t) (pow_pos' _ _)
      have h2 : l / 32 * maxWeight l t ≤ l * (skeleton t * (l + 1) ^ layers t) :=
        Nat.mul_le_mul (Nat.div_le_self _ _) h
      rw [maxWeight, skeleton, layers, Nat.pow_add, Nat.pow_one]
      have e : skeleton t * ((l + 1) * (l + 1) ^ layers t) = (l + 1) * (skeleton t * (l + 1) ^ layers t) := by
        rw [Nat.mul_left_comm]
      rw [e, Nat.succ_mul]; omega
  | .fixedArray t k => by
      have h := maxWeight_poly l t
      have hp := pow_pos' l (layers t)
      have h2 := Nat.mul_le_mul_left k h
      rw [maxWeight, skeleton, layers, Nat.add_mul, Nat.one_mul, Nat.mul_assoc]; omega
  | .tuple ts => by
      have h := maxWeightAll_poly l ts
      have hp := pow_pos' l (layersAll ts)
      rw [maxWeight, skeleton, layers, Nat.add_mul, Nat.one_mul]; omega
  | .address => by simp [maxWeight, skeleton, layers]
  | .int _ => by simp [maxWeight, skeleton, layers]
  | .uint _ => by simp [maxWeight, skeleton, layers]
  | .bool => by simp [maxWeight, skeleton, layers]
theorem maxWeightAll_poly (l : Nat) : ∀ (ts : List ParamType), maxWeightAll l ts ≤ skeletonAll ts * (l + 1) ^ layersAll ts
  | [] => by simp [maxWeightAll]
  | t :: ts => by
      have h1 := maxWeight_poly l t
      have h2 := maxWeightAll_poly l ts
      have p1 : (l + 1) ^ layers t ≤ (l + 1) ^ max (layers t) (layersAll ts) :=
        Nat.pow_le_pow_right (by omega) (Nat.le_max_left _ _)
      have p2 : (l + 1) ^ layersAll ts ≤ (l + 1) ^ max (layers t) (layersAll ts) :=
        Nat.pow_le_pow_right (by omega) (Nat.le_max_right _ _)
      have q1 := Nat.mul_le_mul_left (skeleton t) p1
      have q2 := Nat.mul_le_mul_left (skeletonAll ts) p2
      rw [maxWeightAll, skeletonAll, layersAll, Nat.add_mul]; omega
end

end Ethabi.Weight

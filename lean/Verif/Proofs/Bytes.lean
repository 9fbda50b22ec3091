import Mathlib.Tactic.NormNum
import Mathlib.Data.List.Induction
import Verif.Model.Encoder
import Verif.Model.Decoder
import Verif.Spec.Abi
/-! Lemmas on bytes, words and padding. -/
namespace Ethabi

theorem beBytes_eq (k n : Nat) :
    beBytes k n = (List.range k).map fun i => UInt8.ofNat (n / 256 ^ (k - 1 - i)) := by
  induction k generalizing n with
  | zero => rfl
  | succ k ih =>
    rw [beBytes, ih, List.range_succ, List.map_append]
    congr 1
    · apply List.map_congr_left
      intro i hi
      have hi : i < k := List.mem_range.1 hi
      rw [Nat.div_div_eq_div_mul, ← Nat.pow_succ']
      congr 3
      omega
    · simp

theorem word_eq_beBytes (n : Nat) : Spec.word n = beBytes 32 n := by
  rw [beBytes_eq]; rfl

@[simp] theorem length_word (n : Nat) : (Spec.word n).length = 32 := by simp [Spec.word]

theorem beNat_append (a b : Bytes) : beNat (a ++ b) = beNat a * 256 ^ b.length + beNat b := by
  induction b using List.reverseRecOn generalizing a with
  | nil => simp [beNat]
  | append_singleton b x ih =>
    have h1 : ∀ (l : Bytes), beNat (l ++ [x]) = beNat l * 256 + x.toNat := by
      intro l; simp [beNat, List.foldl_append]
    rw [← List.append_assoc, h1, ih, h1, List.length_append, List.length_singleton, Nat.pow_succ,
      Nat.add_mul, Nat.mul_assoc, Nat.add_assoc]

theorem beNat_beBytes (k n : Nat) : beNat (beBytes k n) = n % 256 ^ k := by
  induction k generalizing n with
  | zero => simp [beBytes, beNat, Nat.mod_one]
  | succ k ih =>
    rw [beBytes, beNat_append, ih]
    have : (UInt8.ofNat n).toNat = n % 256 := by simp
    simp only [List.length_singleton, Nat.pow_one]
    have h : beNat [UInt8.ofNat n] = n % 256 := by simp [beNat]
    rw [h, Nat.pow_succ', Nat.mod_mul]
    omega

theorem beNat_lt (l : Bytes) : beNat l < 256 ^ l.length := by
  induction l using List.reverseRecOn with
  | nil => simp [beNat]
  | append_singleton b x ih =>
    rw [beNat_append]
    have : beNat [x] = x.toNat := by simp [beNat]
    have hx := x.toNat_lt
    simp only [List.length_append, List.length_singleton, Nat.pow_one, this, Nat.pow_succ]
    omega

theorem beBytes_beNat (l : Bytes) : beBytes l.length (beNat l) = l := by
  induction l using List.reverseRecOn with
  | nil => rfl
  | append_singleton b x ih =>
    rw [List.length_append, List.length_singleton, beBytes, beNat_append]
    have hx := x.toNat_lt
    have : beNat [x] = x.toNat := by simp [beNat]
    simp only [List.length_singleton, Nat.pow_one, this]
    rw [show (beNat b * 256 + x.toNat) / 256 = beNat b by omega, ih]
    congr 2
    apply UInt8.toNat_inj.1
    simp

/-- `bytes[offset..offset + to_copy]` of encoder.rs:34 is in range, so the copy never panics. -/
theorem padChunk_in_range (b : Bytes) (i : Nat) (hi : i < (b.length + 31) / 32) :
    let len := (b.length + 31) / 32
    let toCopy := if i = len - 1 then (if b.length % 32 = 0 then 32 else b.length % 32) else 32
    32 * i + toCopy ≤ b.length ∧ toCopy ≤ 32 := by
  intro len toCopy
  simp only [toCopy, len]
  split
  · split <;> omega
  · omega

/-- zero-pad one chunk of at most 32 bytes -/
def pad32 (c : Bytes) : Bytes := c ++ List.replicate (32 - c.length) 0

theorem padChunk_val (b : Bytes) (i : Nat) (hi : i < (b.length + 31) / 32) :
    (padChunk b ((b.length + 31) / 32) i).1 = pad32 ((b.drop (32 * i)).take 32) := by
  have h : (((b.drop (32 * i)).take
      (if i = (b.length + 31) / 32 - 1 then (if b.length % 32 = 0 then 32 else b.length % 32) else 32)).take 32)
      = (b.drop (32 * i)).take 32 := by
    rw [List.take_take]
    split
    · split
      · simp
      · rw [List.take_eq_take_iff]
        simp only [List.length_drop]
        omega
    · simp
  simp only [padChunk, h]
  rfl

theorem flatMap_chunks (n : Nat) (b : Bytes) (hn : n = (b.length + 31) / 32) :
    (List.range n).flatMap (fun i => pad32 ((b.drop (32 * i)).take 32)) = Spec.padRight b := by
  induction n generalizing b with
  | zero =>
    have : b = [] := List.eq_nil_of_length_eq_zero (by omega)
    subst this; rfl
  | succ n ih =>
    rw [List.range_succ_eq_map, List.flatMap_cons, List.flatMap_map]
    have hd : ∀ i, b.drop (32 * Nat.succ i) = (b.drop 32).drop (32 * i) := by
      intro i; rw [List.drop_drop]; congr 1; omega
    simp only [hd]
    rw [ih (b.drop 32) (by simp only [List.length_drop]; omega)]
    by_cases hb : b.length ≤ 32
    · have h1 : b.drop 32 = [] := List.drop_eq_nil_of_le hb
      rw [h1, Nat.mul_zero, List.drop_zero, List.take_of_length_le hb]
      simp only [Spec.padRight, pad32, List.length_nil, List.nil_append]
      rw [show (32 - 0 % 32) % 32 = 0 by decide]
      simp only [List.replicate_zero, List.append_nil]
      congr 2
      omega
    · simp only [Spec.padRight, pad32, Nat.mul_zero, List.drop_zero]
      have : (b.take 32).length = 32 := by simp; omega
      rw [this]
      simp only [Nat.sub_self, List.replicate_zero, List.append_nil]
      rw [← List.append_assoc, List.take_append_drop]
      congr 2
      simp only [List.length_drop]
      omega

theorem flattenWords_append (a b : List Word) :
    flattenWords (a ++ b) = flattenWords a ++ flattenWords b := by
  simp [flattenWords]

@[simp] theorem flattenWords_nil : flattenWords [] = [] := rfl
@[simp] theorem flattenWords_cons (w : Word) (ws : List Word) :
    flattenWords (w :: ws) = w.1 ++ flattenWords ws := rfl

theorem length_flattenWords (ws : List Word) : (flattenWords ws).length = 32 * ws.length := by
  induction ws with
  | nil => rfl
  | cons w ws ih => simp only [flattenWords_cons, List.length_append, ih, w.2, List.length_cons]; omega

theorem flatten_padFixedBytes (b : Bytes) : flattenWords (padFixedBytes b) = Spec.padRight b := by
  rw [← flatMap_chunks _ b rfl]
  simp only [flattenWords, padFixedBytes, List.flatMap_map]
  have : ∀ l : List Nat, (∀ i ∈ l, i < (b.length + 31) / 32) →
      l.flatMap (fun i => (padChunk b ((b.length + 31) / 32) i).1)
        = l.flatMap (fun i => pad32 ((b.drop (32 * i)).take 32)) := by
    intro l hl
    induction l with
    | nil => rfl
    | cons i l ih =>
      rw [List.flatMap_cons, List.flatMap_cons, padChunk_val b i (hl i (by simp)),
        ih (fun j hj => hl j (by simp [hj]))]
  exact this _ (fun i hi => List.mem_range.1 hi)

theorem length_padRight (b : Bytes) : (Spec.padRight b).length = 32 * ((b.length + 31) / 32) := by
  simp only [Spec.padRight, List.length_append, List.length_replicate]; omega

theorem beBytes_zero (k : Nat) : beBytes k 0 = List.replicate k 0 := by
  induction k with
  | zero => rfl
  | succ k ih => rw [beBytes, Nat.zero_div, ih, List.replicate_succ']; rfl

theorem beBytes_add (j k n : Nat) : beBytes (j + k) n = beBytes j (n / 256 ^ k) ++ beBytes k n := by
  induction k generalizing n with
  | zero => simp [beBytes]
  | succ k ih =>
    rw [← Nat.add_assoc, beBytes, ih, beBytes, Nat.div_div_eq_div_mul, ← Nat.pow_succ', List.append_assoc]

theorem padU32_val (n : Nat) (h : n < 2 ^ 32) : (padU32 n).1 = Spec.word n := by
  have h0 : n / 256 ^ 4 = 0 := Nat.div_eq_of_lt (by omega)
  have h1 := beBytes_add 28 4 n
  rw [h0, beBytes_zero] at h1
  rw [word_eq_beBytes]
  exact h1.symm

theorem padBool_val (b : Bool) : (padBool b).1 = Spec.word (if b then 1 else 0) := by
  cases b <;> decide +kernel

theorem toWord_val (v : U256) : (U256.toWord v).1 = Spec.word v.toNat := by
  rw [word_eq_beBytes]; rfl

theorem ofWord_word (v : U256) (w : Word) (h : w.1 = Spec.word v.toNat) : U256.ofWord w = v := by
  apply BitVec.eq_of_toNat_eq
  rw [U256.ofWord, h, word_eq_beBytes, beNat_beBytes, BitVec.toNat_ofNat,
    show (256 : Nat) ^ 32 = 2 ^ 256 by norm_num, Nat.mod_mod, Nat.mod_eq_of_lt v.isLt]

end Ethabi

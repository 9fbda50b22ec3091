import Verif.Spec.Plain
import Verif.Model.Decoder
import Verif.Model.Encoder
import Verif.Proofs.Bytes
import Verif.Proofs.Codec
import Verif.Proofs.Lossy
import Verif.Proofs.TypeCheck
/-! Lemmas for C121: decoding with plain types and reading the values afterwards. -/
namespace Ethabi.Plain
open Ethabi.Spec

def outcome {β : Type} : Option β → Res β
  | some y => .ok y
  | none => .err .invalidData

/-- `b` is `a` with the value read by `conv`; if `P`, a value may be refused, and this before `a` panics -/
def Sees (P : Prop) {α β : Type} (conv : α → Option β) (a : Res α) (b : Res β) : Prop :=
  (∃ x y, a = .ok x ∧ b = .ok y ∧ conv x = some y) ∨ (P ∧ ∃ x, a = .ok x ∧ b = .err .invalidData ∧ conv x = none) ∨
  (a = .err .invalidData ∧ b = .err .invalidData) ∨ (a = .panic ∧ b = .panic) ∨ (P ∧ a = .panic ∧ b = .err .invalidData)

/-- the only error is `InvalidData` -/
def Only {α : Type} (a : Res α) : Prop := ∀ e, a = .err e → e = .invalidData

section
variable {α β γ δ : Type} {P : Prop}

theorem Sees.ok {conv : α → Option β} {x : α} {y : β} (h : conv x = some y) : Sees P conv (.ok x) (.ok y) :=
  .inl ⟨x, y, rfl, rfl, h⟩

theorem Sees.only {conv : α → Option β} {a : Res α} {b : Res β} (h : Sees P conv a b) : Only a := by
  intro e he
  rcases h with ⟨x, y, h, -⟩ | ⟨-, x, h, -⟩ | ⟨h, -⟩ | ⟨h, -⟩ | ⟨-, h, -⟩ <;> rw [he] at h <;> cases h
  rfl

theorem Only.ok {x : α} : Only (.ok x) := fun _ h => nomatch h
theorem Only.panic : Only (.panic : Res α) := fun _ h => nomatch h
theorem Only.err : Only (.err .invalidData : Res α) := fun _ h => by cases h; rfl

theorem Only.bind {a : Res α} {f : α → Res β} (h : Only a) (k : ∀ x, Only (f x)) : Only (a >>= f) := by
  cases a with
  | ok x => exact k x
  | err e => rw [h e rfl]; exact Only.err
  | panic => exact Only.panic

theorem Sees.same {a : Res γ} (h : Only a) {conv : α → Option β} {f : γ → Res α} {g : γ → Res β} (k : ∀ x, a = .ok x → Sees P conv (f x) (g x)) :
    Sees P conv (a >>= f) (a >>= g) := by
  cases a with
  | ok x => exact k x rfl
  | err e => rw [h e rfl]; exact .inr (.inr (.inl ⟨rfl, rfl⟩))
  | panic => exact .inr (.inr (.inr (.inl ⟨rfl, rfl⟩)))

/-- refused although the plain run goes on -/
theorem Sees.refused {conv : α → Option β} {a : Res α} (hP : P) (h : Only a) (k : ∀ x, a = .ok x → conv x = none) :
    Sees P conv a (.err .invalidData) := by
  cases a with
  | ok x => exact .inr (.inl ⟨hP, x, rfl, rfl, k x rfl⟩)
  | err e => rw [h e rfl]; exact .inr (.inr (.inl ⟨rfl, rfl⟩))
  | panic => exact .inr (.inr (.inr (.inr ⟨hP, rfl, rfl⟩)))

theorem Sees.bind {conv : α → Option β} {conv' : γ → Option δ} {a : Res α} {b : Res β} {f : α → Res γ} {g : β → Res δ}
    (h : Sees P conv a b) (k : ∀ x y, conv x = some y → Sees P conv' (f x) (g y))
    (n : ∀ x, conv x = none → Only (f x) ∧ ∀ z, f x = .ok z → conv' z = none) : Sees P conv' (a >>= f) (b >>= g) := by
  rcases h with ⟨x, y, rfl, rfl, hc⟩ | ⟨hP, x, rfl, rfl, hc⟩ | ⟨rfl, rfl⟩ | ⟨rfl, rfl⟩ | ⟨hP, rfl, rfl⟩
  · exact k x y hc
  · exact Sees.refused hP (n x hc).1 (n x hc).2
  · exact .inr (.inr (.inl ⟨rfl, rfl⟩))
  · exact .inr (.inr (.inr (.inl ⟨rfl, rfl⟩)))
  · exact .inr (.inr (.inr (.inr ⟨hP, rfl, rfl⟩)))

end

theorem only_machine (prof : Profile) (bits n : Nat) : Only (machine prof bits n) := by
  unfold machine
  split
  · exact Only.ok
  · cases prof
    · exact Only.panic
    · exact Only.ok

theorem only_add (prof : Profile) (a b : Nat) : Only (usizeAdd prof a b) := only_machine prof 64 _

theorem only_slice (data : Bytes) (a b : Nat) : Only (slice data a b) := by
  unfold slice; split
  · exact Only.ok
  · exact Only.panic

theorem only_sliceFrom (data : Bytes) (a : Nat) : Only (sliceFrom data a) := by
  unfold sliceFrom; split
  · exact Only.ok
  · exact Only.panic

theorem only_take (prof : Profile) (data : Bytes) (a b : Nat) : Only (takeBytes prof data a b) :=
  Only.bind (only_add prof a b) fun x => by
    split
    · exact Only.err
    · exact only_slice _ _ _

theorem only_copyWord (x : Bytes) : Only (copyWord x) := by
  unfold copyWord; split
  · exact Only.ok
  · exact Only.panic

theorem only_peek32 (prof : Profile) (data : Bytes) (a : Nat) : Only (peek32 prof data a) :=
  Only.bind (only_take prof data a 32) fun x => only_copyWord x

theorem only_asUsize (w : Word) : Only (asUsize w) := by
  unfold asUsize; split
  · exact Only.ok
  · exact Only.err

/-! ### words -/

theorem number_eq (b : Bytes) : number b = beNat b := by
  unfold number beNat
  congr 1
  funext n x
  omega

theorem word_beNat (w : Word) : word (beNat w.1) = w.1 := by
  obtain ⟨l, hl⟩ := w
  have h := beBytes_beNat l
  rw [hl] at h
  rw [word_eq_beBytes]
  exact h

theorem toNat_ofWord (w : Word) : (U256.ofWord w).toNat = beNat w.1 := by
  unfold U256.ofWord
  rw [BitVec.toNat_ofNat]
  refine Nat.mod_eq_of_lt ?_
  have := beNat_lt w.1
  rw [w.2] at this
  exact lt_of_lt_of_le this (by decide)

theorem word_ofWord (w : Word) : word (U256.ofWord w).toNat = w.1 := by rw [toNat_ofWord, word_beNat]

theorem address_word (w : Word) : wordAddress w = lastTwenty (U256.ofWord w) := by
  apply Subtype.ext
  simp only [wordAddress, lastTwenty, word_ofWord]

theorem zeros_iff : ∀ (l : Bytes), l.all (· == 0) = true ↔ l = List.replicate l.length 0
  | [] => by simp
  | x :: l => by
    rw [List.all_cons, Bool.and_eq_true, zeros_iff l, beq_iff_eq, List.length_cons, List.replicate_succ, List.cons.injEq]

theorem asBool_word (w : Word) : asBool w = outcome (if (U256.ofWord w).toNat < 256 then
    some (decide ((U256.ofWord w).toNat = 1)) else none) := by
  rw [toNat_ofWord]
  obtain ⟨l, hl⟩ := w
  obtain ⟨a, x, rfl, ha⟩ : ∃ a x, l = a ++ [x] ∧ a.length = 31 := by
    refine ⟨l.take 31, l[31]'(by omega), ?_, by simp [hl]⟩
    conv_lhs => rw [← List.take_append_drop 31 l]
    congr 1
    rw [List.drop_eq_getElem_cons (by omega), List.drop_of_length_le (by omega)]
  unfold asBool
  have ht : (a ++ [x]).take 31 = a := by rw [← ha]; simp
  have hg : (a ++ [x]).getD 31 0 = x := by rw [← ha]; simp
  simp only [ht, hg]
  have hn : beNat (a ++ [x]) = beNat a * 256 + x.toNat := by rw [beNat_append]; simp [beNat]
  have hx : x.toNat < 256 := x.toNat_lt
  by_cases h : a.all (· == 0) = true
  · have h0 : beNat a = 0 := by rw [(zeros_iff a).1 h]; exact beNat_zeros _
    rw [if_pos h, hn, h0]
    simp only [Nat.zero_mul, Nat.zero_add, hx, if_true, outcome]
    congr 1
    by_cases h1 : x = 1
    · subst h1; rfl
    · have : ¬ x.toNat = 1 := fun e => h1 (UInt8.toNat_inj.1 e)
      simp [h1, this]
  · have h0 : beNat a ≠ 0 := fun e => h <| by
      rw [zeros_iff]
      have := beBytes_beNat a
      rw [e] at this
      rw [← this]
      have hz : ∀ k, beBytes k 0 = List.replicate k 0 := fun k => by
        induction k with
        | zero => rfl
        | succ k ih => rw [beBytes, Nat.zero_div, ih, List.replicate_succ']; rfl
      rw [hz]; simp
    rw [if_neg h, if_neg (by omega)]
    rfl

theorem take_32 {prof : Profile} {data x : Bytes} {off : Nat} (h : takeBytes prof data off 32 = .ok x) : x.length = 32 := by
  unfold takeBytes at h
  cases he : usizeAdd prof off 32 with
  | ok e =>
    rw [he] at h
    simp only [Res.ok_bind] at h
    split at h
    · cases h
    · obtain ⟨h1, h2, rfl⟩ := slice_eq_ok h
      have : e ≤ off + 32 ∧ (e = off + 32 ∨ e < off) := by
        unfold usizeAdd machine at he
        split at he
        · cases he; omega
        · cases prof
          · cases he
          · cases he; omega
      simp
      omega
  | err e => rw [he] at h; cases h
  | panic => rw [he] at h; cases h

theorem peek_of_take (prof : Profile) (data : Bytes) (off : Nat) :
    takeBytes prof data off 32 = (peek32 prof data off >>= fun w => .ok w.1) := by
  change _ = ((takeBytes prof data off 32 >>= copyWord) >>= _)
  cases h : takeBytes prof data off 32 with
  | ok x =>
    have := take_32 h
    have h' : (x.take 32).length = 32 := by simp [this]
    have h'' : x.take 32 = x := List.take_of_length_le (by omega)
    simp [copyWord, h'', this]
  | err e => rfl
  | panic => rfl

/-! ### types -/

mutual
theorem dynamic_plain : ∀ t : ParamType, (plain t).isDynamic = t.isDynamic
  | .int _ | .uint _ | .array _ | .address | .bytes | .bool | .string => rfl
  | .fixedBytes n => by rw [plain]; split <;> rfl
  | .fixedArray t n => by rw [plain, ParamType.isDynamic, ParamType.isDynamic]; exact dynamic_plain t
  | .tuple ts => by rw [plain, ParamType.isDynamic, ParamType.isDynamic]; exact anyDynamic_plain ts
theorem anyDynamic_plain : ∀ ts : List ParamType, ParamType.anyDynamic (plainAll ts) = ParamType.anyDynamic ts
  | [] => rfl
  | t :: ts => by rw [plainAll, ParamType.anyDynamic, ParamType.anyDynamic, dynamic_plain t, anyDynamic_plain ts]
end

theorem empty_plain (t : ParamType) : (plain t).isEmptyBytesValidEncoding = t.isEmptyBytesValidEncoding := by
  cases t with
  | fixedBytes n =>
    rw [plain]
    split
    · subst n; rfl
    · rfl
  | _ => rfl

theorem all_empty_plain : ∀ ts : List ParamType,
    (plainAll ts).all ParamType.isEmptyBytesValidEncoding = ts.all ParamType.isEmptyBytesValidEncoding
  | [] => rfl
  | t :: ts => by rw [plainAll, List.all_cons, List.all_cons, empty_plain t, all_empty_plain ts]

/-! ### decoding -/

section
variable {P : Prop}

/-- a value with the position behind it -/
def withPos {α β : Type} (f : α → Option β) (x : α × Nat) : Option (β × Nat) := (f x.1).map fun y => (y, x.2)

theorem withPos_some {α β : Type} {f : α → Option β} {x : α × Nat} {y : β × Nat} (h : withPos f x = some y) :
    f x.1 = some y.1 ∧ x.2 = y.2 := by
  unfold withPos at h
  cases hf : f x.1 with
  | none => rw [hf] at h; cases h
  | some z => rw [hf] at h; cases h; exact ⟨rfl, rfl⟩

theorem withPos_none {α β : Type} {f : α → Option β} {x : α × Nat} (h : withPos f x = none) : f x.1 = none := by
  unfold withPos at h
  cases hf : f x.1 with
  | none => rfl
  | some z => rw [hf] at h; cases h

theorem allOf_none_head {α β : Type} {f : α → Option β} {x : α} {xs : List α} (h : f x = none) : allOf f (x :: xs) = none := by
  simp [allOf, h]
theorem allOf_none_tail {α β : Type} {f : α → Option β} {x : α} {xs : List α} (h : allOf f xs = none) : allOf f (x :: xs) = none := by
  rw [allOf, h]; cases f x <;> rfl
theorem allOf_some {α β : Type} {f : α → Option β} {x : α} {xs : List α} {y : β} {ys : List β} (h : f x = some y) (h' : allOf f xs = some ys) :
    allOf f (x :: xs) = some (y :: ys) := by simp [allOf, h, h']

theorem sees_loop {f g : Nat → Res (Token × Nat)} {r : Token → Option Token} (h : ∀ o, Sees P (withPos r) (f o) (g o)) :
    ∀ (n off : Nat), Sees P (withPos (allOf r)) (decodeLoop f n off) (decodeLoop g n off)
  | 0, off => Sees.ok rfl
  | n + 1, off => by
    rw [decodeLoop, decodeLoop]
    refine Sees.bind (h off) (fun ⟨v, o⟩ ⟨w, o'⟩ hv => ?_) fun ⟨v, o⟩ hv => ⟨?_, fun z hz => ?_⟩
    · obtain ⟨hv', ho⟩ := withPos_some hv
      simp only at hv' ho
      subst ho
      refine Sees.bind (sees_loop h n o) (fun ⟨vs, p⟩ ⟨ws, p'⟩ hvs => ?_) fun ⟨vs, p⟩ hvs => ⟨Only.ok, fun z hz => ?_⟩
      · obtain ⟨hvs', hp⟩ := withPos_some hvs
        simp only at hvs' hp
        subst hp
        exact Sees.ok (by simp [withPos, allOf_some hv' hvs'])
      · cases hz
        simp [withPos, allOf_none_tail (withPos_none hvs)]
    · exact Only.bind (sees_loop h n o).only fun _ => Only.ok
    · cases hd : decodeLoop f n o with
      | ok x =>
        simp only [hd, Res.ok_bind] at hz
        cases hz
        simp [withPos, allOf_none_head (withPos_none hv)]
      | err e => simp [hd] at hz
      | panic => simp [hd] at hz

/-- the last steps of a value: it is wrapped up and stands behind one word -/
theorem sees_wrap {prof : Profile} {off : Nat} {r : List Token → Option (List Token)} {r' : Token → Option Token} {c : List Token → Token}
    {a b : Res (List Token × Nat)} (h : Sees P (withPos r) a b) (hc : ∀ vs, r' (c vs) = (r vs).map c) :
    Sees P (withPos r') (do let (toks, _) ← a; let off ← usizeAdd prof off 32; .ok (c toks, off))
      (do let (toks, _) ← b; let off ← usizeAdd prof off 32; .ok (c toks, off)) := by
  refine Sees.bind h (fun ⟨v, o⟩ ⟨w, o'⟩ hv => ?_) fun ⟨v, o⟩ hv => ⟨?_, fun z hz => ?_⟩
  · have hv := (withPos_some hv).1
    exact Sees.same (only_add _ _ _) fun x _ => Sees.ok (by simp only at hv; simp [withPos, hc, hv])
  · exact Only.bind (only_add _ _ _) fun _ => Only.ok
  · have hv := withPos_none hv
    simp only at hv
    cases hd : usizeAdd prof off 32 with
    | ok x =>
      simp only [hd, Res.ok_bind] at hz
      cases hz
      simp [withPos, hc, hv]
    | err e => simp [hd] at hz
    | panic => simp [hd] at hz

/-- the same without the word -/
theorem sees_flat {r : List Token → Option (List Token)} {r' : Token → Option Token} {c : List Token → Token}
    {a b : Res (List Token × Nat)} (h : Sees P (withPos r) a b) (hc : ∀ vs, r' (c vs) = (r vs).map c) :
    Sees P (withPos r') (do let (toks, off) ← a; .ok (c toks, off)) (do let (toks, off) ← b; .ok (c toks, off)) := by
  refine Sees.bind h (fun ⟨v, o⟩ ⟨w, o'⟩ hv => ?_) fun ⟨v, o⟩ hv => ⟨Only.ok, fun z hz => ?_⟩
  · obtain ⟨hv', ho⟩ := withPos_some hv
    simp only at hv' ho
    subst ho
    exact Sees.ok (by simp [withPos, hc, hv'])
  · have hv := withPos_none hv
    simp only at hv
    cases hz
    simp [withPos, hc, hv]

theorem readAs_tuple (ts : List ParamType) (vs : List Token) : readAs (.tuple ts) (.tuple vs) = (readAll ts vs).map .tuple := by rw [readAs]
theorem readAs_array (t : ParamType) (vs : List Token) : readAs (.array t) (.array vs) = (allOf (readAs t) vs).map .array := by rw [readAs]
theorem readAs_fixedArray (t : ParamType) (n : Nat) (vs : List Token) :
    readAs (.fixedArray t n) (.fixedArray vs) = (allOf (readAs t) vs).map .fixedArray := by rw [readAs]

/-- the last steps of a value of one word -/
theorem sees_word {prof : Profile} {off : Nat} {r : Token → Option Token} {v w : Token} (h : r v = some w) :
    Sees P (withPos r) (do let off ← usizeAdd prof off 32; .ok (v, off)) (do let off ← usizeAdd prof off 32; .ok (w, off)) :=
  Sees.same (only_add _ _ _) fun x _ => Sees.ok (by simp [withPos, h])

mutual
theorem sees_param (prof : Profile) : ∀ (t : ParamType), (boolFree t = false → P) → ∀ (data : Bytes) (off : Nat),
    Sees P (withPos (readAs t)) (decodeParam prof (plain t) data off) (decodeParam prof t data off)
  | .address, hP, data, off => by
    rw [plain, decodeParam, decodeParam]
    exact Sees.same (only_peek32 _ _ _) fun w _ => sees_word (by rw [readAs, address_word])
  | .int _, hP, data, off => by
    rw [plain, decodeParam, decodeParam]
    exact Sees.same (only_peek32 _ _ _) fun w _ => sees_word (by rw [readAs])
  | .uint _, hP, data, off => by
    rw [plain, decodeParam, decodeParam]
    exact Sees.same (only_peek32 _ _ _) fun w _ => sees_word (by rw [readAs])
  | .bool, hP, data, off => by
    rw [plain, decodeParam, decodeParam]
    refine Sees.same (only_peek32 _ _ _) fun w _ => ?_
    rw [asBool_word]
    by_cases h : (U256.ofWord w).toNat < 256
    · rw [if_pos h]
      exact sees_word (by rw [readAs, if_pos h])
    · rw [if_neg h]
      refine Sees.refused (hP rfl) (Only.bind (only_add _ _ _) fun _ => Only.ok) fun z hz => ?_
      cases hd : usizeAdd prof off 32 with
      | ok x =>
        simp only [hd, Res.ok_bind] at hz
        cases hz
        simp [withPos, readAs, h]
      | err e => simp [hd] at hz
      | panic => simp [hd] at hz
  | .fixedBytes n, hP, data, off => by
    rw [plain]
    by_cases h : n = 32
    · subst h
      rw [if_pos rfl, decodeParam, decodeParam, peek_of_take]
      have : ∀ k : Bytes → Res (Token × Nat), ((peek32 prof data off >>= fun w => Res.ok w.1) >>= k) =
          (peek32 prof data off >>= fun w => k w.1) := fun k => by cases peek32 prof data off <;> rfl
      rw [this]
      exact Sees.same (only_peek32 _ _ _) fun w _ => sees_word (by rw [readAs, word_ofWord])
    · rw [if_neg h]
      rw [decodeParam]
      exact Sees.same (only_take _ _ _ _) fun w _ => sees_word (by rw [readAs])
  | .bytes, hP, data, off => by
    rw [plain, decodeParam]
    refine Sees.same (only_peek32 _ _ _) fun w _ => Sees.same (only_asUsize _) fun d _ => Sees.same (only_peek32 _ _ _) fun l _ =>
      Sees.same (only_asUsize _) fun n _ => Sees.same (only_add _ _ _) fun s _ => Sees.same (only_take _ _ _ _) fun b _ => ?_
    exact sees_word (by rw [readAs])
  | .string, hP, data, off => by
    rw [plain, decodeParam, decodeParam]
    refine Sees.same (only_peek32 _ _ _) fun w _ => Sees.same (only_asUsize _) fun d _ => Sees.same (only_peek32 _ _ _) fun l _ =>
      Sees.same (only_asUsize _) fun n _ => Sees.same (only_add _ _ _) fun s _ => Sees.same (only_take _ _ _ _) fun b _ => ?_
    exact sees_word (by rw [readAs])
  | .array t, hP, data, off => by
    rw [plain, decodeParam, decodeParam]
    refine Sees.same (only_peek32 _ _ _) fun w _ => Sees.same (only_asUsize _) fun d _ => Sees.same (only_peek32 _ _ _) fun l _ =>
      Sees.same (only_asUsize _) fun n _ => Sees.same (only_add _ _ _) fun s _ => Sees.same (only_sliceFrom _ _) fun tail _ => ?_
    exact sees_wrap (sees_loop (fun o => sees_param prof t (by simpa only [boolFree] using hP) tail o) n 0) (readAs_array t)
  | .fixedArray t n, hP, data, off => by
    rw [plain, decodeParam, decodeParam, dynamic_plain t]
    by_cases h : t.isDynamic = true
    · rw [if_pos h, if_pos h]
      refine Sees.same (only_peek32 _ _ _) fun w _ => Sees.same (only_asUsize _) fun d _ => Sees.same (only_sliceFrom _ _) fun tail _ => ?_
      exact sees_wrap (sees_loop (fun o => sees_param prof t (by simpa only [boolFree] using hP) tail o) n 0) (readAs_fixedArray t n)
    · rw [if_neg h, if_neg h]
      exact sees_flat (sees_loop (fun o => sees_param prof t (by simpa only [boolFree] using hP) data o) n off) (readAs_fixedArray t n)
  | .tuple ts, hP, data, off => by
    rw [plain, decodeParam, decodeParam, anyDynamic_plain ts]
    by_cases h : ParamType.anyDynamic ts = true
    · rw [if_pos h, if_pos h]
      refine Sees.same (only_peek32 _ _ _) fun w _ => Sees.same (only_asUsize _) fun d _ => ?_
      by_cases hd : d > data.length
      · rw [if_pos hd, if_pos hd]; exact .inr (.inr (.inl ⟨rfl, rfl⟩))
      · rw [if_neg hd, if_neg hd]
        exact Sees.same (only_sliceFrom _ _) fun tail _ => sees_wrap (sees_params prof ts (by simpa only [boolFree] using hP) tail 0) (readAs_tuple ts)
    · rw [if_neg h, if_neg h]
      exact sees_flat (sees_params prof ts (by simpa only [boolFree] using hP) data off) (readAs_tuple ts)
theorem sees_params (prof : Profile) : ∀ (ts : List ParamType), (boolFreeAll ts = false → P) → ∀ (data : Bytes) (off : Nat),
    Sees P (withPos (readAll ts)) (decodeParams prof (plainAll ts) data off) (decodeParams prof ts data off)
  | [], hP, data, off => by rw [plainAll, decodeParams]; exact Sees.ok (by simp [withPos, readAll])
  | t :: ts, hP, data, off => by
    rw [plainAll, decodeParams, decodeParams]
    have h1 : boolFree t = false → P := fun h => hP (by simp [boolFreeAll, h])
    have h2 : boolFreeAll ts = false → P := fun h => hP (by simp [boolFreeAll, h])
    refine Sees.bind (sees_param prof t h1 data off) (fun ⟨v, o⟩ ⟨w, o'⟩ hv => ?_) fun ⟨v, o⟩ hv => ⟨?_, fun z hz => ?_⟩
    · obtain ⟨hv', ho⟩ := withPos_some hv
      simp only at hv' ho
      subst ho
      refine Sees.bind (sees_params prof ts h2 data o) (fun ⟨vs, p⟩ ⟨ws, p'⟩ hvs => ?_) fun ⟨vs, p⟩ hvs => ⟨Only.ok, fun z hz => ?_⟩
      · obtain ⟨hvs', hp⟩ := withPos_some hvs
        simp only at hvs' hp
        subst hp
        exact Sees.ok (by simp [withPos, readAll, hv', hvs'])
      · cases hz
        have := withPos_none hvs
        simp only at this
        simp [withPos, readAll, hv', this]
    · exact Only.bind (sees_params prof ts h2 data o).only fun _ => Only.ok
    · have hv := withPos_none hv
      simp only at hv
      cases hd : decodeParams prof (plainAll ts) data o with
      | ok x =>
        simp only [hd, Res.ok_bind] at hz
        cases hz
        simp [withPos, readAll, hv]
      | err e => simp [hd] at hz
      | panic => simp [hd] at hz
end

theorem sees_decode (prof : Profile) (ts : List ParamType) (data : Bytes)
    (hP : boolFreeAll ts = false → P) (h : (!(ts.all ParamType.isEmptyBytesValidEncoding) && data.isEmpty) = false) :
    Sees P (readAll ts) (decode prof (plainAll ts) data) (decode prof ts data) := by
  rw [decode, decode, all_empty_plain, if_neg (by simp [h]), if_neg (by simp [h])]
  refine Sees.bind (sees_params prof ts hP data 0) (fun ⟨v, o⟩ ⟨w, o'⟩ hv => Sees.ok (withPos_some hv).1) fun ⟨v, o⟩ hv =>
    ⟨Only.ok, fun z hz => ?_⟩
  cases hz
  exact withPos_none hv

end

end Ethabi.Plain

import Verif.Proofs.ReadingExact
import Verif.Model.DecoderOn
import Verif.Spec.Targets
/-! The decoder with a `usize` of 32 bits, compared with the one with 64 bits. -/
namespace Ethabi.Targets
open Spec

/-! ### 64 bits -/

mutual
theorem decodeParamOn_64 (prof : Profile) : ∀ (t : ParamType) (data : Bytes) (off : Nat),
    decodeParamOn 64 prof t data off = decodeParam prof t data off
  | .address, _, _ => rfl
  | .uint _, _, _ => rfl
  | .int _, _, _ => rfl
  | .bool, _, _ => rfl
  | .fixedBytes _, _, _ => rfl
  | .bytes, _, _ => rfl
  | .string, _, _ => rfl
  | .array t, data, off => by
      simp only [decodeParamOn, decodeParam, decodeParamOn_64 prof t]; rfl
  | .fixedArray t k, data, off => by
      simp only [decodeParamOn, decodeParam, decodeParamOn_64 prof t]; rfl
  | .tuple ts, data, off => by
      simp only [decodeParamOn, decodeParam, decodeParamsOn_64 prof ts]; rfl
theorem decodeParamsOn_64 (prof : Profile) : ∀ (ts : List ParamType) (data : Bytes) (off : Nat),
    decodeParamsOn 64 prof ts data off = decodeParams prof ts data off
  | [], _, _ => rfl
  | t :: ts, data, off => by
      simp only [decodeParamsOn, decodeParams, decodeParamOn_64 prof t, decodeParamsOn_64 prof ts]
end

/-! ### the end of what has been read -/

theorem spaced_end {p : Nat → Token → Prop} {w M : Nat} (h : ∀ o tok, o ≤ M → p o tok → o + w ≤ M) :
    ∀ (toks : List Token) (off : Nat), off ≤ M → spaced p w off toks → off + toks.length * w ≤ M
  | [], off, ho, _ => by simpa using ho
  | tok :: toks, off, ho, hs => by
    rw [spaced_cons] at hs
    have := spaced_end h toks (off + w) (h off tok ho hs.1) hs.2
    rw [List.length_cons, Nat.add_mul]; omega

mutual
theorem reads_end : ∀ (t : ParamType) (data : Bytes), ∀ (off : Nat) (tok : Token), off ≤ data.length + 32 →
    reads t data off tok → off + headWidth t ≤ data.length + 32
  | .address, data, off, tok, ho, h => by
      obtain ⟨pad, a, h1, h2, _⟩ := h
      have := congrArg List.length h2
      simp [h1, a.2] at this
      show off + 32 ≤ _; omega
  | .uint _, data, off, tok, ho, h => by
      obtain ⟨n, h1, _⟩ := h
      have := numberAt_le h1
      show off + 32 ≤ _; omega
  | .int _, data, off, tok, ho, h => by
      obtain ⟨n, h1, _⟩ := h
      have := numberAt_le h1
      show off + 32 ≤ _; omega
  | .bool, data, off, tok, ho, h => by
      obtain ⟨n, _, h1, _⟩ := h
      have := numberAt_le h1
      show off + 32 ≤ _; omega
  | .fixedBytes n, data, off, tok, ho, h => by
      have := h.1
      show off + 32 ≤ _; omega
  | .bytes, data, off, tok, ho, h => by
      obtain ⟨o, b, h1, _⟩ := h
      have := smallAt_le h1
      show off + 32 ≤ _; omega
  | .string, data, off, tok, ho, h => by
      obtain ⟨o, b, h1, _⟩ := h
      have := smallAt_le h1
      show off + 32 ≤ _; omega
  | .array t, data, off, tok, ho, h => by
      obtain ⟨o, b, h1, _⟩ := h
      have := smallAt_le h1
      show off + 32 ≤ _; omega
  | .fixedArray t k, data, off, tok, ho, h => by
      cases ht : dynamic t with
      | true =>
        simp only [reads, ht, if_true] at h
        obtain ⟨o, b, h1, _⟩ := h
        have := smallAt_le h1
        rw [headWidth_dynamic (by simpa [dynamic] using ht)]; omega
      | false =>
        simp only [reads, ht, Bool.false_eq_true, if_false] at h
        obtain ⟨toks, h1, h2, _⟩ := h
        have := spaced_end (fun o x ho hr => reads_end t data o x ho hr) toks off ho h2
        rw [headWidth_static ht, h1] at this
        rw [headWidth_static (by simpa [dynamic] using ht)]
        simpa [staticSize] using this
  | .tuple ts, data, off, tok, ho, h => by
      cases ht : dynamicAny ts with
      | true =>
        simp only [reads, ht, if_true] at h
        obtain ⟨o, b, h1, _⟩ := h
        have := smallAt_le h1
        rw [headWidth_dynamic (by simpa [dynamic] using ht)]; omega
      | false =>
        simp only [reads, ht, Bool.false_eq_true, if_false] at h
        obtain ⟨toks, h1, _⟩ := h
        have := readsAll_end ts data off toks ho h1
        rw [headWidth_static (by simpa [dynamic] using ht)]
        rw [← staticSizeAll_headWidth ts ht] at this
        simpa [staticSize] using this
theorem readsAll_end : ∀ (ts : List ParamType) (data : Bytes), ∀ (off : Nat) (toks : List Token),
    off ≤ data.length + 32 → readsAll ts data off toks → off + headPos ts ≤ data.length + 32
  | [], data, off, tok, ho, h => by simpa [headPos] using ho
  | t :: ts, data, off, toks, ho, h => by
      obtain ⟨tok, rest, h1, h2, _⟩ := h
      have := reads_end t data off tok ho h1
      have := readsAll_end ts data _ rest this h2
      simp only [headPos, List.map_cons, List.sum_cons] at this ⊢
      omega
end


/-! ### two runs -/

/-- `a` panics and `b` reports `InvalidData` if `q`; otherwise they are the same -/
structure Runs {α : Type} (a b : Res α) (q : Prop) : Prop where
  wrap : q → a = .panic ∧ b = .err .invalidData
  same : ¬ q → a = b

theorem Runs.of_eq {α : Type} {a b : Res α} (h : a = b) : Runs a b False := ⟨nofun, fun _ => h⟩

theorem Runs.congr {α : Type} {a b : Res α} {q q' : Prop} (h : Runs a b q) (hq : q' ↔ q) : Runs a b q' :=
  ⟨fun x => h.wrap (hq.1 x), fun x => h.same fun y => x (hq.2 y)⟩

theorem Runs.bind {α β : Type} {a b : Res α} {q : Prop} {k k' : α → Res β} {q' : α → Prop} (h : Runs a b q)
    (hk : ∀ x, b = .ok x → Runs (k x) (k' x) (q' x)) : Runs (a >>= k) (b >>= k') (q ∨ ∃ x, b = .ok x ∧ q' x) where
  wrap := by
    rintro (hq | ⟨x, hx, hq⟩)
    · rw [(h.wrap hq).1, (h.wrap hq).2]; exact ⟨rfl, rfl⟩
    · have hn : ¬ q := fun hq => by rw [(h.wrap hq).2] at hx; cases hx
      rw [h.same hn, hx]
      exact (hk x hx).wrap hq
  same := by
    intro hn
    rw [h.same fun hq => hn (Or.inl hq)]
    cases hb : b with
    | err e => rfl
    | panic => rfl
    | ok x => exact (hk x hb).same fun hq => hn (Or.inr ⟨x, hb, hq⟩)

/-- the same continuation -/
theorem Runs.bind_id {α β : Type} {a b : Res α} {q : Prop} {k : α → Res β} (h : Runs a b q) :
    Runs (a >>= k) (b >>= k) q :=
  (h.bind (q' := fun _ => False) fun _ _ => Runs.of_eq rfl).congr (by simp)

theorem usizeAddOn_small {prof : Profile} {a b : Nat} (h : a + b < 2 ^ 32) : usizeAddOn 32 prof a b = usizeAdd prof a b := by
  rw [usizeAdd_ok (by omega), usizeAddOn, machine.eq_def, if_pos h]

theorem takeBytesOn_small {prof : Profile} {data : Bytes} {a b : Nat} (h : a + b < 2 ^ 32) :
    takeBytesOn 32 prof data a b = takeBytes prof data a b := by
  rw [takeBytesOn, takeBytes, usizeAddOn_small h]

theorem usizeAddOn_debug {a b : Nat} (h : 2 ^ 32 ≤ a + b) : usizeAddOn 32 .debug a b = .panic := by
  rw [usizeAddOn, machine.eq_def, if_neg (by omega)]

theorem usizeAddOn_release {a b : Nat} (h : 2 ^ 32 ≤ a + b) (h' : a + b < 2 ^ 32 + 2 ^ 32) :
    usizeAddOn 32 .release a b = .ok (a + b - 2 ^ 32) := by
  rw [usizeAddOn, machine.eq_def, if_neg (by omega)]
  exact congrArg Res.ok ((Nat.mod_eq_sub_mod h).trans (Nat.mod_eq_of_lt (by omega)))

theorem runs_takeBytes {prof : Profile} {data : Bytes} {a b : Nat} (hd : data.length < 2 ^ 31) (ha : a < 2 ^ 32)
    (hb : b < 2 ^ 32) (h : 2 ^ 32 ≤ a + b → a + b - 2 ^ 32 ≤ data.length) :
    Runs (takeBytesOn 32 prof data a b) (takeBytes prof data a b) (2 ^ 32 ≤ a + b) where
  wrap := by
    intro hw
    constructor
    · cases prof with
      | debug => rw [takeBytesOn, usizeAddOn_debug hw]; rfl
      | release =>
        have h' := h hw
        have e1 : ¬ (a + b - 2 ^ 32 > data.length) := by omega
        have e2 : ¬ (a ≤ a + b - 2 ^ 32 ∧ a + b - 2 ^ 32 ≤ data.length) := by omega
        rw [takeBytesOn, usizeAddOn_release hw (by omega), Res.ok_bind, if_neg e1, slice, if_neg e2]
    · rw [takeBytes, usizeAdd_ok (by omega), Res.ok_bind, if_pos (by omega)]
  same := fun hn => takeBytesOn_small (by omega)

theorem runs_peek32 {prof : Profile} {data : Bytes} {o : Nat} (hd : data.length < 2 ^ 31) (ho : o < 2 ^ 32)
    (h : 2 ^ 32 ≤ o + 32 → 32 ≤ data.length) :
    Runs (peek32On 32 prof data o) (peek32 prof data o) (2 ^ 32 ≤ o + 32) :=
  (runs_takeBytes (prof := prof) hd ho (by omega) (fun hw => by have := h hw; omega)).bind_id

theorem peek32On_small {prof : Profile} {data : Bytes} {o : Nat} (h : o + 32 < 2 ^ 32) :
    peek32On 32 prof data o = peek32 prof data o := by
  show (takeBytesOn 32 prof data o 32 >>= _) = (takeBytes prof data o 32 >>= _)
  rw [takeBytesOn_small h]

/-- an offset or a length is read -/
theorem runs_small {β : Type} {prof : Profile} {data : Bytes} {o : Nat} {k k' : Nat → Res β} {q : Nat → Prop}
    (hd : data.length < 2 ^ 31) (ho : o < 2 ^ 32) (h : 2 ^ 32 ≤ o + 32 → 32 ≤ data.length)
    (hk : ∀ n, smallAt data o n → Runs (k n) (k' n) (q n)) :
    Runs (peek32On 32 prof data o >>= fun w => asUsize w >>= k) (peek32 prof data o >>= fun w => asUsize w >>= k')
      (2 ^ 32 ≤ o + 32 ∨ ∃ n, smallAt data o n ∧ q n) := by
  have hs : ∀ n w, peek32 prof data o = .ok w → asUsize w = .ok n → smallAt data o n := by
    intro n w h1 h2
    obtain ⟨h3, h4⟩ := asUsize_eq_ok h2
    exact ⟨h4, (peek32_eq_ok (by omega) h1).2 ▸ h3⟩
  refine ((runs_peek32 (prof := prof) hd ho h).bind (q' := fun w => ∃ n, asUsize w = .ok n ∧ q n) fun w hw => ?_).congr ?_
  · refine ((Runs.of_eq rfl).bind (q' := q) fun n hn => hk n (hs n w hw hn)).congr ?_
    simp
  · refine or_congr_right ⟨?_, ?_⟩
    · rintro ⟨n, h1, h2⟩
      exact ⟨wordOf n, peek32_of_take (by omega) h1.2, n, asUsize_word h1.1, h2⟩
    · rintro ⟨w, h1, n, h2, h3⟩
      exact ⟨n, hs n w h1 h2, h3⟩

theorem runs_head {β : Type} {prof : Profile} {data : Bytes} {o : Nat} {k k' : Nat → Res β} {q : Nat → Prop}
    (hd : data.length < 2 ^ 31) (ho : o ≤ data.length + 32) (hk : ∀ n, smallAt data o n → Runs (k n) (k' n) (q n)) :
    Runs (peek32On 32 prof data o >>= fun w => asUsize w >>= k) (peek32 prof data o >>= fun w => asUsize w >>= k')
      (∃ n, smallAt data o n ∧ q n) := by
  refine (runs_small (prof := prof) hd (by omega) (by omega) hk).congr ?_
  constructor
  · exact Or.inr
  · rintro (h | h)
    · omega
    · exact h

theorem runs_loop {f g : Nat → Res (Token × Nat)} {p : Nat → Token → Prop} {q0 q : Nat → Prop} {w M : Nat}
    (hx : Exact g p q0 w) (hM : M ≤ maxOff) (hf : ∀ o, o ≤ M → Runs (f o) (g o) (q o))
    (hb : ∀ o tok, o ≤ M → p o tok → o + w ≤ M) :
    ∀ n off, off ≤ M → Runs (decodeLoop f n off) (decodeLoop g n off) (spacedOverrun p q w off n)
  | 0, off, _ => (Runs.of_eq rfl).congr (iff_false_intro (spacedOverrun_zero _ _ _ _))
  | n + 1, off, ho => by
    rw [decodeLoop, decodeLoop]
    refine ((hf off ho).bind (q' := fun x => spacedOverrun p q w x.2 n) fun x hxo => ?_).congr ?_
    · obtain ⟨tok, o1⟩ := x
      obtain ⟨h1, rfl⟩ := (hx.ok off (by omega) tok o1).1 hxo
      exact (runs_loop hx hM hf hb n _ (hb off tok ho h1)).bind_id
    · rw [spacedOverrun_succ]
      refine or_congr_right ⟨?_, ?_⟩
      · rintro ⟨tok, h1, h2⟩
        exact ⟨(tok, off + w), (hx.ok off (by omega) _ _).2 ⟨h1, rfl⟩, h2⟩
      · rintro ⟨⟨tok, o1⟩, h1, h2⟩
        obtain ⟨h3, rfl⟩ := (hx.ok off (by omega) tok o1).1 h1
        exact ⟨tok, h3, h2⟩

/-- one type, at all offsets that occur -/
def RunsAt (prof : Profile) (t : ParamType) (data : Bytes) : Prop :=
  ∀ off, off ≤ data.length + 32 → Runs (decodeParamOn 32 prof t data off) (decodeParam prof t data off) (wraps 32 t data off)

def RunsAll (prof : Profile) (ts : List ParamType) (data : Bytes) : Prop :=
  ∀ off, off ≤ data.length + 32 →
    Runs (decodeParamsOn 32 prof ts data off) (decodeParams prof ts data off) (wrapsAny 32 ts data off)

mutual
theorem narrow_of_narrow32 : ∀ t, narrow32 t = true → narrow t = true
  | .fixedBytes n, h => by simp only [narrow32, narrow, decide_eq_true_eq] at h ⊢; omega
  | .fixedArray t _, h => by simp only [narrow32, narrow] at h ⊢; exact narrow_of_narrow32 t h
  | .array t, h => by simp only [narrow32, narrow] at h ⊢; exact narrow_of_narrow32 t h
  | .tuple ts, h => by simp only [narrow32, narrow] at h ⊢; exact narrowAll_of_narrow32 ts h
  | .address, _ => rfl
  | .uint _, _ => rfl
  | .int _, _ => rfl
  | .bool, _ => rfl
  | .bytes, _ => rfl
  | .string, _ => rfl
theorem narrowAll_of_narrow32 : ∀ ts, narrow32All ts = true → narrowAll ts = true
  | [], _ => rfl
  | t :: ts, h => by
    simp only [narrow32All, narrowAll, Bool.and_eq_true] at h ⊢
    exact ⟨narrow_of_narrow32 t h.1, narrowAll_of_narrow32 ts h.2⟩
end

/-- length, content and the next offset -/
theorem runs_payload {prof : Profile} {data : Bytes} {off o : Nat} {f : Bytes → Token} (hd : data.length < 2 ^ 31)
    (ho : off ≤ data.length + 32) (hs : smallAt data off o) :
    Runs (peek32On 32 prof data o >>= fun lw => asUsize lw >>= fun len => usizeAddOn 32 prof o 32 >>= fun start =>
        takeBytesOn 32 prof data start len >>= fun bs => usizeAddOn 32 prof off 32 >>= fun off' => Res.ok (f bs, off'))
      (peek32 prof data o >>= fun lw => asUsize lw >>= fun len => usizeAdd prof o 32 >>= fun start =>
        takeBytes prof data start len >>= fun bs => usizeAdd prof off 32 >>= fun off' => Res.ok (f bs, off'))
      (2 ^ 32 ≤ o + 32 ∨ ∃ n, smallAt data o n ∧ 2 ^ 32 ≤ o + 32 + n) := by
  have hl := smallAt_le hs
  refine runs_small hd hs.1 (by omega) fun n hn => ?_
  have hl' := smallAt_le hn
  have h1 := hn.1
  rw [usizeAddOn_small (by omega), usizeAdd_ok (by omega), Res.ok_bind, Res.ok_bind, usizeAddOn_small (by omega)]
  exact (runs_takeBytes hd (by omega) h1 (by omega)).bind_id

theorem runs_word {α : Type} {prof : Profile} {data : Bytes} {off : Nat} {g : Word → Res α} {h : α → Token}
    (hd : data.length < 2 ^ 31) (ho : off ≤ data.length + 32) :
    (peek32On 32 prof data off >>= fun w => g w >>= fun x => usizeAddOn 32 prof off 32 >>= fun o => Res.ok (h x, o)) =
    (peek32 prof data off >>= fun w => g w >>= fun x => usizeAdd prof off 32 >>= fun o => Res.ok (h x, o)) := by
  rw [peek32On_small (by omega), usizeAddOn_small (by omega)]

mutual
theorem runs_param (prof : Profile) : ∀ (t : ParamType), narrow32 t = true → ∀ (data : Bytes), data.length < 2 ^ 31 →
    RunsAt prof t data
  | .address, _, data, hd => fun off ho => by
      refine Runs.of_eq ?_
      rw [decodeParamOn, decodeParam, peek32On_small (by omega), usizeAddOn_small (by omega)]
  | .uint m, _, data, hd => fun off ho => by
      refine Runs.of_eq ?_
      rw [decodeParamOn, decodeParam, peek32On_small (by omega), usizeAddOn_small (by omega)]
  | .int m, _, data, hd => fun off ho => by
      refine Runs.of_eq ?_
      rw [decodeParamOn, decodeParam, peek32On_small (by omega), usizeAddOn_small (by omega)]
  | .bool, _, data, hd => fun off ho => by
      refine Runs.of_eq ?_
      rw [decodeParamOn, decodeParam, peek32On_small (by omega), usizeAddOn_small (by omega)]
  | .fixedBytes n, hn, data, hd => fun off ho => by
      have hn : n < 2 ^ 30 := by simpa [narrow32] using hn
      refine Runs.of_eq ?_
      rw [decodeParamOn, decodeParam, takeBytesOn_small (by omega), usizeAddOn_small (by omega)]
  | .bytes, _, data, hd => fun off ho => by
      rw [decodeParamOn, decodeParam, wraps]
      exact runs_head hd ho fun o h => runs_payload hd ho h
  | .string, _, data, hd => fun off ho => by
      rw [decodeParamOn, decodeParam, wraps]
      exact runs_head hd ho fun o h => runs_payload (f := fun b => .string (fromUtf8Lossy b)) hd ho h
  | .array t, hn, data, hd => fun off ho => by
      have hn : narrow32 t = true := by simpa [narrow32] using hn
      rw [decodeParamOn, decodeParam, wraps]
      refine runs_head hd ho fun o hs => ?_
      have hl := smallAt_le hs
      refine runs_small hd hs.1 (by omega) fun n hsn => ?_
      have hl' := smallAt_le hsn
      rw [usizeAddOn_small (by omega), usizeAdd_ok (by omega), Res.ok_bind, Res.ok_bind, sliceFrom_pos (by omega),
        Res.ok_bind, Res.ok_bind, usizeAddOn_small (by omega)]
      have hd' : (data.drop (o + 32)).length < 2 ^ 31 := by simp; omega
      exact (runs_loop (exact_param prof t (narrow_of_narrow32 t hn) _ (by omega)) (by unfold maxOff; omega)
        (runs_param prof t hn _ hd') (fun o tok h1 h2 => reads_end t _ o tok h1 h2) n 0 (by omega)).bind_id
  | .fixedArray t k, hn, data, hd => fun off ho => by
      have hn : narrow32 t = true := by simpa [narrow32] using hn
      rw [decodeParamOn, decodeParam, wraps]
      cases ht : dynamic t with
      | true =>
        simp only [type_isDynamic_eq, ht, if_true]
        refine runs_head hd ho fun o hs => ?_
        by_cases hl : o ≤ data.length
        · rw [sliceFrom_pos hl, Res.ok_bind, Res.ok_bind, usizeAddOn_small (by omega)]
          have hd' : (data.drop o).length < 2 ^ 31 := by simp; omega
          exact ((runs_loop (exact_param prof t (narrow_of_narrow32 t hn) _ (by omega)) (by unfold maxOff; omega)
            (runs_param prof t hn _ hd') (fun o tok h1 h2 => reads_end t _ o tok h1 h2) k 0 (by omega)).bind_id).congr
            (by simp [hl])
        · rw [sliceFrom_neg (by omega)]
          exact (Runs.of_eq rfl).congr (by simp [hl])
      | false =>
        simp only [type_isDynamic_eq, ht, Bool.false_eq_true, if_false]
        exact (runs_loop (exact_param prof t (narrow_of_narrow32 t hn) _ (by omega)) (by unfold maxOff; omega)
            (runs_param prof t hn _ hd) (fun o tok h1 h2 => reads_end t _ o tok h1 h2) k off ho).bind_id
  | .tuple ts, hn, data, hd => fun off ho => by
      have hn : narrow32All ts = true := by simpa [narrow32] using hn
      rw [decodeParamOn, decodeParam, wraps]
      cases ht : dynamicAny ts with
      | true =>
        simp only [type_anyDynamic_eq, ht, if_true]
        refine runs_head hd ho fun o hs => ?_
        by_cases hl : o ≤ data.length
        · rw [if_neg (by omega), if_neg (by omega), sliceFrom_pos hl, Res.ok_bind, Res.ok_bind,
            usizeAddOn_small (by omega)]
          have hd' : (data.drop o).length < 2 ^ 31 := by simp; omega
          exact ((runs_params prof ts hn _ hd' 0 (by omega)).bind_id).congr (by simp [hl])
        · rw [if_pos (by omega), if_pos (by omega)]
          exact (Runs.of_eq rfl).congr (by simp [hl])
      | false =>
        simp only [type_anyDynamic_eq, ht, Bool.false_eq_true, if_false]
        exact (runs_params prof ts hn _ hd off ho).bind_id
theorem runs_params (prof : Profile) : ∀ (ts : List ParamType), narrow32All ts = true → ∀ (data : Bytes),
    data.length < 2 ^ 31 → RunsAll prof ts data
  | [], _, data, hd => fun off ho => Runs.of_eq rfl
  | t :: ts, hn, data, hd => fun off ho => by
      simp only [narrow32All, Bool.and_eq_true] at hn
      have hx := exact_param prof t (narrow_of_narrow32 t hn.1) data (by omega)
      have hM : off ≤ maxOff := by unfold maxOff; omega
      rw [decodeParamsOn, decodeParams, wrapsAny]
      refine ((runs_param prof t hn.1 data hd off ho).bind (q' := fun x => wrapsAny 32 ts data x.2) fun x hxo => ?_).congr ?_
      · obtain ⟨tok, o1⟩ := x
        obtain ⟨h1, rfl⟩ := (hx.ok off hM tok o1).1 hxo
        exact (runs_params prof ts hn.2 data hd _ (reads_end t data off tok ho h1)).bind_id
      · refine or_congr_right ⟨?_, ?_⟩
        · rintro ⟨tok, h1, h2⟩
          exact ⟨(tok, _), (hx.ok off hM _ _).2 ⟨h1, rfl⟩, h2⟩
        · rintro ⟨⟨tok, o1⟩, h1, h2⟩
          obtain ⟨h3, rfl⟩ := (hx.ok off hM tok o1).1 h1
          exact ⟨tok, h3, h2⟩
end

mutual
theorem wraps_data : ∀ (t : ParamType) (off : Nat), ¬ wraps 32 t [] off
  | .address, _ => id
  | .uint _, _ => id
  | .int _, _ => id
  | .bool, _ => id
  | .fixedBytes _, _ => id
  | .bytes, _ => fun ⟨_, h, _⟩ => by simpa using smallAt_le h
  | .string, _ => fun ⟨_, h, _⟩ => by simpa using smallAt_le h
  | .array t, _ => fun h => by
      rw [wraps] at h
      obtain ⟨_, h, _⟩ := h
      simpa using smallAt_le h
  | .fixedArray t k, off => fun h => by
      rw [wraps] at h
      split at h
      · obtain ⟨_, h, _⟩ := h
        simpa using smallAt_le h
      · obtain ⟨_, _, _, h⟩ := h
        exact wraps_data t _ h
  | .tuple ts, off => fun h => by
      rw [wraps] at h
      split at h
      · obtain ⟨_, h, _⟩ := h
        simpa using smallAt_le h
      · exact wrapsAny_data ts _ h
theorem wrapsAny_data : ∀ (ts : List ParamType) (off : Nat), ¬ wrapsAny 32 ts [] off
  | [], _ => id
  | t :: ts, off => fun h => by
      rw [wrapsAny] at h
      rcases h with h | ⟨_, _, h⟩
      · exact wraps_data t _ h
      · exact wrapsAny_data ts _ h
end

end Ethabi.Targets

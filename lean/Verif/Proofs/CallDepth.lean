import Verif.Model.CallDepth
import Verif.Spec.CallDepth
import Verif.Spec.Abi
import Verif.Proofs.Codec
/-! # Calls under way: lemmas for C115 -/
namespace Ethabi.CallDepth
open Spec

theorem seq_same (prof : Profile) : ∀ (ts : List ParamType) (data : Bytes) (off : Nat),
    decodeSeq (decodeParam prof) ts data off = decodeParams prof ts data off
  | [], _, _ => by simp only [decodeSeq, decodeParams]
  | t :: ts, data, off => by
    simp only [decodeSeq, decodeParams]
    congr 1; funext x
    rw [seq_same prof ts]

/-- `decodeStep` is the body of `decode_param` -/
theorem step_same (prof : Profile) (t : ParamType) : decodeStep prof (decodeParam prof) t = decodeParam prof t := by
  funext data off
  cases t with
  | array t => simp only [decodeStep]; rw [decodeParam]
  | fixedArray t k => simp only [decodeStep]; rw [decodeParam]
  | tuple ts => simp only [decodeStep, seq_same]; rw [decodeParam]
  | _ => rfl

theorem seq_congr {f g : ParamType → Bytes → Nat → Res (Token × Nat)} : ∀ (ts : List ParamType) (data : Bytes) (off : Nat),
    (∀ t ∈ ts, f t = g t) → decodeSeq f ts data off = decodeSeq g ts data off
  | [], _, _, _ => rfl
  | t :: ts, data, off, h => by
    simp only [decodeSeq]
    rw [h t (by simp)]
    congr 1; funext x
    rw [seq_congr ts _ _ fun u hu => h u (by simp [hu])]

theorem storeys_pos : ∀ (t : ParamType), 1 ≤ storeys t := by
  intro t; cases t <;> simp [storeys]

theorem storeys_mem {t : ParamType} : ∀ {ts : List ParamType}, t ∈ ts → storeys t ≤ storeysAll ts
  | [], h => by cases h
  | u :: us, h => by
    simp only [storeysAll]
    rcases List.mem_cons.1 h with rfl | h
    · exact Nat.le_max_left _ _
    · exact Nat.le_trans (storeys_mem h) (Nat.le_max_right _ _)

theorem step_congr {prof : Profile} {f g : ParamType → Bytes → Nat → Res (Token × Nat)} (t : ParamType)
    (ha : ∀ u, t = .array u → f u = g u) (hf : ∀ u k, t = .fixedArray u k → f u = g u)
    (ht : ∀ us, t = .tuple us → ∀ u ∈ us, f u = g u) : decodeStep prof f t = decodeStep prof g t := by
  funext data off
  cases t with
  | array u => simp only [decodeStep]; rw [ha u rfl]
  | fixedArray u k => simp only [decodeStep]; rw [hf u k rfl]
  | tuple us =>
    simp only [decodeStep]
    have h := ht us rfl
    rw [seq_congr us data off h]
    congr 1
    congr 1; funext w
    congr 1; funext o
    by_cases ho : o > data.length
    · simp only [ho, if_true]
    · simp only [ho, if_false]
      congr 1; funext tail
      rw [seq_congr us tail 0 h]
  | _ => rfl

theorem within_enough (prof : Profile) (beyond : Res (Token × Nat)) : ∀ (n : Nat) (t : ParamType), storeys t ≤ n →
    decodeWithin prof beyond n t = decodeParam prof t
  | 0, t, h => by have := storeys_pos t; omega
  | n + 1, t, h => by
    rw [← step_same prof t]
    show decodeStep prof (decodeWithin prof beyond n) t = _
    refine step_congr t ?_ ?_ ?_
    · rintro u rfl
      exact within_enough prof beyond n u (by simp only [storeys] at h; omega)
    · rintro u k rfl
      exact within_enough prof beyond n u (by simp only [storeys] at h; omega)
    · rintro us rfl u hu
      have := storeys_mem hu
      exact within_enough prof beyond n u (by simp only [storeys] at h; omega)

/-- what is found when the value is nested `d` deep and there is room for `n` calls -/
def Found {α : Type} (d n : Nat) (x y : Res α) : Prop := (d ≤ n → y = x) ∧ (n < d → y = .panic)

theorem found_bind {α β : Type} {d d' n : Nat} {x y : Res α} {v : α} {f g : α → Res β} (hx : x = .ok v) (h : Found d n x y)
    (hf : Found d' n (f v) (g v)) : Found (max d d') n (x >>= f) (y >>= g) := by
  subst hx
  constructor
  · intro hle
    rw [h.1 (by omega)]
    exact hf.1 (by omega)
  · intro hlt
    by_cases h1 : n < d
    · rw [h.2 h1]; rfl
    · rw [h.1 (by omega)]
      exact hf.2 (by omega)

theorem found_loop {f g : Nat → Res (Token × Nat)} {n : Nat}
    (h : ∀ off tok o, f off = .ok (tok, o) → Found (tokenDepth tok) n (f off) (g off)) :
    ∀ (k off : Nat) (toks : List Token) (o : Nat), decodeLoop f k off = .ok (toks, o) →
      Found (tokenDepthAll toks) n (decodeLoop f k off) (decodeLoop g k off)
  | 0, off, toks, o, e => by
    simp only [decodeLoop] at e ⊢
    cases e
    exact ⟨fun _ => rfl, fun hn => absurd hn (by simp [tokenDepthAll])⟩
  | k + 1, off, toks, o, e => by
    simp only [decodeLoop] at e ⊢
    cases h1 : f off with
    | err e' => rw [h1] at e; cases e
    | panic => rw [h1] at e; cases e
    | ok x =>
      obtain ⟨tok, off1⟩ := x
      rw [h1] at e
      have e2 : (decodeLoop f k off1 >>= fun x => Res.ok (tok :: x.1, x.2)) = .ok (toks, o) := e
      cases h2 : decodeLoop f k off1 with
      | err e' => rw [h2] at e2; cases e2
      | panic => rw [h2] at e2; cases e2
      | ok y =>
        obtain ⟨rest, off2⟩ := y
        rw [h2] at e2
        cases e2
        have ih := found_loop h k off1 rest off2 h2
        have h0 := h off tok off1 h1
        rw [h1] at h0
        have := found_bind (β := List Token × Nat) (f := fun x => decodeLoop f k x.2 >>= fun y => Res.ok (x.1 :: y.1, y.2))
          (g := fun x => decodeLoop g k x.2 >>= fun y => Res.ok (x.1 :: y.1, y.2)) (d' := tokenDepthAll rest) rfl h0 (by
            show Found _ n (decodeLoop f k off1 >>= fun y => Res.ok (tok :: y.1, y.2)) (decodeLoop g k off1 >>= fun y => Res.ok (tok :: y.1, y.2))
            have hb := found_bind (d' := 0) (f := fun y => Res.ok (tok :: y.1, y.2)) (g := fun y => Res.ok (tok :: y.1, y.2)) h2 ih
              ⟨fun _ => rfl, fun hn => absurd hn (by omega)⟩
            simpa using hb)
        simpa only [tokenDepthAll] using this

theorem found_same {α β : Type} {d n : Nat} {x : Res α} {f g : α → Res β} {r : β} (e : (x >>= f) = .ok r)
    (h : ∀ v, f v = .ok r → Found d n (f v) (g v)) : Found d n (x >>= f) (x >>= g) := by
  cases x with
  | err e' => cases e
  | panic => cases e
  | ok v => exact h v e

theorem found_last {α β : Type} {d n : Nat} {x y : Res α} {f : α → Res β} {r : β} (e : (x >>= f) = .ok r)
    (h : ∀ v, x = .ok v → f v = .ok r → Found d n x y) : Found d n (x >>= f) (y >>= f) := by
  cases x with
  | err e' => cases e
  | panic => cases e
  | ok v =>
    have := h v rfl e
    constructor
    · intro hd; rw [this.1 hd]
    · intro hd; rw [this.2 hd]; rfl

theorem found_seq {f g : ParamType → Bytes → Nat → Res (Token × Nat)} {n : Nat}
    (h : ∀ t data off tok o, f t data off = .ok (tok, o) → Found (tokenDepth tok) n (f t data off) (g t data off)) :
    ∀ (ts : List ParamType) (data : Bytes) (off : Nat) (toks : List Token) (o : Nat), decodeSeq f ts data off = .ok (toks, o) →
      Found (tokenDepthAll toks) n (decodeSeq f ts data off) (decodeSeq g ts data off)
  | [], data, off, toks, o, e => by
    simp only [decodeSeq] at e ⊢
    cases e
    exact ⟨fun _ => rfl, fun hn => absurd hn (by simp [tokenDepthAll])⟩
  | t :: ts, data, off, toks, o, e => by
    simp only [decodeSeq] at e ⊢
    cases h1 : f t data off with
    | err e' => rw [h1] at e; cases e
    | panic => rw [h1] at e; cases e
    | ok x =>
      obtain ⟨tok, off1⟩ := x
      rw [h1] at e
      have e2 : (decodeSeq f ts data off1 >>= fun x => Res.ok (tok :: x.1, x.2)) = .ok (toks, o) := e
      cases h2 : decodeSeq f ts data off1 with
      | err e' => rw [h2] at e2; cases e2
      | panic => rw [h2] at e2; cases e2
      | ok y =>
        obtain ⟨rest, off2⟩ := y
        rw [h2] at e2
        cases e2
        have ih := found_seq h ts data off1 rest off2 h2
        have h0 := h t data off tok off1 h1
        rw [h1] at h0
        have := found_bind (β := List Token × Nat) (f := fun x => decodeSeq f ts data x.2 >>= fun y => Res.ok (x.1 :: y.1, y.2))
          (g := fun x => decodeSeq g ts data x.2 >>= fun y => Res.ok (x.1 :: y.1, y.2)) (d' := tokenDepthAll rest) rfl h0 (by
            show Found _ n (decodeSeq f ts data off1 >>= fun y => Res.ok (tok :: y.1, y.2))
              (decodeSeq g ts data off1 >>= fun y => Res.ok (tok :: y.1, y.2))
            have hb := found_bind (d' := 0) (f := fun y => Res.ok (tok :: y.1, y.2)) (g := fun y => Res.ok (tok :: y.1, y.2)) h2 ih
              ⟨fun _ => rfl, fun hn => absurd hn (by omega)⟩
            simpa using hb)
        simpa only [tokenDepthAll] using this

theorem found_succ {α : Type} {d n : Nat} {x y : Res α} (h : Found d n x y) : Found (d + 1) (n + 1) x y :=
  ⟨fun hd => h.1 (by omega), fun hd => h.2 (by omega)⟩

theorem found_refl {α : Type} {n : Nat} (x : Res α) : Found 1 (n + 1) x x :=
  ⟨fun _ => rfl, fun h => absurd h (by omega)⟩

theorem add_bind {prof : Profile} {a b : Nat} {tok tok' : Token} {o : Nat}
    (h : (usizeAdd prof a b >>= fun off => Res.ok (tok, off)) = .ok (tok', o)) : tok' = tok := by
  cases hu : usizeAdd prof a b with
  | ok v => rw [hu] at h; cases h; rfl
  | err e => rw [hu] at h; cases h
  | panic => rw [hu] at h; cases h

theorem tokenDepth_pos (t : Token) : 1 ≤ tokenDepth t := by cases t <;> simp [tokenDepth]

theorem inv {α β : Type} {x : Res α} {f : α → Res β} {r : β} (h : (x >>= f) = .ok r) : ∃ v, x = .ok v ∧ f v = .ok r := by
  cases x with
  | ok v => exact ⟨v, rfl, h⟩
  | err e => cases h
  | panic => cases h

theorem elementary {prof : Profile} {t : ParamType} {data : Bytes} {off o : Nat} {tok : Token}
    (h : decodeParam prof t data off = .ok (tok, o)) (ha : ∀ u, t ≠ .array u) (hf : ∀ u k, t ≠ .fixedArray u k)
    (ht : ∀ us, t ≠ .tuple us) : tokenDepth tok = 1 := by
  cases t with
  | array u => exact absurd rfl (ha u)
  | fixedArray u k => exact absurd rfl (hf u k)
  | tuple us => exact absurd rfl (ht us)
  | address =>
    rw [decodeParam] at h
    obtain ⟨_, _, h⟩ := inv h
    rw [add_bind h]; rfl
  | int _ =>
    rw [decodeParam] at h
    obtain ⟨_, _, h⟩ := inv h
    rw [add_bind h]; rfl
  | uint _ =>
    rw [decodeParam] at h
    obtain ⟨_, _, h⟩ := inv h
    rw [add_bind h]; rfl
  | fixedBytes _ =>
    rw [decodeParam] at h
    obtain ⟨_, _, h⟩ := inv h
    rw [add_bind h]; rfl
  | bool =>
    rw [decodeParam] at h
    obtain ⟨_, _, h⟩ := inv h
    obtain ⟨_, _, h⟩ := inv h
    rw [add_bind h]; rfl
  | bytes =>
    rw [decodeParam] at h
    obtain ⟨_, _, h⟩ := inv h
    obtain ⟨_, _, h⟩ := inv h
    obtain ⟨_, _, h⟩ := inv h
    obtain ⟨_, _, h⟩ := inv h
    obtain ⟨_, _, h⟩ := inv h
    obtain ⟨_, _, h⟩ := inv h
    rw [add_bind h]; rfl
  | string =>
    rw [decodeParam] at h
    obtain ⟨_, _, h⟩ := inv h
    obtain ⟨_, _, h⟩ := inv h
    obtain ⟨_, _, h⟩ := inv h
    obtain ⟨_, _, h⟩ := inv h
    obtain ⟨_, _, h⟩ := inv h
    obtain ⟨_, _, h⟩ := inv h
    rw [add_bind h]; rfl

theorem found_elementary {prof : Profile} {f : ParamType → Bytes → Nat → Res (Token × Nat)} {t : ParamType} {data : Bytes}
    {off o n : Nat} {tok : Token} (h : decodeParam prof t data off = .ok (tok, o))
    (ha : ∀ u, t ≠ .array u) (hf : ∀ u k, t ≠ .fixedArray u k) (ht : ∀ us, t ≠ .tuple us) :
    Found (tokenDepth tok) (n + 1) (decodeParam prof t data off) (decodeStep prof f t data off) := by
  rw [elementary h ha hf ht]
  have : decodeStep prof f t data off = decodeParam prof t data off := by
    cases t with
    | array u => exact absurd rfl (ha u)
    | fixedArray u k => exact absurd rfl (hf u k)
    | tuple us => exact absurd rfl (ht us)
    | _ => rfl
  rw [this]
  exact found_refl _

/-- values that are decoded take as many calls as they are nested -/
theorem found_within (prof : Profile) : ∀ (n : Nat) (t : ParamType) (data : Bytes) (off : Nat) (tok : Token) (o : Nat),
    decodeParam prof t data off = .ok (tok, o) →
    Found (tokenDepth tok) n (decodeParam prof t data off) (decodeWithin prof .panic n t data off)
  | 0, t, data, off, tok, o, _ => by
    refine ⟨fun h => ?_, fun _ => rfl⟩
    have := tokenDepth_pos tok
    omega
  | n + 1, t, data, off, tok, o, e => by
    have ih : ∀ t data off tok o, decodeParam prof t data off = .ok (tok, o) →
        Found (tokenDepth tok) n (decodeParam prof t data off) (decodeWithin prof .panic n t data off) :=
      fun t data off tok o => found_within prof n t data off tok o
    show Found _ _ _ (decodeStep prof (decodeWithin prof .panic n) t data off)
    cases t with
    | array u =>
      rw [← step_same prof] at e ⊢
      simp only [decodeStep] at e ⊢
      refine found_same e fun w e => ?_
      refine found_same e fun lo e => ?_
      refine found_same e fun lw e => ?_
      refine found_same e fun len e => ?_
      refine found_same e fun tl e => ?_
      refine found_same e fun tail e => ?_
      refine found_last e fun v hv e => ?_
      obtain ⟨toks, o'⟩ := v
      cases add_bind e
      exact found_succ (found_loop (fun off tok o h => ih u tail off tok o h) len 0 toks o' hv)
    | fixedArray u k =>
      rw [← step_same prof] at e ⊢
      simp only [decodeStep] at e ⊢
      by_cases hd : u.isDynamic = true
      · simp only [hd, if_true] at e ⊢
        refine found_same e fun w e => ?_
        refine found_same e fun lo e => ?_
        refine found_same e fun tail e => ?_
        refine found_last e fun v hv e => ?_
        obtain ⟨toks, o'⟩ := v
        cases add_bind e
        exact found_succ (found_loop (fun off tok o h => ih u tail off tok o h) k 0 toks o' hv)
      · simp only [hd, Bool.false_eq_true, if_false] at e ⊢
        refine found_last e fun v hv e => ?_
        obtain ⟨toks, o'⟩ := v
        cases e
        exact found_succ (found_loop (fun off tok o h => ih u data off tok o h) k off toks o' hv)
    | tuple us =>
      rw [← step_same prof] at e ⊢
      simp only [decodeStep] at e ⊢
      by_cases hd : ParamType.anyDynamic us = true
      · simp only [hd, if_true] at e ⊢
        refine found_same e fun w e => ?_
        refine found_same e fun lo e => ?_
        by_cases hl : lo > data.length
        · simp only [hl, if_true] at e; cases e
        simp only [hl, if_false] at e ⊢
        refine found_same e fun tail e => ?_
        refine found_last e fun v hv e => ?_
        obtain ⟨toks, o'⟩ := v
        cases add_bind e
        exact found_succ (found_seq ih us tail 0 toks o' hv)
      · simp only [hd, Bool.false_eq_true, if_false] at e ⊢
        refine found_last e fun v hv e => ?_
        obtain ⟨toks, o'⟩ := v
        cases e
        exact found_succ (found_seq ih us data off toks o' hv)
    | address => exact found_elementary e (nofun) (nofun) (nofun)
    | bytes => exact found_elementary e (nofun) (nofun) (nofun)
    | int _ => exact found_elementary e (nofun) (nofun) (nofun)
    | uint _ => exact found_elementary e (nofun) (nofun) (nofun)
    | bool => exact found_elementary e (nofun) (nofun) (nofun)
    | string => exact found_elementary e (nofun) (nofun) (nofun)
    | fixedBytes _ => exact found_elementary e (nofun) (nofun) (nofun)

/-! ### tokenize -/

theorem tokenizers_map (m : Tokenizer) : ∀ ps : List ParamType, tokenizers m ps = ps.map (tokenize m)
  | [] => by simp only [tokenizers, List.map_nil]
  | p :: ps => by simp only [tokenizers, List.map_cons, tokenizers_map m ps]

/-- `tokenizeStep` is the body of `tokenize` -/
theorem tokenStep_same (m : Tokenizer) (t : ParamType) : tokenizeStep m (tokenize m) t = tokenize m t := by
  funext v
  cases t with
  | array p => simp only [tokenizeStep]; rw [tokenize]
  | fixedArray p k => simp only [tokenizeStep]; rw [tokenize]
  | tuple ps => simp only [tokenizeStep]; rw [tokenize, tokenizers_map]
  | _ => rfl

theorem tokens_enough (m : Tokenizer) (beyond : Res Token) : ∀ (n : Nat) (t : ParamType), storeys t ≤ n →
    tokenizeWithin m beyond n t = tokenize m t
  | 0, t, h => by have := storeys_pos t; omega
  | n + 1, t, h => by
    rw [← tokenStep_same m t]
    show tokenizeStep m (tokenizeWithin m beyond n) t = _
    funext v
    cases t with
    | array p =>
      simp only [tokenizeStep]
      rw [tokens_enough m beyond n p (by simp only [storeys] at h; omega)]
    | fixedArray p k =>
      simp only [tokenizeStep]
      rw [tokens_enough m beyond n p (by simp only [storeys] at h; omega)]
    | tuple ps =>
      simp only [tokenizeStep]
      have : ps.map (tokenizeWithin m beyond n) = ps.map (tokenize m) := by
        refine List.map_congr_left fun p hp => ?_
        have := storeys_mem hp
        exact tokens_enough m beyond n p (by simp only [storeys] at h; omega)
      rw [this]
    | _ => rfl

theorem tokenDepthAll_append : ∀ (a b : List Token), tokenDepthAll (a ++ b) = max (tokenDepthAll a) (tokenDepthAll b)
  | [], b => by simp [tokenDepthAll]
  | t :: a, b => by simp only [List.cons_append, tokenDepthAll, tokenDepthAll_append a b]; omega

theorem found_pieces {opn cls : Char} {value : Str} {f g : Nat → Str → Res Token} {n : Nat}
    (h : ∀ i sub tok, f i sub = .ok tok → Found (tokenDepth tok) n (f i sub) (g i sub)) :
    ∀ (cs : Str) (pos : Nat) (nested : Int) (ignore : Bool) (last : Nat) (result toks : List Token),
      pieceLoop opn cls value f cs pos nested ignore last result = .ok toks → ∃ new, toks = result ++ new ∧
        Found (tokenDepthAll new) n (pieceLoop opn cls value f cs pos nested ignore last result)
          (pieceLoop opn cls value g cs pos nested ignore last result)
  | [], pos, nested, ignore, last, result, toks, e => by
    simp only [pieceLoop] at e ⊢
    refine ⟨[], ?_, fun _ => rfl, fun hn => absurd hn (by simp [tokenDepthAll])⟩
    cases ignore
    · cases e; simp
    · cases e
  | c :: cs, pos, nested, ignore, last, result, toks, e => by
    have step : ∀ (p : Nat) (ne : Int), (strSlice value last pos >>= fun sub => f result.length sub >>= fun token =>
          pieceLoop opn cls value f cs p ne ignore (pos + 1) (result ++ [token])) = .ok toks →
        ∃ new, toks = result ++ new ∧ Found (tokenDepthAll new) n
          (strSlice value last pos >>= fun sub => f result.length sub >>= fun token =>
            pieceLoop opn cls value f cs p ne ignore (pos + 1) (result ++ [token]))
          (strSlice value last pos >>= fun sub => g result.length sub >>= fun token =>
            pieceLoop opn cls value g cs p ne ignore (pos + 1) (result ++ [token])) := by
      intro p ne e
      obtain ⟨sub, hs, e⟩ := inv e
      obtain ⟨tok, ht, e⟩ := inv e
      obtain ⟨new, rfl, hn⟩ := found_pieces h cs p ne ignore (pos + 1) (result ++ [tok]) _ e
      refine ⟨tok :: new, by simp, ?_⟩
      rw [hs]
      show Found _ n (f result.length sub >>= _) (g result.length sub >>= _)
      exact found_bind (d := tokenDepth tok) (d' := tokenDepthAll new) ht (h _ _ _ ht) hn
    simp only [pieceLoop] at e ⊢
    by_cases c1 : c = opn ∧ ignore = false
    · simp only [c1, and_self, if_true] at e ⊢
      exact found_pieces h cs _ _ _ _ _ _ e
    simp only [c1, if_false] at e ⊢
    by_cases c2 : c = cls ∧ ignore = false
    · simp only [if_pos c2] at e ⊢
      by_cases c3 : nested - 1 < 0
      · simp only [if_pos c3] at e; cases e
      simp only [if_neg c3] at e ⊢
      by_cases c4 : nested - 1 = 0
      · simp only [if_pos c4] at e ⊢
        exact step _ _ e
      · simp only [if_neg c4] at e ⊢
        exact found_pieces h cs _ _ _ _ _ _ e
    simp only [if_neg c2] at e ⊢
    by_cases c5 : c = '"'
    · simp only [if_pos c5] at e ⊢
      exact found_pieces h cs _ _ _ _ _ _ e
    simp only [if_neg c5] at e ⊢
    by_cases c6 : c = ',' ∧ nested = 1 ∧ ignore = false
    · simp only [if_pos c6] at e ⊢
      exact step _ _ e
    · simp only [if_neg c6] at e ⊢
      exact found_pieces h cs _ _ _ _ _ _ e

theorem found_tokenizePieces {opn cls : Char} {value : Str} {f g : Nat → Str → Res Token} {n : Nat} {toks : List Token}
    (h : ∀ i sub tok, f i sub = .ok tok → Found (tokenDepth tok) n (f i sub) (g i sub))
    (e : tokenizePieces opn cls value f = .ok toks) :
    Found (tokenDepthAll toks) n (tokenizePieces opn cls value f) (tokenizePieces opn cls value g) := by
  unfold tokenizePieces at e ⊢
  by_cases c1 : ¬ (value.head? = some opn) ∨ ¬ (value.getLast? = some cls)
  · rw [if_pos c1] at e; cases e
  rw [if_neg c1] at e
  rw [if_neg c1, if_neg c1]
  by_cases c2 : value.length = 2
  · rw [if_pos c2] at e
    rw [if_pos c2, if_pos c2]
    cases e
    exact ⟨fun _ => rfl, fun hn => absurd hn (by simp [tokenDepthAll])⟩
  rw [if_neg c2] at e
  rw [if_neg c2, if_neg c2]
  obtain ⟨new, rfl, hn⟩ := found_pieces h value 0 0 false 1 [] toks e
  simpa using hn

theorem map_inv {α β : Type} {x : Res α} {f : α → β} {r : β} (h : f <$> x = .ok r) : ∃ v, x = .ok v ∧ f v = r := by
  cases x with
  | ok v => exact ⟨v, rfl, Res.ok.inj h⟩
  | err e => cases h
  | panic => cases h

theorem found_map {α β : Type} {d n : Nat} {x y : Res α} {f : α → β} (h : Found d n x y) : Found d n (f <$> x) (f <$> y) :=
  ⟨fun hd => by rw [h.1 hd], fun hd => by rw [h.2 hd]; rfl⟩

theorem token_elementary {m : Tokenizer} {t : ParamType} {v : Str} {tok : Token} (h : tokenize m t v = .ok tok)
    (ha : ∀ u, t ≠ .array u) (hf : ∀ u k, t ≠ .fixedArray u k) (ht : ∀ us, t ≠ .tuple us) : tokenDepth tok = 1 := by
  cases t with
  | array u => exact absurd rfl (ha u)
  | fixedArray u k => exact absurd rfl (hf u k)
  | tuple us => exact absurd rfl (ht us)
  | address => rw [tokenize] at h; obtain ⟨_, _, rfl⟩ := map_inv h; rfl
  | bytes => rw [tokenize] at h; obtain ⟨_, _, rfl⟩ := map_inv h; rfl
  | int _ => rw [tokenize] at h; obtain ⟨_, _, rfl⟩ := map_inv h; rfl
  | uint _ => rw [tokenize] at h; obtain ⟨_, _, rfl⟩ := map_inv h; rfl
  | bool => rw [tokenize] at h; obtain ⟨_, _, rfl⟩ := map_inv h; rfl
  | string => rw [tokenize] at h; obtain ⟨_, _, rfl⟩ := map_inv h; rfl
  | fixedBytes _ => rw [tokenize] at h; obtain ⟨_, _, rfl⟩ := map_inv h; rfl

theorem found_tokenElementary {m : Tokenizer} {f : ParamType → Str → Res Token} {t : ParamType} {v : Str} {n : Nat} {tok : Token}
    (h : tokenize m t v = .ok tok) (ha : ∀ u, t ≠ .array u) (hf : ∀ u k, t ≠ .fixedArray u k) (ht : ∀ us, t ≠ .tuple us) :
    Found (tokenDepth tok) (n + 1) (tokenize m t v) (tokenizeStep m f t v) := by
  rw [token_elementary h ha hf ht]
  have : tokenizeStep m f t v = tokenize m t v := by
    cases t with
    | array u => exact absurd rfl (ha u)
    | fixedArray u k => exact absurd rfl (hf u k)
    | tuple us => exact absurd rfl (ht us)
    | _ => rfl
  rw [this]
  exact found_refl _

theorem found_tokenize (m : Tokenizer) : ∀ (n : Nat) (t : ParamType) (v : Str) (tok : Token), tokenize m t v = .ok tok →
    Found (tokenDepth tok) n (tokenize m t v) (tokenizeWithin m .panic n t v)
  | 0, t, v, tok, _ => by
    refine ⟨fun h => ?_, fun _ => rfl⟩
    have := tokenDepth_pos tok
    omega
  | n + 1, t, v, tok, e => by
    have ih : ∀ t v tok, tokenize m t v = .ok tok → Found (tokenDepth tok) n (tokenize m t v) (tokenizeWithin m .panic n t v) :=
      fun t v tok => found_tokenize m n t v tok
    show Found _ _ _ (tokenizeStep m (tokenizeWithin m .panic n) t v)
    cases t with
    | array u =>
      rw [← tokenStep_same m] at e ⊢
      simp only [tokenizeStep] at e ⊢
      obtain ⟨toks, e1, rfl⟩ := map_inv e
      exact found_map (found_succ (found_tokenizePieces (fun _ sub tok h => ih u sub tok h) e1))
    | fixedArray u k =>
      rw [← tokenStep_same m] at e ⊢
      simp only [tokenizeStep] at e ⊢
      obtain ⟨toks, e1, rfl⟩ := map_inv e
      refine found_map ?_
      unfold tokenizeFixedArray at e1 ⊢
      refine found_last e1 fun w hw e2 => ?_
      have : w = toks := by
        by_cases hk : w.length = k
        · simp only [if_pos hk] at e2; exact Res.ok.inj e2
        · simp only [if_neg hk] at e2; cases e2
      subst this
      exact found_succ (found_tokenizePieces (fun _ sub tok h => ih u sub tok h) hw)
    | tuple us =>
      rw [← tokenStep_same m] at e ⊢
      simp only [tokenizeStep] at e ⊢
      obtain ⟨toks, e1, rfl⟩ := map_inv e
      refine found_map (found_succ (found_tokenizePieces (fun i sub tok h => ?_) e1))
      simp only [List.getElem?_map] at h ⊢
      cases hu : us[i]? with
      | none => rw [hu] at h; cases h
      | some u => rw [hu] at h; exact ih u sub tok h
    | address => exact found_tokenElementary e (nofun) (nofun) (nofun)
    | bytes => exact found_tokenElementary e (nofun) (nofun) (nofun)
    | int _ => exact found_tokenElementary e (nofun) (nofun) (nofun)
    | uint _ => exact found_tokenElementary e (nofun) (nofun) (nofun)
    | bool => exact found_tokenElementary e (nofun) (nofun) (nofun)
    | string => exact found_tokenElementary e (nofun) (nofun) (nofun)
    | fixedBytes _ => exact found_tokenElementary e (nofun) (nofun) (nofun)

end Ethabi.CallDepth

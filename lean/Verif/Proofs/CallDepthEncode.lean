import Verif.Model.CallDepthEncode
import Verif.Spec.CallDepthEncode
import Verif.Proofs.CallDepth
/-! # Calls under way: lemmas for C117 -/
namespace Ethabi.CallDepth
open Spec

theorem tokenDepth_mem {t : Token} : ∀ {ts : List Token}, t ∈ ts → tokenDepth t ≤ tokenDepthAll ts
  | [], h => by cases h
  | u :: us, h => by
    simp only [tokenDepthAll]
    rcases List.mem_cons.1 h with rfl | h
    · exact Nat.le_max_left _ _
    · exact Nat.le_trans (tokenDepth_mem h) (Nat.le_max_right _ _)

theorem tokenDepth_reached {n : Nat} : ∀ {ts : List Token}, n < tokenDepthAll ts → ∃ t ∈ ts, n < tokenDepth t
  | [], h => by simp [tokenDepthAll] at h
  | u :: us, h => by
    simp only [tokenDepthAll] at h
    by_cases hu : n < tokenDepth u
    · exact ⟨u, by simp, hu⟩
    · obtain ⟨t, ht, hn⟩ := tokenDepth_reached (ts := us) (n := n) (by omega)
      exact ⟨t, by simp [ht], hn⟩

theorem storeys_reached {n : Nat} : ∀ {ts : List ParamType}, n < storeysAll ts → ∃ t ∈ ts, n < storeys t
  | [], h => by simp [storeysAll] at h
  | u :: us, h => by
    simp only [storeysAll] at h
    by_cases hu : n < storeys u
    · exact ⟨u, by simp, hu⟩
    · obtain ⟨t, ht, hn⟩ := storeys_reached (ts := us) (n := n) (by omega)
      exact ⟨t, by simp [ht], hn⟩

/-! ### loops -/

theorem collectRes_congr {α β : Type} {f g : α → Res β} : ∀ (as : List α), (∀ a ∈ as, f a = g a) → collectRes f as = collectRes g as
  | [], _ => rfl
  | a :: as, h => by
    simp only [collectRes]
    rw [h a (by simp), collectRes_congr as fun b hb => h b (by simp [hb])]

theorem anyRes_congr {α : Type} {f g : α → Res Bool} : ∀ (as : List α), (∀ a ∈ as, f a = g a) → anyRes f as = anyRes g as
  | [], _ => rfl
  | a :: as, h => by
    simp only [anyRes]
    rw [h a (by simp), anyRes_congr as fun b hb => h b (by simp [hb])]

theorem collectRes_tokens (prof : Profile) : ∀ (ts : List Token), collectRes (encodeToken prof) ts = encodeTokens prof ts
  | [] => by simp [collectRes, encodeTokens]
  | t :: ts => by
    rw [encodeTokens]; simp only [collectRes]; rw [collectRes_tokens prof ts]

/-- no error value: a result or a panic -/
def NoErr {α : Type} (x : Res α) : Prop := ∀ e, x ≠ .err e

theorem noErr_ok {α : Type} (a : α) : NoErr (.ok a) := fun _ h => by cases h
theorem noErr_panic {α : Type} : NoErr (α := α) .panic := fun _ h => by cases h
theorem noErr_bind {α β : Type} {x : Res α} {f : α → Res β} (hx : NoErr x) (hf : ∀ a, NoErr (f a)) : NoErr (x >>= f) := by
  cases x with
  | ok a => exact hf a
  | err e => exact absurd rfl (hx e)
  | panic => exact noErr_panic

theorem noErr_map {α β : Type} {x : Res α} (f : α → β) (hx : NoErr x) : NoErr (f <$> x) := by
  cases x with
  | ok a => exact noErr_ok _
  | err e => exact absurd rfl (hx e)
  | panic => exact noErr_panic

theorem bind_panic {α β : Type} {x : Res α} {f : α → Res β} (hx : NoErr x) (hf : ∀ a, f a = .panic) : (x >>= f) = .panic := by
  cases x with
  | ok a => exact hf a
  | err e => exact absurd rfl (hx e)
  | panic => rfl

theorem noErr_collectRes {α β : Type} {f : α → Res β} (h : ∀ a, NoErr (f a)) : ∀ (as : List α), NoErr (collectRes f as)
  | [] => noErr_ok _
  | a :: as => noErr_bind (h a) fun _ => noErr_bind (noErr_collectRes h as) fun _ => noErr_ok _

theorem noErr_anyRes {α : Type} {f : α → Res Bool} (h : ∀ a, NoErr (f a)) : ∀ (as : List α), NoErr (anyRes f as)
  | [] => noErr_ok _
  | a :: as => noErr_bind (h a) fun b => by
      cases b with
      | true => exact noErr_ok _
      | false => exact noErr_anyRes h as

/-- where one element panics and the others do not fail otherwise, the loop panics -/
theorem collectRes_panic {α β : Type} {f : α → Res β} (h : ∀ a, NoErr (f a)) {a : α} (ha : f a = .panic) :
    ∀ (as : List α), a ∈ as → collectRes f as = .panic
  | [], hm => by cases hm
  | b :: as, hm => by
    simp only [collectRes]
    rcases List.mem_cons.1 hm with rfl | hm
    · rw [ha]; rfl
    · exact bind_panic (h b) fun _ => by rw [collectRes_panic h ha as hm]; rfl

/-! ### `is_dynamic` -/

theorem anyRes_dynamic : ∀ (ts : List Token), anyRes (fun t => .ok t.isDynamic) ts = .ok (Token.anyDynamic ts)
  | [] => by simp [anyRes, Token.anyDynamic]
  | t :: ts => by
    simp only [anyRes, Token.anyDynamic]
    cases h : t.isDynamic with
    | true => rfl
    | false => simpa using anyRes_dynamic ts

theorem dynamic_enough (beyond : ∀ α, Res α) : ∀ (n : Nat) (t : Token), tokenDepth t ≤ n →
    dynamicWithin beyond n t = .ok t.isDynamic
  | 0, t, h => by have := tokenDepth_pos t; omega
  | n + 1, t, h => by
    cases t with
    | fixedArray ts =>
      simp only [dynamicWithin, Token.isDynamic]
      simp only [tokenDepth] at h
      rw [anyRes_congr (g := fun t => .ok t.isDynamic) ts fun u hu =>
        dynamic_enough beyond n u (by have := tokenDepth_mem hu; omega), anyRes_dynamic]
    | tuple ts =>
      simp only [dynamicWithin, Token.isDynamic]
      simp only [tokenDepth] at h
      rw [anyRes_congr (g := fun t => .ok t.isDynamic) ts fun u hu =>
        dynamic_enough beyond n u (by have := tokenDepth_mem hu; omega), anyRes_dynamic]
    | _ => simp only [dynamicWithin, Token.isDynamic]

/-! ### intermediate values -/

mutual
/-- how deep an intermediate value is nested -/
def medDepth : Mediate → Nat
  | .raw _ => 1
  | .prefixed _ => 1
  | .prefixedArray ms => medDepthAll ms + 1
  | .prefixedArrayWithLength ms => medDepthAll ms + 1
  | .rawTuple ms => medDepthAll ms + 1
  | .prefixedTuple ms => medDepthAll ms + 1
def medDepthAll : List Mediate → Nat
  | [] => 0
  | m :: ms => max (medDepth m) (medDepthAll ms)
end

theorem medDepth_pos : ∀ (m : Mediate), 1 ≤ medDepth m := by
  intro m; cases m <;> simp [medDepth]

theorem medDepth_mem {m : Mediate} : ∀ {ms : List Mediate}, m ∈ ms → medDepth m ≤ medDepthAll ms
  | [], h => by cases h
  | u :: us, h => by
    simp only [medDepthAll]
    rcases List.mem_cons.1 h with rfl | h
    · exact Nat.le_max_left _ _
    · exact Nat.le_trans (medDepth_mem h) (Nat.le_max_right _ _)

theorem sumHeads_congr {prof : Profile} {f : Mediate → Res Nat} : ∀ (ms : List Mediate) (acc : Nat),
    (∀ m ∈ ms, f m = m.headLen prof) → sumHeadsWith prof f ms acc = Mediate.sumHeadLen prof ms acc
  | [], _, _ => by simp only [sumHeadsWith, Mediate.sumHeadLen]
  | m :: ms, acc, h => by
    simp only [sumHeadsWith, Mediate.sumHeadLen]
    rw [h m (by simp)]
    congr 1; funext x; congr 1; funext y
    exact sumHeads_congr ms y fun u hu => h u (by simp [hu])

theorem headLen_enough (prof : Profile) (beyond : ∀ α, Res α) : ∀ (n : Nat) (m : Mediate), medDepth m ≤ n →
    headLenWithin prof beyond n m = m.headLen prof
  | 0, m, h => by have := medDepth_pos m; omega
  | n + 1, m, h => by
    cases m with
    | rawTuple ms =>
      simp only [headLenWithin, Mediate.headLen]
      simp only [medDepth] at h
      exact sumHeads_congr ms 0 fun u hu => headLen_enough prof beyond n u (by have := medDepth_mem hu; omega)
    | _ => simp only [headLenWithin, Mediate.headLen]

theorem sumLens_congr {prof : Profile} {f g : Mediate → Res Nat} : ∀ (ms : List Mediate) (acc : Nat),
    (∀ m ∈ ms, f m = m.headLen prof ∧ g m = m.tailLen prof) → sumLensWith prof f g ms acc = Mediate.sumLen prof ms acc
  | [], _, _ => by simp only [sumLensWith, Mediate.sumLen]
  | m :: ms, acc, h => by
    simp only [sumLensWith, Mediate.sumLen]
    rw [(h m (by simp)).1, (h m (by simp)).2]
    congr 1; funext x; congr 1; funext y; congr 1; funext z; congr 1; funext w
    exact sumLens_congr ms w fun u hu => h u (by simp [hu])

theorem tailLen_enough (prof : Profile) (beyond : ∀ α, Res α) (N : Nat) : ∀ (n : Nat) (m : Mediate), medDepth m ≤ n → n ≤ N →
    tailLenWithin prof beyond (headLenWithin prof beyond N) n m = m.tailLen prof
  | 0, m, h, _ => by have := medDepth_pos m; omega
  | n + 1, m, h, hN => by
    have hall : ∀ ms acc, medDepthAll ms ≤ n → sumLensWith prof (headLenWithin prof beyond N)
        (tailLenWithin prof beyond (headLenWithin prof beyond N) n) ms acc = Mediate.sumLen prof ms acc := by
      intro ms acc hms
      refine sumLens_congr ms acc fun u hu => ?_
      have := medDepth_mem hu
      exact ⟨headLen_enough prof beyond N u (by omega), tailLen_enough prof beyond N n u (by omega) (by omega)⟩
    cases m with
    | prefixedArray ms => simp only [tailLenWithin, Mediate.tailLen]; simp only [medDepth] at h; exact hall ms _ (by omega)
    | prefixedArrayWithLength ms => simp only [tailLenWithin, Mediate.tailLen]; simp only [medDepth] at h; exact hall ms _ (by omega)
    | prefixedTuple ms => simp only [tailLenWithin, Mediate.tailLen]; simp only [medDepth] at h; exact hall ms _ (by omega)
    | _ => simp only [tailLenWithin, Mediate.tailLen]

theorem flatten_heads : ∀ (ms : List Mediate), (List.flatten <$> collectRes (fun m => Res.ok (m.head 0)) ms) =
    .ok (Mediate.headsZero ms)
  | [] => by simp only [collectRes, Mediate.headsZero]; rfl
  | m :: ms => by
    have ih := flatten_heads ms
    simp only [collectRes, Mediate.headsZero]
    cases h : collectRes (fun m => Res.ok (m.head 0)) ms with
    | ok x =>
      rw [h] at ih
      have e : Res.ok x.flatten = Res.ok (Mediate.headsZero ms) := ih
      rw [← (Res.ok.inj e)]
      rfl
    | err e => rw [h] at ih; cases ih
    | panic => rw [h] at ih; cases ih

theorem head_enough (beyond : ∀ α, Res α) : ∀ (n : Nat) (m : Mediate) (off : Nat), medDepth m ≤ n →
    headWithin beyond n m off = .ok (m.head off)
  | 0, m, _, h => by have := medDepth_pos m; omega
  | n + 1, m, off, h => by
    cases m with
    | rawTuple ms =>
      simp only [headWithin, Mediate.head]
      simp only [medDepth] at h
      rw [collectRes_congr (g := fun m => .ok (m.head 0)) ms fun u hu =>
        head_enough beyond n u 0 (by have := medDepth_mem hu; omega)]
      exact flatten_heads ms
    | _ => simp only [headWithin, Mediate.head]

theorem heads_congr {prof : Profile} {f : Mediate → Res Nat} {g : Mediate → Nat → Res (List Word)} :
    ∀ (ms : List Mediate) (acc : List Word) (off : Nat), (∀ m ∈ ms, f m = m.tailLen prof ∧ ∀ o, g m o = .ok (m.head o)) →
      headsWith prof f g ms acc off = Mediate.heads prof ms acc off
  | [], _, _, _ => by simp only [headsWith, Mediate.heads]
  | m :: ms, acc, off, h => by
    simp only [headsWith, Mediate.heads]
    rw [(h m (by simp)).1, (h m (by simp)).2]
    show (m.tailLen prof >>= _) = _
    congr 1; funext x; congr 1; funext y
    exact heads_congr ms _ y fun u hu => h u (by simp [hu])

theorem flatten_tails (prof : Profile) : ∀ (ms : List Mediate), (List.flatten <$> collectRes (Mediate.tail prof) ms) =
    Mediate.tails prof ms
  | [] => by simp only [collectRes, Mediate.tails]; rfl
  | m :: ms => by
    have ih := flatten_tails prof ms
    simp only [collectRes, Mediate.tails]
    rw [← ih]
    cases m.tail prof with
    | ok x => cases collectRes (Mediate.tail prof) ms <;> rfl
    | err e => rfl
    | panic => rfl

theorem headTail_enough (prof : Profile) (beyond : ∀ α, Res α) (N : Nat) (tail : Mediate → Res (List Word)) (ms : List Mediate)
    (hms : medDepthAll ms ≤ N) (ht : ∀ m ∈ ms, tail m = m.tail prof) :
    headTailWith prof beyond N tail ms = encodeHeadTail prof ms := by
  unfold headTailWith encodeHeadTail Mediate.assemble
  rw [sumHeads_congr ms 0 fun u hu => headLen_enough prof beyond N u (Nat.le_trans (medDepth_mem hu) hms)]
  congr 1; funext hl
  rw [heads_congr ms [] hl fun u hu => ⟨tailLen_enough prof beyond N N u (Nat.le_trans (medDepth_mem hu) hms) (Nat.le_refl _),
    fun o => head_enough beyond N u o (Nat.le_trans (medDepth_mem hu) hms)⟩]
  congr 1; funext r
  rw [collectRes_congr ms ht, ← flatten_tails]
  cases collectRes (Mediate.tail prof) ms <;> rfl

theorem tail_enough (prof : Profile) (beyond : ∀ α, Res α) (N : Nat) : ∀ (n : Nat) (m : Mediate), medDepth m ≤ n → n ≤ N →
    tailWithin prof beyond N n m = m.tail prof
  | 0, m, h, _ => by have := medDepth_pos m; omega
  | n + 1, m, h, hN => by
    have hall : ∀ ms, medDepthAll ms ≤ n → headTailWith prof beyond N (tailWithin prof beyond N n) ms = encodeHeadTail prof ms := by
      intro ms hms
      exact headTail_enough prof beyond N _ ms (by omega) fun u hu =>
        tail_enough prof beyond N n u (Nat.le_trans (medDepth_mem hu) hms) (by omega)
    cases m with
    | prefixedArray ms => simp only [tailWithin, Mediate.tail]; simp only [medDepth] at h; exact hall ms (by omega)
    | prefixedArrayWithLength ms =>
      simp only [tailWithin, Mediate.tail]; simp only [medDepth] at h; rw [hall ms (by omega)]; rfl
    | prefixedTuple ms => simp only [tailWithin, Mediate.tail]; simp only [medDepth] at h; exact hall ms (by omega)
    | _ => simp only [tailWithin, Mediate.tail]

mutual
/-- an intermediate value is not nested deeper than the token it is for -/
theorem medDepth_token (prof : Profile) : ∀ (t : Token) (m : Mediate), encodeToken prof t = .ok m → medDepth m ≤ tokenDepth t
  | .address _, m, h | .bytes _, m, h | .string _, m, h | .fixedBytes _, m, h | .int _, m, h | .uint _, m, h | .bool _, m, h => by
    rw [encodeToken] at h; cases h; simp [medDepth, tokenDepth]
  | .array ts, m, h => by
    rw [encodeToken] at h
    cases e : encodeTokens prof ts with
    | ok ms =>
      rw [e] at h
      cases (show Res.ok _ = Res.ok m from h)
      have := medDepth_tokens prof ts ms e
      simp only [medDepth, tokenDepth]; omega
    | err x => rw [e] at h; cases h
    | panic => rw [e] at h; cases h
  | .fixedArray ts, m, h => by
    rw [encodeToken] at h
    cases e : encodeTokens prof ts with
    | ok ms =>
      rw [e] at h
      have h' : (if Token.anyDynamic ts then Res.ok (.prefixedArray ms)
        else encodeHeadTail prof ms >>= fun ws => .ok (.raw ws)) = .ok m := h
      have := medDepth_tokens prof ts ms e
      split at h'
      · cases h'; simp only [medDepth, tokenDepth]; omega
      · cases e2 : encodeHeadTail prof ms with
        | ok ws => rw [e2] at h'; cases (show Res.ok _ = Res.ok m from h'); simp only [medDepth, tokenDepth]; omega
        | err x => rw [e2] at h'; cases h'
        | panic => rw [e2] at h'; cases h'
    | err x => rw [e] at h; cases h
    | panic => rw [e] at h; cases h
  | .tuple ts, m, h => by
    rw [encodeToken] at h
    cases e : encodeTokens prof ts with
    | ok ms =>
      rw [e] at h
      have h' : (if Token.anyDynamic ts then Res.ok (Mediate.prefixedTuple ms) else .ok (.rawTuple ms)) = .ok m := h
      have := medDepth_tokens prof ts ms e
      split at h' <;> (cases h'; simp only [medDepth, tokenDepth]; omega)
    | err x => rw [e] at h; cases h
    | panic => rw [e] at h; cases h
theorem medDepth_tokens (prof : Profile) : ∀ (ts : List Token) (ms : List Mediate), encodeTokens prof ts = .ok ms →
    medDepthAll ms ≤ tokenDepthAll ts
  | [], ms, h => by rw [encodeTokens] at h; cases h; simp [medDepthAll]
  | t :: ts, ms, h => by
    rw [encodeTokens] at h
    cases e : encodeToken prof t with
    | ok m =>
      rw [e] at h
      have h' : (encodeTokens prof ts >>= fun ms => Res.ok (m :: ms)) = .ok ms := h
      cases e2 : encodeTokens prof ts with
      | ok ms' =>
        rw [e2] at h'
        cases (show Res.ok _ = Res.ok ms from h')
        have h1 := medDepth_token prof t m e
        have h2 := medDepth_tokens prof ts ms' e2
        simp only [medDepthAll, tokenDepthAll]; omega
      | err x => rw [e2] at h'; cases h'
      | panic => rw [e2] at h'; cases h'
    | err x => rw [e] at h; cases h
    | panic => rw [e] at h; cases h
end

/-! ### `encode_token` -/

theorem token_enough (prof : Profile) (beyond : ∀ α, Res α) (N : Nat) : ∀ (n : Nat) (t : Token), tokenDepth t ≤ n → n ≤ N →
    encodeTokenWithin prof beyond N n t = encodeToken prof t
  | 0, t, h, _ => by have := tokenDepth_pos t; omega
  | n + 1, t, h, hN => by
    have hall : ∀ ts, tokenDepthAll ts ≤ n → collectRes (encodeTokenWithin prof beyond N n) ts = encodeTokens prof ts := by
      intro ts hts
      rw [collectRes_congr ts fun u hu => token_enough prof beyond N n u (Nat.le_trans (tokenDepth_mem hu) hts) (by omega)]
      exact collectRes_tokens prof ts
    cases t with
    | array ts =>
      simp only [tokenDepth] at h
      rw [encodeToken]; simp only [encodeTokenWithin]; rw [hall ts (by omega)]
    | fixedArray ts =>
      have hd := dynamic_enough beyond N (.fixedArray ts) (by omega)
      simp only [tokenDepth] at h
      rw [encodeToken]; simp only [encodeTokenWithin]; rw [hall ts (by omega), hd]
      cases e : encodeTokens prof ts with
      | ok ms =>
        have hm := medDepth_tokens prof ts ms e
        show (if Token.isDynamic (.fixedArray ts) then Res.ok (Mediate.prefixedArray ms)
          else headTailWith prof beyond N (tailWithin prof beyond N N) ms >>= fun ws => .ok (.raw ws)) = _
        rw [headTail_enough prof beyond N _ ms (by omega) fun u hu =>
          tail_enough prof beyond N N u (Nat.le_trans (medDepth_mem hu) (by omega)) (Nat.le_refl _)]
        simp only [Token.isDynamic]
        rfl
      | err x => rfl
      | panic => rfl
    | tuple ts =>
      have hd := dynamic_enough beyond N (.tuple ts) (by omega)
      simp only [tokenDepth] at h
      rw [encodeToken]; simp only [encodeTokenWithin]; rw [hall ts (by omega), hd]
      simp only [Token.isDynamic]
      rfl
    | _ => simp only [encodeTokenWithin]

/-- `encode` with enough room -/
theorem encode_enough (prof : Profile) (beyond : ∀ α, Res α) (n : Nat) (ts : List Token) (h : tokenDepthAll ts ≤ n) :
    encodeWithin prof beyond n ts = encode prof ts := by
  unfold encodeWithin encode
  rw [collectRes_congr ts fun u hu => token_enough prof beyond n n u (Nat.le_trans (tokenDepth_mem hu) h) (Nat.le_refl _),
    collectRes_tokens]
  cases e : encodeTokens prof ts with
  | ok ms =>
    have hm := medDepth_tokens prof ts ms e
    show (headTailWith prof beyond n (tailWithin prof beyond n n) ms >>= _) = _
    rw [headTail_enough prof beyond n _ ms (by omega) fun u hu =>
      tail_enough prof beyond n n u (Nat.le_trans (medDepth_mem hu) (by omega)) (Nat.le_refl _)]
    rfl
  | err x => rfl
  | panic => rfl

/-! ### too little room for `encode` -/

/-- a call too many ends the run -/
def stop : ∀ α, Res α := fun _ => .panic

theorem noErr_u32add (prof : Profile) (a b : Nat) : NoErr (u32add prof a b) := by
  intro e; unfold u32add machine; split <;> simp <;> (cases prof <;> simp)

theorem noErr_u32mul (prof : Profile) (a b : Nat) : NoErr (u32mul prof a b) := by
  intro e; unfold u32mul machine; split <;> simp <;> (cases prof <;> simp)

theorem noErr_dynamic : ∀ (n : Nat) (t : Token), NoErr (dynamicWithin stop n t)
  | 0, _ => by simp only [dynamicWithin]; exact noErr_panic
  | n + 1, t => by
    cases t with
    | fixedArray ts => simp only [dynamicWithin]; exact noErr_anyRes (noErr_dynamic n) ts
    | tuple ts => simp only [dynamicWithin]; exact noErr_anyRes (noErr_dynamic n) ts
    | _ => simp only [dynamicWithin]; exact noErr_ok _

theorem noErr_sumHeads {prof : Profile} {f : Mediate → Res Nat} (hf : ∀ m, NoErr (f m)) : ∀ (ms : List Mediate) (acc : Nat),
    NoErr (sumHeadsWith prof f ms acc)
  | [], _ => noErr_ok _
  | m :: ms, _ => noErr_bind (hf m) fun _ => noErr_bind (noErr_u32add _ _ _) fun _ => noErr_sumHeads hf ms _

theorem noErr_headLen (prof : Profile) : ∀ (n : Nat) (m : Mediate), NoErr (headLenWithin prof stop n m)
  | 0, _ => by simp only [headLenWithin]; exact noErr_panic
  | n + 1, m => by
    cases m with
    | rawTuple ms => simp only [headLenWithin]; exact noErr_sumHeads (noErr_headLen prof n) ms _
    | raw ws => simp only [headLenWithin]; exact noErr_u32mul _ _ _
    | _ => simp only [headLenWithin]; exact noErr_ok _

theorem noErr_sumLens {prof : Profile} {f g : Mediate → Res Nat} (hf : ∀ m, NoErr (f m)) (hg : ∀ m, NoErr (g m)) :
    ∀ (ms : List Mediate) (acc : Nat), NoErr (sumLensWith prof f g ms acc)
  | [], _ => noErr_ok _
  | m :: ms, _ => noErr_bind (hf m) fun _ => noErr_bind (noErr_u32add _ _ _) fun _ => noErr_bind (hg m) fun _ =>
      noErr_bind (noErr_u32add _ _ _) fun _ => noErr_sumLens hf hg ms _

theorem noErr_tailLen (prof : Profile) {f : Mediate → Res Nat} (hf : ∀ m, NoErr (f m)) : ∀ (n : Nat) (m : Mediate),
    NoErr (tailLenWithin prof stop f n m)
  | 0, _ => by simp only [tailLenWithin]; exact noErr_panic
  | n + 1, m => by
    cases m with
    | prefixed ws => simp only [tailLenWithin]; exact noErr_u32mul _ _ _
    | prefixedArray ms => simp only [tailLenWithin]; exact noErr_sumLens hf (noErr_tailLen prof hf n) ms _
    | prefixedArrayWithLength ms => simp only [tailLenWithin]; exact noErr_sumLens hf (noErr_tailLen prof hf n) ms _
    | prefixedTuple ms => simp only [tailLenWithin]; exact noErr_sumLens hf (noErr_tailLen prof hf n) ms _
    | _ => simp only [tailLenWithin]; exact noErr_ok _

theorem noErr_head : ∀ (n : Nat) (m : Mediate) (off : Nat), NoErr (headWithin stop n m off)
  | 0, _, _ => by simp only [headWithin]; exact noErr_panic
  | n + 1, m, off => by
    cases m with
    | rawTuple ms => simp only [headWithin]; exact noErr_map _ (noErr_collectRes (fun m => noErr_head n m 0) ms)
    | _ => simp only [headWithin]; exact noErr_ok _

theorem noErr_heads {prof : Profile} {f : Mediate → Res Nat} {g : Mediate → Nat → Res (List Word)} (hf : ∀ m, NoErr (f m))
    (hg : ∀ m o, NoErr (g m o)) : ∀ (ms : List Mediate) (acc : List Word) (off : Nat), NoErr (headsWith prof f g ms acc off)
  | [], _, _ => noErr_ok _
  | m :: ms, _, off => noErr_bind (hg m off) fun _ => noErr_bind (hf m) fun _ => noErr_bind (noErr_u32add _ _ _) fun _ =>
      noErr_heads hf hg ms _ _

theorem noErr_headTail (prof : Profile) (n : Nat) {tail : Mediate → Res (List Word)} (ht : ∀ m, NoErr (tail m))
    (ms : List Mediate) : NoErr (headTailWith prof stop n tail ms) :=
  noErr_bind (noErr_sumHeads (noErr_headLen prof n) ms _) fun _ =>
    noErr_bind (noErr_heads (noErr_tailLen prof (noErr_headLen prof n) n) (noErr_head n) ms _ _) fun _ =>
      noErr_bind (noErr_collectRes ht ms) fun _ => noErr_ok _

theorem noErr_tail (prof : Profile) (N : Nat) : ∀ (n : Nat) (m : Mediate), NoErr (tailWithin prof stop N n m)
  | 0, _ => by simp only [tailWithin]; exact noErr_panic
  | n + 1, m => by
    cases m with
    | prefixedArray ms => simp only [tailWithin]; exact noErr_headTail prof N (noErr_tail prof N n) ms
    | prefixedArrayWithLength ms =>
      simp only [tailWithin]; exact noErr_bind (noErr_headTail prof N (noErr_tail prof N n) ms) fun _ => noErr_ok _
    | prefixedTuple ms => simp only [tailWithin]; exact noErr_headTail prof N (noErr_tail prof N n) ms
    | _ => simp only [tailWithin]; exact noErr_ok _

theorem noErr_token (prof : Profile) (N : Nat) : ∀ (n : Nat) (t : Token), NoErr (encodeTokenWithin prof stop N n t)
  | 0, _ => by simp only [encodeTokenWithin]; exact noErr_panic
  | n + 1, t => by
    cases t with
    | array ts =>
      simp only [encodeTokenWithin]; exact noErr_bind (noErr_collectRes (noErr_token prof N n) ts) fun _ => noErr_ok _
    | fixedArray ts =>
      simp only [encodeTokenWithin]
      refine noErr_bind (noErr_collectRes (noErr_token prof N n) ts) fun ms => noErr_bind (noErr_dynamic N _) fun d => ?_
      cases d with
      | true => exact noErr_ok _
      | false => exact noErr_bind (noErr_headTail prof N (noErr_tail prof N N) ms) fun _ => noErr_ok _
    | tuple ts =>
      simp only [encodeTokenWithin]
      refine noErr_bind (noErr_dynamic N _) fun d => noErr_bind (noErr_collectRes (noErr_token prof N n) ts) fun ms => ?_
      cases d <;> exact noErr_ok _
    | _ => simp only [encodeTokenWithin, encodeToken]; exact noErr_ok _

theorem token_stops (prof : Profile) (N : Nat) : ∀ (n : Nat) (t : Token), n < tokenDepth t →
    encodeTokenWithin prof stop N n t = .panic
  | 0, _, _ => by simp only [encodeTokenWithin]; rfl
  | n + 1, t, h => by
    have hall : ∀ ts, n < tokenDepthAll ts → collectRes (encodeTokenWithin prof stop N n) ts = .panic := by
      intro ts hts
      obtain ⟨u, hu, hd⟩ := tokenDepth_reached hts
      exact collectRes_panic (noErr_token prof N n) (token_stops prof N n u hd) ts hu
    cases t with
    | array ts => simp only [tokenDepth] at h; simp only [encodeTokenWithin]; rw [hall ts (by omega)]; rfl
    | fixedArray ts => simp only [tokenDepth] at h; simp only [encodeTokenWithin]; rw [hall ts (by omega)]; rfl
    | tuple ts =>
      simp only [tokenDepth] at h; simp only [encodeTokenWithin]
      exact bind_panic (noErr_dynamic N _) fun d => by rw [hall ts (by omega)]; rfl
    | _ => simp only [tokenDepth] at h; omega

theorem encode_stops (prof : Profile) (n : Nat) (ts : List Token) (h : n < tokenDepthAll ts) :
    encodeWithin prof stop n ts = .panic := by
  unfold encodeWithin
  obtain ⟨u, hu, hd⟩ := tokenDepth_reached h
  rw [collectRes_panic (noErr_token prof n n) (token_stops prof n n u hd) ts hu]
  rfl

/-! ### `type_check` -/

theorem allCheck_congr {rec : Token → ParamType → Res Bool} {p : ParamType} : ∀ (ts : List Token),
    (∀ t ∈ ts, rec t p = Token.typeCheck t p) → allCheckWith rec ts p = Token.allCheck ts p
  | [], _ => by simp only [allCheckWith, Token.allCheck]
  | t :: ts, h => by
    simp only [allCheckWith, Token.allCheck]
    rw [h t (by simp), allCheck_congr ts fun u hu => h u (by simp [hu])]

theorem tupleCheck_congr {rec : Token → ParamType → Res Bool} : ∀ (ts : List Token) (ps : List ParamType),
    (∀ t ∈ ts, ∀ p ∈ ps, rec t p = Token.typeCheck t p) → tupleCheckWith rec ts ps = Token.tupleCheck ts ps
  | [], _, _ => by simp only [tupleCheckWith, Token.tupleCheck]
  | _ :: _, [], _ => by simp only [tupleCheckWith, Token.tupleCheck]
  | t :: ts, p :: ps, h => by
    simp only [tupleCheckWith, Token.tupleCheck]
    rw [h t (by simp) p (by simp), tupleCheck_congr ts ps fun u hu q hq => h u (by simp [hu]) q (by simp [hq])]

theorem typeCheck_enough (beyond : ∀ α, Res α) : ∀ (n : Nat) (t : Token) (p : ParamType), min (tokenDepth t) (storeys p) ≤ n →
    typeCheckWithin beyond n t p = Token.typeCheck t p
  | 0, t, p, h => by have := tokenDepth_pos t; have := storeys_pos p; omega
  | n + 1, t, p, h => by
    cases t with
    | array ts =>
      cases p with
      | array q =>
        simp only [typeCheckWithin, Token.typeCheck]
        simp only [tokenDepth, storeys] at h
        exact allCheck_congr ts fun u hu => typeCheck_enough beyond n u q (by have := tokenDepth_mem hu; omega)
      | _ => simp only [typeCheckWithin, Token.typeCheck]
    | fixedArray ts =>
      cases p with
      | fixedArray q k =>
        simp only [typeCheckWithin, Token.typeCheck]
        simp only [tokenDepth, storeys] at h
        rw [allCheck_congr ts fun u hu => typeCheck_enough beyond n u q (by have := tokenDepth_mem hu; omega)]
      | _ => simp only [typeCheckWithin, Token.typeCheck]
    | tuple ts =>
      cases p with
      | tuple qs =>
        simp only [typeCheckWithin, Token.typeCheck]
        simp only [tokenDepth, storeys] at h
        exact tupleCheck_congr ts qs fun u hu q hq => typeCheck_enough beyond n u q
          (by have := tokenDepth_mem hu; have := storeys_mem hq; omega)
      | _ => simp only [typeCheckWithin, Token.typeCheck]
    | _ => simp only [typeCheckWithin]

theorem allCheck_true {p : ParamType} : ∀ (ts : List Token), Token.allCheck ts p = .ok true → ∀ t ∈ ts, Token.typeCheck t p = .ok true
  | [], _, _, h => by cases h
  | t :: ts, h, u, hu => by
    simp only [Token.allCheck] at h
    cases e : Token.typeCheck t p with
    | ok b =>
      rw [e] at h
      cases b with
      | true =>
        rcases List.mem_cons.1 hu with rfl | hu
        · exact e
        · exact allCheck_true ts h u hu
      | false => cases (show Res.ok false = Res.ok true from h)
    | err x => rw [e] at h; cases h
    | panic => rw [e] at h; cases h

theorem allCheck_stops {f g : Token → ParamType → Res Bool} {p : ParamType} : ∀ (ts : List Token),
    (∀ t ∈ ts, g t p = .ok true ∨ g t p = .panic) → (∃ t ∈ ts, g t p = .panic) → allCheckWith g ts p = .panic
  | [], _, h => by obtain ⟨t, ht, _⟩ := h; cases ht
  | t :: ts, h, hp => by
    simp only [allCheckWith]
    rcases h t (by simp) with e | e
    · rw [e]
      obtain ⟨u, hu, hup⟩ := hp
      rcases List.mem_cons.1 hu with rfl | hu
      · rw [e] at hup; cases hup
      · exact allCheck_stops (f := f) ts (fun v hv => h v (by simp [hv])) ⟨u, hu, hup⟩
    · rw [e]; rfl

/-- when a value is of the type, `type_check` with room for `n` calls says so or stops, depending on how deep the value is nested -/
theorem typeCheck_found : ∀ (n : Nat) (t : Token) (p : ParamType), Token.typeCheck t p = .ok true → n < tokenDepth t →
    typeCheckWithin stop n t p = .panic
  | 0, _, _, _, _ => by simp only [typeCheckWithin]; rfl
  | n + 1, t, p, h, hn => by
    have one : ∀ (u : Token) (q : ParamType), Token.typeCheck u q = .ok true →
        typeCheckWithin stop n u q = .ok true ∨ typeCheckWithin stop n u q = .panic := by
      intro u q hu
      by_cases hd : n < tokenDepth u
      · exact .inr (typeCheck_found n u q hu hd)
      · exact .inl (by rw [typeCheck_enough stop n u q (by omega), hu])
    have hall : ∀ (ts : List Token) (q : ParamType), Token.allCheck ts q = .ok true → n < tokenDepthAll ts →
        allCheckWith (typeCheckWithin stop n) ts q = .panic := by
      intro ts q hts hd
      have ht := allCheck_true ts hts
      obtain ⟨u, hu, hud⟩ := tokenDepth_reached hd
      exact allCheck_stops (f := Token.typeCheck) ts (fun v hv => one v q (ht v hv))
        ⟨u, hu, typeCheck_found n u q (ht u hu) hud⟩
    have htup : ∀ (ts : List Token) (qs : List ParamType), Token.tupleCheck ts qs = .ok true → n < tokenDepthAll ts →
        tupleCheckWith (typeCheckWithin stop n) ts qs = .panic := by
      intro ts
      induction ts with
      | nil => intro qs _ hd; simp [tokenDepthAll] at hd
      | cons u us ih =>
        intro qs hts hd
        cases qs with
        | nil => simp [Token.tupleCheck] at hts
        | cons q qs =>
          simp only [Token.tupleCheck] at hts
          cases e : Token.typeCheck u q with
          | ok b =>
            rw [e] at hts
            cases b with
            | false => cases (show Res.ok false = Res.ok true from hts)
            | true =>
              have hts' : Token.tupleCheck us qs = .ok true := hts
              simp only [tupleCheckWith]
              by_cases hu : n < tokenDepth u
              · rw [typeCheck_found n u q e hu]; rfl
              · rw [typeCheck_enough stop n u q (by omega), e]
                simp only [tokenDepthAll] at hd
                exact ih qs hts' (by omega)
          | err x => rw [e] at hts; cases hts
          | panic => rw [e] at hts; cases hts
    cases t with
    | array ts =>
      cases p with
      | array q =>
        simp only [Token.typeCheck] at h; simp only [tokenDepth] at hn
        simp only [typeCheckWithin]; exact hall ts q h (by omega)
      | _ => simp [Token.typeCheck] at h
    | fixedArray ts =>
      cases p with
      | fixedArray q k =>
        simp only [Token.typeCheck] at h; simp only [tokenDepth] at hn
        simp only [typeCheckWithin]
        by_cases hk : (k == ts.length) = true
        · rw [if_pos hk] at h ⊢; exact hall ts q h (by omega)
        · rw [if_neg hk] at h; cases h
      | _ => simp [Token.typeCheck] at h
    | tuple ts =>
      cases p with
      | tuple qs =>
        simp only [Token.typeCheck] at h; simp only [tokenDepth] at hn
        simp only [typeCheckWithin]; exact htup ts qs h (by omega)
      | _ => simp [Token.typeCheck] at h
    | _ => simp only [tokenDepth] at hn; omega

/-! ### texts -/

theorem collectRes_display : ∀ (ts : List Token), collectRes (fun t => .ok t.display) ts = .ok (Token.displayAll ts)
  | [] => by simp [collectRes, Token.displayAll]
  | t :: ts => by
    simp only [collectRes, Token.displayAll]; rw [collectRes_display ts]; rfl

theorem display_enough (beyond : ∀ α, Res α) : ∀ (n : Nat) (t : Token), tokenDepth t ≤ n → displayWithin beyond n t = .ok t.display
  | 0, t, h => by have := tokenDepth_pos t; omega
  | n + 1, t, h => by
    have hall : ∀ ts, tokenDepthAll ts ≤ n → collectRes (displayWithin beyond n) ts = .ok (Token.displayAll ts) := by
      intro ts hts
      rw [collectRes_congr (g := fun t => .ok t.display) ts fun u hu =>
        display_enough beyond n u (Nat.le_trans (tokenDepth_mem hu) hts), collectRes_display]
    cases t with
    | array ts => simp only [tokenDepth] at h; simp only [displayWithin, Token.display]; rw [hall ts (by omega)]; rfl
    | fixedArray ts => simp only [tokenDepth] at h; simp only [displayWithin, Token.display]; rw [hall ts (by omega)]; rfl
    | tuple ts => simp only [tokenDepth] at h; simp only [displayWithin, Token.display]; rw [hall ts (by omega)]; rfl
    | _ => simp only [displayWithin]

theorem noErr_display : ∀ (n : Nat) (t : Token), NoErr (displayWithin stop n t)
  | 0, _ => by simp only [displayWithin]; exact noErr_panic
  | n + 1, t => by
    cases t with
    | array ts => simp only [displayWithin]; exact noErr_bind (noErr_collectRes (noErr_display n) ts) fun _ => noErr_ok _
    | fixedArray ts => simp only [displayWithin]; exact noErr_bind (noErr_collectRes (noErr_display n) ts) fun _ => noErr_ok _
    | tuple ts => simp only [displayWithin]; exact noErr_bind (noErr_collectRes (noErr_display n) ts) fun _ => noErr_ok _
    | _ => simp only [displayWithin]; exact noErr_ok _

theorem display_stops : ∀ (n : Nat) (t : Token), n < tokenDepth t → displayWithin stop n t = .panic
  | 0, _, _ => by simp only [displayWithin]; rfl
  | n + 1, t, h => by
    have hall : ∀ ts, n < tokenDepthAll ts → collectRes (displayWithin stop n) ts = .panic := by
      intro ts hts
      obtain ⟨u, hu, hd⟩ := tokenDepth_reached hts
      exact collectRes_panic (noErr_display n) (display_stops n u hd) ts hu
    cases t with
    | array ts => simp only [tokenDepth] at h; simp only [displayWithin]; rw [hall ts (by omega)]; rfl
    | fixedArray ts => simp only [tokenDepth] at h; simp only [displayWithin]; rw [hall ts (by omega)]; rfl
    | tuple ts => simp only [tokenDepth] at h; simp only [displayWithin]; rw [hall ts (by omega)]; rfl
    | _ => simp only [tokenDepth] at h; omega

theorem collectRes_write (c : Bool) : ∀ (ts : List ParamType), collectRes (fun t => .ok (writeForAbi c t)) ts = .ok (writeAll c ts)
  | [] => by simp [collectRes, writeAll]
  | t :: ts => by
    simp only [collectRes, writeAll]; rw [collectRes_write c ts]; rfl

theorem write_enough (beyond : ∀ α, Res α) : ∀ (n : Nat) (t : ParamType), storeys t ≤ n →
    writeWithin beyond true n t = .ok (writeForAbi true t)
  | 0, t, h => by have := storeys_pos t; omega
  | n + 1, t, h => by
    cases t with
    | array u =>
      simp only [storeys] at h; simp only [writeWithin, writeForAbi]; rw [write_enough beyond n u (by omega)]; rfl
    | fixedArray u k =>
      simp only [storeys] at h; simp only [writeWithin, writeForAbi]; rw [write_enough beyond n u (by omega)]; rfl
    | tuple ts =>
      simp only [storeys] at h; simp only [writeWithin, writeForAbi, if_true]
      rw [collectRes_congr (g := fun t => .ok (writeForAbi true t)) ts fun u hu =>
        write_enough beyond n u (by have := storeys_mem hu; omega), collectRes_write]
      rfl
    | _ => simp only [writeWithin]

theorem noErr_write (c : Bool) : ∀ (n : Nat) (t : ParamType), NoErr (writeWithin stop c n t)
  | 0, _ => by simp only [writeWithin]; exact noErr_panic
  | n + 1, t => by
    cases t with
    | array u => simp only [writeWithin]; exact noErr_bind (noErr_write c n u) fun _ => noErr_ok _
    | fixedArray u k => simp only [writeWithin]; exact noErr_bind (noErr_write c n u) fun _ => noErr_ok _
    | tuple ts =>
      simp only [writeWithin]
      split
      · exact noErr_bind (noErr_collectRes (noErr_write c n) ts) fun _ => noErr_ok _
      · exact noErr_ok _
    | _ => simp only [writeWithin]; exact noErr_ok _

theorem write_stops : ∀ (n : Nat) (t : ParamType), n < storeys t → writeWithin stop true n t = .panic
  | 0, _, _ => by simp only [writeWithin]; rfl
  | n + 1, t, h => by
    cases t with
    | array u => simp only [storeys] at h; simp only [writeWithin]; rw [write_stops n u (by omega)]; rfl
    | fixedArray u k => simp only [storeys] at h; simp only [writeWithin]; rw [write_stops n u (by omega)]; rfl
    | tuple ts =>
      simp only [storeys] at h; simp only [writeWithin, if_true]
      obtain ⟨u, hu, hd⟩ := storeys_reached (ts := ts) (n := n) (by omega)
      rw [collectRes_panic (noErr_write true n) (write_stops n u hd) ts hu]; rfl
    | _ => simp only [storeys] at h; omega

theorem brackets_pos : ∀ (t : ParamType), 1 ≤ brackets t := by
  intro t; cases t <;> simp [brackets]

theorem write_short_enough (beyond : ∀ α, Res α) : ∀ (n : Nat) (t : ParamType), brackets t ≤ n →
    writeWithin beyond false n t = .ok (writeForAbi false t)
  | 0, t, h => by have := brackets_pos t; omega
  | n + 1, t, h => by
    cases t with
    | array u =>
      simp only [brackets] at h; simp only [writeWithin, writeForAbi]; rw [write_short_enough beyond n u (by omega)]; rfl
    | fixedArray u k =>
      simp only [brackets] at h; simp only [writeWithin, writeForAbi]; rw [write_short_enough beyond n u (by omega)]; rfl
    | tuple ts => simp [writeWithin, writeForAbi]
    | _ => simp only [writeWithin]

theorem write_short_stops : ∀ (n : Nat) (t : ParamType), n < brackets t → writeWithin stop false n t = .panic
  | 0, _, _ => by simp only [writeWithin]; rfl
  | n + 1, t, h => by
    cases t with
    | array u => simp only [brackets] at h; simp only [writeWithin]; rw [write_short_stops n u (by omega)]; rfl
    | fixedArray u k => simp only [brackets] at h; simp only [writeWithin]; rw [write_short_stops n u (by omega)]; rfl
    | _ => simp only [brackets] at h; omega

end Ethabi.CallDepth

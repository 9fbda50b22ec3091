import Verif.Proofs.JsonValue
/-!
# Loading contracts from JSON texts
-/
namespace Ethabi.JsonText
open JsonGrammar

theorem skipWs_all {b : Str} (hb : Blank b) : skipWs b = [] := skipWs_nil.2 hb

theorem value_sound {fits : Str → Bool} {n d : Nat} {s r : Str} {j : Json} (h : value fits n (d + 1) s = some (j, r)) :
    ∃ a v, Blank a ∧ Value fits d j v ∧ s = a ++ (v ++ r) := (sound fits n).1 d s j r h

theorem parse_iff (fits : Str → Bool) (s : Str) (j : Json) : parse fits s = some j ↔ Text fits j s := by
  unfold parse
  constructor
  · intro h
    split at h
    · rename_i j' r hv
      split at h
      · rename_i hr
        cases h
        obtain ⟨a, v, ha, h1, rfl⟩ := value_sound hv
        exact ⟨a, v, r, ha, h1, skipWs_nil.1 hr, rfl⟩
      · cases h
    · cases h
  · rintro ⟨a, v, b, ha, hv, hb, rfl⟩
    have hs : Stops b := by
      intro x u e
      subst e
      rcases hb x List.mem_cons_self with rfl | rfl | rfl | rfl <;> decide
    rw [value_complete hv _ a b ha (.inl hs) (by simp [fuel]; omega)]
    dsimp only
    rw [if_pos (skipWs_all hb)]

/-- the loop on a list of elements: what the elements give, one after the other -/
theorem loadLoop_items {fits : Str → Bool} {xs : List Json} {t : Str} (h : Items fits 126 xs t) :
    ∀ (n : Nat) (r : Str) (c : Contract), t.length ≤ n →
      loadLoop fits n (t ++ ']' :: r) c = (deOperations xs c).bind fun c' => .ok (c', r) := by
  generalize hd : 126 = d at h
  induction xs generalizing t with
  | nil => cases h
  | cons x xs ih =>
    intro n r c hn
    cases h with
    | one ha h hb =>
      rename_i a s b
      subst hd
      obtain ⟨_, _, hv, _, _⟩ := value_head h
      obtain ⟨n, rfl⟩ : ∃ m, n = m + 1 := ⟨n - 1, by rw [hv] at hn; simp at hn; omega⟩
      have e : a ++ (s ++ b) ++ ']' :: r = a ++ (s ++ (b ++ ']' :: r)) := by simp
      rw [e, loadLoop, value_complete h _ a (b ++ ']' :: r) ha (.inl <| stops_blank hb (.inr (.inl rfl))) (by simp [fuel]; omega)]
      dsimp only
      rw [skipWs_blank hb (tight_cons (by decide))]
      rw [deOperations]
      cases deOperation x with
      | err e => rfl
      | panic => rfl
      | ok op => rfl
    | more ha h hb ht =>
      rename_i a s b t
      obtain ⟨n, rfl⟩ : ∃ m, n = m + 1 := ⟨n - 1, by simp at hn; omega⟩
      have e : a ++ (s ++ (b ++ ',' :: t)) ++ ']' :: r = a ++ (s ++ (b ++ ',' :: (t ++ ']' :: r))) := by simp
      rw [e, loadLoop]
      subst hd
      rw [value_complete h _ a (b ++ ',' :: (t ++ ']' :: r)) ha (.inl <| stops_blank hb (.inl rfl)) (by simp [fuel]; omega)]
      dsimp only
      rw [skipWs_blank hb (tight_cons (by decide))]
      rw [deOperations]
      cases deOperation x with
      | err e => rfl
      | panic => rfl
      | ok op => exact ih ht n r (c.add op) (by simp at hn; omega)

theorem loadLoop_ok {fits : Str → Bool} : ∀ {n : Nat} {s r : Str} {c c' : Contract}, loadLoop fits n s c = .ok (c', r) →
    ∃ xs t, Items fits 126 xs t ∧ s = t ++ ']' :: r ∧ deOperations xs c = .ok c'
  | 0, _, _, _, _, h => by cases h
  | n + 1, s, r, c, c', h => by
      rw [loadLoop] at h
      split at h
      · cases h
      rename_i j s1 hv
      obtain ⟨a, v, ha, h1, rfl⟩ := value_sound hv
      obtain ⟨b, hb, eb⟩ := skipWs_split s1
      cases hop : deOperation j with
      | err e => rw [hop] at h; cases h
      | panic => rw [hop] at h; cases h
      | ok op =>
        rw [hop] at h
        replace h : (match skipWs s1 with
          | [] => .err .serdeJson
          | d :: s =>
              if d = ',' then loadLoop fits n s (c.add op)
              else if d = ']' then .ok (c.add op, s) else .err .serdeJson) = Res.ok (c', r) := h
        split at h
        · cases h
        rename_i d s2 hs
        split at h
        · rename_i hd
          subst hd
          obtain ⟨xs, t, h2, rfl, h3⟩ := loadLoop_ok h
          refine ⟨j :: xs, _, .more ha h1 hb h2, by rw [eb, hs]; simp, ?_⟩
          rw [deOperations, hop]; exact h3
        · split at h
          · rename_i hd
            subst hd
            cases h
            refine ⟨[j], _, .one ha h1 hb, by rw [eb, hs]; simp, ?_⟩
            rw [deOperations, hop]; rfl
          · cases h

/-- on a JSON text: the contract of the value -/
theorem load_text {fits : Str → Bool} {j : Json} {s : Str} (h : Text fits j s) : load fits s = deContract j := by
  obtain ⟨a, v, b, ha, hv, hb, rfl⟩ := h
  have other : ∀ c t, v = c :: t → isWs c = false → c ≠ '[' → load fits (a ++ (v ++ b)) = .err .serdeJson := by
    rintro c t rfl hc hn
    rw [load, List.cons_append, skipWs_blank ha (tight_cons hc)]
    dsimp only
    rw [if_pos hn]
  cases hv with
  | null => exact other _ _ rfl (by decide) (by decide)
  | true => exact other _ _ rfl (by decide) (by decide)
  | false => exact other _ _ rfl (by decide) (by decide)
  | number h hf =>
    obtain ⟨c, u, hu, hc⟩ := number_head h
    have key : ∀ c ∈ "-0123456789".toList, isWs c = false ∧ c ≠ '[' := by decide
    exact other c u hu (key c hc).1 (key c hc).2
  | string h => exact other _ _ rfl (by decide) (by decide)
  | noEntries h => exact other _ _ rfl (by decide) (by decide)
  | object h => exact other _ _ rfl (by decide) (by decide)
  | noItems h =>
    rename_i w
    have e : '[' :: (w ++ [']']) ++ b = '[' :: (w ++ ']' :: b) := by simp
    rw [e, load, skipWs_blank ha (tight_cons (by decide))]
    dsimp only
    rw [if_neg (by decide), skipWs_blank h (tight_cons (by decide)), List.head?_cons, if_pos rfl]
    show (if skipWs b = [] then _ else _) = _
    rw [if_pos (skipWs_all hb)]; rfl
  | array h =>
    rename_i xs s
    have e : '[' :: (s ++ [']']) ++ b = '[' :: (s ++ ']' :: b) := by simp
    rw [e, load, skipWs_blank ha (tight_cons (by decide))]
    dsimp only
    obtain ⟨w, c, t, hw, hs, h1, h2⟩ := items_head h
    have hw' : skipWs (s ++ ']' :: b) = c :: (t ++ ']' :: b) := by
      rw [hs, List.append_assoc, List.cons_append, skipWs_blank hw (tight_cons h1)]
    rw [if_neg (by decide), hw', if_neg (by simpa using h2), loadLoop_items h _ b {} (by simp)]
    show _ = deOperations xs {}
    cases deOperations xs {} with
    | err e => rfl
    | panic => rfl
    | ok c =>
      show (if skipWs b = [] then _ else _) = _
      rw [if_pos (skipWs_all hb)]

theorem load_ok {fits : Str → Bool} {s : Str} {c : Contract} (h : load fits s = .ok c) :
    ∃ j, Text fits j s ∧ deContract j = .ok c := by
  obtain ⟨a, ha, ea⟩ := skipWs_split s
  rw [load] at h
  split at h
  · cases h
  rename_i d s1 hs
  split at h
  · cases h
  rename_i hd
  have hd : d = '[' := Decidable.not_not.1 hd
  subst hd
  rw [hs] at ea
  split at h
  · rename_i hh
    obtain ⟨r, hr⟩ := head_tail hh
    obtain ⟨w, hw, ew⟩ := skipWs_split s1
    rw [hr] at h ew
    replace h : (if skipWs r = [] then Res.ok {} else .err .serdeJson) = .ok c := h
    split at h
    · rename_i hb
      cases h
      exact ⟨.arr [], ⟨a, _, r, ha, .noItems hw, skipWs_nil.1 hb, by rw [ea, ew]; simp⟩, rfl⟩
    · cases h
  · cases hl : loadLoop fits s1.length s1 {} with
    | err e => rw [hl] at h; cases h
    | panic => rw [hl] at h; cases h
    | ok p =>
      obtain ⟨c', r⟩ := p
      rw [hl] at h
      replace h : (if skipWs r = [] then Res.ok c' else .err .serdeJson) = .ok c := h
      split at h
      · rename_i hb
        cases h
        obtain ⟨xs, t, h1, h2, h3⟩ := loadLoop_ok hl
        exact ⟨.arr xs, ⟨a, _, r, ha, .array h1, skipWs_nil.1 hb, by rw [ea, h2]; simp⟩, h3⟩
      · cases h

theorem loadLoop_panic {fits : Str → Bool} : ∀ {n : Nat} {s : Str} {c : Contract}, loadLoop fits n s c = .panic →
    ∃ js t j a v r, Begun fits js t ∧ Blank a ∧ Value fits 126 j v ∧ s = t ++ (a ++ (v ++ r)) ∧
      (∀ x ∈ js, ∃ op, deOperation x = .ok op) ∧ deOperation j = .panic
  | 0, _, _, h => by cases h
  | n + 1, s, c, h => by
      rw [loadLoop] at h
      split at h
      · cases h
      rename_i j s1 hv
      obtain ⟨a, v, ha, h1, rfl⟩ := value_sound hv
      obtain ⟨b, hb, eb⟩ := skipWs_split s1
      cases hop : deOperation j with
      | err e => rw [hop] at h; cases h
      | panic => exact ⟨[], [], j, a, v, s1, .nil, ha, h1, rfl, fun _ h => (by cases h), hop⟩
      | ok op =>
        rw [hop] at h
        replace h : (match skipWs s1 with
          | [] => .err .serdeJson
          | d :: s =>
              if d = ',' then loadLoop fits n s (c.add op)
              else if d = ']' then .ok (c.add op, s) else .err .serdeJson) = (Res.panic : Res (Contract × Str)) := h
        split at h
        · cases h
        rename_i d s2 hs
        split at h
        · rename_i hd
          subst hd
          obtain ⟨js, t, j', a', v', r, h2, h3, h4, rfl, h5, h6⟩ := loadLoop_panic h
          refine ⟨j :: js, _, j', a', v', r, .cons ha h1 hb h2, h3, h4, by rw [eb, hs]; simp, ?_, h6⟩
          intro x hx
          rcases List.mem_cons.1 hx with rfl | hx
          · exact ⟨op, hop⟩
          · exact h5 x hx
        · split at h <;> cases h

theorem loadLoop_crash {fits : Str → Bool} {js : List Json} {t : Str} (hb : Begun fits js t) {j : Json} {a v : Str} (ha : Blank a)
    (hv : Value fits 126 j v) (hj : deOperation j = .panic) : ∀ (n : Nat) (r : Str) (c : Contract),
      (∀ x ∈ js, ∃ op, deOperation x = .ok op) → t.length + v.length ≤ n → loadLoop fits n (t ++ (a ++ (v ++ r))) c = .panic := by
  obtain ⟨h0, t0, hv0, _, _⟩ := value_head hv
  have hl : 0 < v.length := by rw [hv0]; simp
  induction hb with
  | nil =>
    intro n r c _ hn
    obtain ⟨n, rfl⟩ : ∃ m, n = m + 1 := ⟨n - 1, by omega⟩
    rw [List.nil_append, loadLoop, value_complete hv _ a r ha (.inr fun m e => by rw [e] at hj; cases hj) (by simp [fuel]; omega)]
    dsimp only
    rw [hj]; rfl
  | cons ha' h hb ht ih =>
    rename_i x xs a' s b t
    intro n r c hops hn
    simp only [List.length_append, List.length_cons] at hn
    obtain ⟨n, rfl⟩ : ∃ m, n = m + 1 := ⟨n - 1, by omega⟩
    obtain ⟨op, hop⟩ := hops x List.mem_cons_self
    have e : a' ++ (s ++ (b ++ ',' :: t)) ++ (a ++ (v ++ r)) = a' ++ (s ++ (b ++ ',' :: (t ++ (a ++ (v ++ r))))) := by simp
    rw [e, loadLoop, value_complete h _ a' (b ++ ',' :: (t ++ (a ++ (v ++ r)))) ha' (.inl <| stops_blank hb (.inl rfl))
      (by simp [fuel]; omega)]
    dsimp only
    rw [hop, skipWs_blank hb (tight_cons (by decide))]
    exact ih n r (c.add op) (fun x hx => hops x (List.mem_cons_of_mem _ hx)) (by omega)

theorem load_panic {fits : Str → Bool} {s : Str} : load fits s = .panic ↔
    ∃ w js t j a v r, Blank w ∧ Begun fits js t ∧ Blank a ∧ Value fits 126 j v ∧ s = w ++ '[' :: (t ++ (a ++ (v ++ r))) ∧
      (∀ x ∈ js, ∃ op, deOperation x = .ok op) ∧ deOperation j = .panic := by
  constructor
  · intro h
    obtain ⟨w, hw, ew⟩ := skipWs_split s
    rw [load] at h
    split at h
    · cases h
    rename_i d s1 hs
    split at h
    · cases h
    rename_i hd
    have hd : d = '[' := Decidable.not_not.1 hd
    subst hd
    rw [hs] at ew
    split at h
    · replace h : (if skipWs (skipWs s1).tail = [] then Res.ok {} else .err .serdeJson) = (.panic : Res Contract) := h
      split at h <;> cases h
    · cases hl : loadLoop fits s1.length s1 {} with
      | err e => rw [hl] at h; cases h
      | panic =>
        obtain ⟨js, t, j, a, v, r, h1, h2, h3, h4, h5, h6⟩ := loadLoop_panic hl
        exact ⟨w, js, t, j, a, v, r, hw, h1, h2, h3, by rw [ew, h4], h5, h6⟩
      | ok p =>
        rw [hl] at h
        replace h : (if skipWs p.2 = [] then Res.ok p.1 else .err .serdeJson) = (.panic : Res Contract) := h
        split at h <;> cases h
  · rintro ⟨w, js, t, j, a, v, r, hw, h1, h2, h3, rfl, h5, h6⟩
    rw [load, skipWs_blank hw (tight_cons (by decide))]
    dsimp only
    have hh : ∃ c u, skipWs (t ++ (a ++ (v ++ r))) = c :: u ∧ c ≠ ']' := by
      obtain ⟨c, u, hv, hc, hn⟩ := value_head h3
      cases h1 with
      | nil => exact ⟨c, u ++ r, by rw [hv]; exact skipWs_blank h2 (tight_cons hc), hn⟩
      | cons ha' h hb ht =>
        obtain ⟨c', u', rfl, hc', hn'⟩ := value_head h
        rename_i b' t'
        refine ⟨c', u' ++ (b' ++ ',' :: t' ++ (a ++ (v ++ r))), ?_, hn'⟩
        rw [List.append_assoc, List.append_assoc, List.cons_append]
        exact skipWs_blank ha' (tight_cons hc')
    obtain ⟨c, u, hs, hn⟩ := hh
    rw [if_neg (by decide), hs, if_neg (by simpa using hn),
      loadLoop_crash h1 h2 h3 h6 _ r {} h5 (by simp only [List.length_append]; omega)]
    rfl

end Ethabi.JsonText

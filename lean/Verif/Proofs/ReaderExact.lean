import Verif.Proofs.TypeText
/-! Which types `Reader::read` can return, and the exact class of types that survive writing and reading. -/
namespace Ethabi
open Spec

/-- the members of a tuple that `read` can return -/
def GoodMember (t : ParamType) : Prop := tupleFree t = true ∨ flatTuple t = true ∨ lastNested t = true

theorem elementary_tupleFree {s : Str} {t : ParamType} (hp : 'p' ∉ s) (h : Elementary s t) : tupleFree t = true := by
  cases h with
  | tuple => exact absurd (by decide) hp
  | _ => rfl

theorem typeText_tupleFree {s : Str} {t : ParamType} (hp : 'p' ∉ s) (h : TypeText s t) : tupleFree t = true := by
  induction h with
  | elementary h => exact elementary_tupleFree hp h
  | array _ ih => exact ih (fun h => hp (by simp [h]))
  | fixedArray _ _ ih => exact ih (fun h => hp (by simp [h]))

theorem read_item {s : Str} {t : ParamType} (ha : ascii s) (hc : ')' ∉ s) (hp : 'p' ∉ s) (h : read s = .ok t) :
    tupleFree t = true :=
  typeText_tupleFree hp (((textOutcome _ s rfl ha hc).1 t).1 h)

/-- a closing parenthesis at depth 0 is an error -/
theorem loop_unbalanced (rec : Str → Res ParamType) (name : Str) : ∀ (cs : Str) (pos : Nat) (st st' : ReadSt),
    '(' ∉ cs → ')' ∈ cs → st.nested = 0 → readLoop rec name cs pos 0 st ≠ .ok st'
  | [], pos, st, st', _, h, _ => by simp at h
  | c :: cs, pos, st, st', h1, h2, hn => by
    have hc : c ≠ '(' := fun e => h1 (by simp [e])
    rw [readLoop.eq_def]
    simp only [if_neg hc]
    by_cases h3 : c = ')'
    · rw [if_pos h3, readClose]
      simp only [hn]
      rw [if_pos (by omega)]
      exact nofun
    · rw [if_neg h3]
      have h2' : ')' ∈ cs := by
        rcases List.mem_cons.1 h2 with h | h
        · exact absurd h.symm h3
        · exact h
      have h1' : '(' ∉ cs := fun h => h1 (by simp [h])
      by_cases h4 : c = ','
      · rw [if_pos h4, readComma]
        intro h
        rw [Res.bind_eq_ok] at h
        obtain ⟨s1, h5, h6⟩ := h
        rw [Res.bind_eq_ok] at h5
        obtain ⟨item, _, h5⟩ := h5
        split at h5
        · cases h5; exact loop_unbalanced rec name cs _ { st with lastItem := pos + 1 } st' h1' h2' hn h6
        · rw [if_neg (by omega), if_neg (by omega)] at h5
          cases h5
          exact loop_unbalanced rec name cs _ _ st' h1' h2' hn h6
      · rw [if_neg h4]
        exact loop_unbalanced rec name cs _ _ st' h1' h2' hn

theorem members_nonempty {ps : List Str} {ts : List ParamType} (h : Members ps ts) (hp : ∃ p ∈ ps, p ≠ []) : ts ≠ [] := by
  induction h with
  | nil => obtain ⟨p, h, _⟩ := hp; simp at h
  | skip _ ih =>
    apply ih
    obtain ⟨p, h, hne⟩ := hp
    rcases List.mem_cons.1 h with rfl | h
    · exact absurd rfl hne
    · exact ⟨p, h, hne⟩
  | cons _ _ _ => simp

theorem members_tupleFree {ps : List Str} {ts : List ParamType} (h : Members ps ts) (hp : ∀ p ∈ ps, 'p' ∉ p) :
    ∀ t ∈ ts, tupleFree t = true := by
  induction h with
  | nil => simp
  | skip _ ih => exact ih (fun p hm => hp p (by simp [hm]))
  | cons ht _ ih =>
    intro t hm
    rcases List.mem_cons.1 hm with rfl | hm
    · exact typeText_tupleFree (hp _ (by simp)) ht
    · exact ih (fun p hq => hp p (by simp [hq])) t hm

theorem nonempty_piece : ∀ {ps : List Str}, (∃ c ∈ commaSeparated ps, c ≠ ',') → ∃ p ∈ ps, p ≠ []
  | [], ⟨c, h, _⟩ => by simp [commaSeparated, List.intercalate] at h
  | [p], ⟨c, h, _⟩ => by
    rw [commaSeparated_one] at h
    exact ⟨p, by simp, by rintro rfl; simp at h⟩
  | p :: q :: ps, ⟨c, h, hne⟩ => by
    rw [commaSeparated_cons] at h
    simp only [List.mem_append, List.mem_cons] at h
    rcases h with h | h | h
    · exact ⟨p, by simp, by rintro rfl; simp at h⟩
    · exact absurd h hne
    · obtain ⟨x, hx, hx'⟩ := nonempty_piece (ps := q :: ps) ⟨c, h, hne⟩
      exact ⟨x, by simp at hx ⊢; tauto, hx'⟩

theorem pieces_mem : ∀ {ps : List Str} {p : Str}, p ∈ ps → ∀ c ∈ p, c ∈ commaSeparated ps
  | [q], p, h, c, hc => by
    rw [commaSeparated_one]
    simp only [List.mem_singleton] at h
    subst h; exact hc
  | q :: r :: ps, p, h, c, hc => by
    rw [commaSeparated_cons]
    simp only [List.mem_append, List.mem_cons]
    rcases List.mem_cons.1 h with rfl | h
    · exact Or.inl hc
    · exact Or.inr (Or.inr (pieces_mem h c hc))

/-- the text from the last opening parenthesis to the current closing one, with an array suffix -/
theorem read_inner : ∀ (n : Nat) (body suf : Str) (t : ParamType), suf.length = n →
    ascii ('(' :: (body ++ ')' :: suf)) → 'p' ∉ body → '(' ∉ body → ')' ∉ suf → (∃ c ∈ body, c ≠ ',') →
    read ('(' :: (body ++ ')' :: suf)) = .ok t → flatTuple t = true ∧ '(' ∉ suf := by
  intro n
  induction n using Nat.strongRecOn with
  | _ n ih =>
  intro body suf t hn ha hp hb hs hne h
  rcases List.eq_nil_or_concat suf with rfl | ⟨suf, c, rfl⟩
  · refine ⟨?_, by simp⟩
    by_cases hc : ')' ∈ body
    · -- unbalanced
      exfalso
      have hl : ('(' :: (body ++ [')'])).getLast? = some ')' := by
        rw [← List.cons_append]; exact List.getLast?_concat ..
      rw [read_eq, readStep, if_pos hl, if_neg (by simp [lit, startsWith]), readLoop_open, Res.bind_eq_ok] at h
      obtain ⟨st', h, _⟩ := h
      -- up to the first `)`
      obtain ⟨b1, b2, rfl, hb1⟩ : ∃ b1 b2, body = b1 ++ ')' :: b2 ∧ ')' ∉ b1 := by
        clear h hl ha hp hb hne
        induction body with
        | nil => simp at hc
        | cons x xs ih2 =>
          by_cases hx : x = ')'
          · exact ⟨[], xs, by simp [hx], by simp⟩
          · have : ')' ∈ xs := by
              rcases List.mem_cons.1 hc with h | h
              · exact absurd h.symm hx
              · exact h
            obtain ⟨b1, b2, h1, h2⟩ := ih2 this
            exact ⟨x :: b1, b2, by rw [h1]; rfl, by
              intro hm
              rcases List.mem_cons.1 hm with h | h
              · exact hx h.symm
              · exact h2 h⟩
      revert h
      have key : ∀ (b : Str) (name : Str) (pos : Nat) (st : ReadSt), '(' ∉ b → ')' ∉ b → st.nested = 1 →
          readLoop read name (b ++ ')' :: (b2 ++ [')'])) pos 0 st ≠ .ok st' := by
        intro b
        induction b with
        | nil =>
          intro name pos st _ _ hst hx
          rw [List.nil_append, readLoop_close, Res.bind_eq_ok] at hx
          obtain ⟨⟨s1, k⟩, h5, h6⟩ := hx
          have hk : s1.nested = 0 ∧ k = 0 := by
            unfold readClose at h5
            simp only [hst] at h5
            rw [if_neg (by omega), Res.bind_eq_ok] at h5
            obtain ⟨item, _, h5⟩ := h5
            split at h5
            · cases h5; exact ⟨rfl, rfl⟩
            · rw [if_pos (by omega), Res.bind_eq_ok] at h5
              obtain ⟨_, _, h5⟩ := h5
              cases h5; exact ⟨rfl, rfl⟩
          obtain ⟨hk1, rfl⟩ := hk
          exact loop_unbalanced read name _ _ _ st' (by intro hm; apply hb; simp at hm; simp [hm]) (by simp) hk1 h6
        | cons x b ihb =>
          intro name pos st hb1 hb2 hst hx
          have hx1 : x ≠ '(' := fun e => hb1 (by simp [e])
          have hx2 : x ≠ ')' := fun e => hb2 (by simp [e])
          have hb1' : '(' ∉ b := fun h => hb1 (by simp [h])
          have hb2' : ')' ∉ b := fun h => hb2 (by simp [h])
          rw [List.cons_append, readLoop.eq_def] at hx
          simp only [if_neg hx1, if_neg hx2] at hx
          split at hx
          · rw [Res.bind_eq_ok] at hx
            obtain ⟨s1, h5, h6⟩ := hx
            have hs1 : s1.nested = 1 := by
              unfold readComma at h5
              rw [Res.bind_eq_ok] at h5
              obtain ⟨item, _, h5⟩ := h5
              split at h5
              · cases h5; exact hst
              · rw [Res.bind_eq_ok] at h5
                obtain ⟨_, _, h5⟩ := h5
                cases h5; exact hst
            exact ihb name _ s1 hb1' hb2' hs1 h6
          · exact ihb name _ st hb1' hb2' hst hx
      have e : b1 ++ ')' :: b2 ++ [')'] = b1 ++ ')' :: (b2 ++ [')']) := by simp
      rw [e]
      exact key b1 _ _ _ (fun h => hb (by simp [h])) hb1 rfl
    · -- a flat tuple
      obtain ⟨p, ps, rfl, hps⟩ := pieces_exist body
      have hpl : ∀ q ∈ p :: ps, plainText q := by
        intro q hq c hc'
        obtain ⟨h1, h2⟩ := hps q hq c hc'
        exact ⟨fun e => hb (e ▸ h2), fun e => hc (e ▸ h2), h1⟩
      have hasc : ∀ q ∈ p :: ps, ascii q := ascii_pieces (fun c hc => ha c (by simp [hc]))
      rw [← tuple_text, read_pieces hasc hpl, Res.bind_eq_ok] at h
      obtain ⟨ts, h, h'⟩ := h
      cases h'
      have hm := (seqRead_ok hasc hpl ts).1 h
      have h1 := members_nonempty hm (nonempty_piece hne)
      have h2 := members_tupleFree hm (fun q hq hmem => hp (pieces_mem hq _ hmem))
      simp only [flatTuple, Bool.and_eq_true, Bool.not_eq_true', List.isEmpty_eq_false_iff, List.all_eq_true]
      exact ⟨h1, h2⟩
  · rw [List.concat_eq_append] at *
    have hl : ('(' :: (body ++ ')' :: (suf ++ [c]))).getLast? = some c := by
      rw [show '(' :: (body ++ ')' :: (suf ++ [c])) = ('(' :: (body ++ ')' :: suf)) ++ [c] by simp]
      exact List.getLast?_concat ..
    have hc : c ≠ ')' := fun e => hs (by simp [e])
    by_cases hc2 : c = ']'
    · subst hc2
      by_cases hbr : '[' ∈ suf
      · obtain ⟨q, num, rfl, hnum⟩ := last_bracket suf hbr
        have e : '(' :: (body ++ ')' :: (q ++ '[' :: num ++ [']'])) = ('(' :: (body ++ ')' :: q)) ++ '[' :: (num ++ [']']) := by
          simp
        rw [e] at h ha
        have haq : ascii ('(' :: (body ++ ')' :: q)) := fun c hc => ha c (by simp only [List.mem_append]; exact Or.inl hc)
        have hanum : ascii num := fun c hc => ha c (by simp [hc])
        have hlen : q.length < n := by rw [← hn]; simp
        have hs' : ')' ∉ q := fun h => hs (by simp [h])
        by_cases hnn : num = []
        · subst hnn
          have hr : read (('(' :: (body ++ ')' :: q)) ++ '[' :: ([] ++ [']'])) = (read ('(' :: (body ++ ')' :: q)) >>= fun t => .ok (.array t)) := by
            rw [← read_array haq]; rfl
          rw [hr, Res.bind_eq_ok] at h
          obtain ⟨u, h, h'⟩ := h
          cases h'
          obtain ⟨i1, i2⟩ := ih q.length hlen body q u rfl haq hp hb hs' hne h
          exact ⟨i1, by simp [i2]⟩
        · rw [read_fixedArray haq hanum hnn hnum, Res.bind_eq_ok] at h
          obtain ⟨k, hk, h⟩ := h
          rw [Res.bind_eq_ok] at h
          obtain ⟨u, h, h'⟩ := h
          cases h'
          obtain ⟨i1, i2⟩ := ih q.length hlen body q u rfl haq hp hb hs' hne h
          have hnp := numberText_plain ((numberText_iff _ _).2 hk)
          exact ⟨i1, by
            intro hm
            simp only [List.mem_append, List.mem_cons, List.not_mem_nil, or_false] at hm
            rcases hm with (hm | hm | hm) | hm
            · exact i2 hm
            · revert hm; decide
            · exact (hnp _ hm).1 rfl
            · revert hm; decide⟩
      · -- the number contains the parenthesis
        exfalso
        have hnum : ')' ∈ arrayNum ('(' :: (body ++ ')' :: (suf ++ [']']))) ∧ True := by
          refine ⟨?_, trivial⟩
          unfold arrayNum
          rw [List.mem_reverse]
          have e : (('(' :: (body ++ ')' :: (suf ++ [']']))).reverse.drop 1) = suf.reverse ++ ')' :: (body.reverse ++ ['(']) := by
            simp
          rw [e, List.takeWhile_append_of_pos (by
            intro x hx
            simp only [bne_iff_ne, ne_eq]
            rintro rfl
            exact hbr (by simpa using hx))]
          simp
        rw [read_eq, readStep, if_neg (by rw [hl]; simp), if_pos hl] at h
        simp only at h
        rw [if_neg (by intro e; rw [e] at hnum; simp at hnum), Res.bind_eq_ok] at h
        obtain ⟨k, hk, _⟩ := h
        exact (numberText_plain ((numberText_iff _ _).2 hk) _ hnum.1).2.1 rfl
    · exfalso
      rw [read_plain (by rw [hl]; simpa using hc) (by rw [hl]; simpa using hc2)] at h
      have := elementary_plain ((readElementary_iff _ _).1 h) '(' (by simp)
      exact this.1 rfl

/-! ### the shape of what the loop collects -/

/-- the invariant of the loop on a text that has been read up to `pre` -/
structure Shape (pre : Str) (st : ReadSt) : Prop where
  last : st.lastItem ≤ pre.length
  item : ')' ∉ pre.drop st.lastItem
  top : st.topOpen < pre.length
  openAt : pre[st.topOpen]? = some '('
  body : '(' ∉ pre.drop (st.topOpen + 1)
  deep : 2 ≤ st.nested → st.topOpen + 1 ≤ st.lastItem ∧ ',' ∉ pre.drop st.lastItem
  types : ∀ t ∈ st.subtypes, GoodMember t
  tuples : ∀ l ∈ st.subtuples, ∀ t ∈ l, tupleFree t = true

theorem strSlice_pre {pre rest x : Str} {a : Nat} (ha : ascii (pre ++ rest)) (h : strSlice (pre ++ rest) a pre.length = .ok x)
    (hl : a ≤ pre.length) : x = pre.drop a := by
  rw [strSlice_ascii ha hl (by simp)] at h
  have := (Res.ok.inj h).symm
  rw [this, List.take_left' rfl]

theorem indexVec_mem {α : Type} {v : List α} {i : Int} {a : α} (h : indexVec v i = .ok a) : a ∈ v := by
  unfold indexVec at h
  split at h
  · cases h
  · split at h
    · rename_i b hb
      cases h
      exact List.mem_of_getElem? hb
    · cases h

theorem drop_snoc {α : Type} {l : List α} {a : Nat} (c : α) (h : a ≤ l.length) : (l ++ [c]).drop a = l.drop a ++ [c] := by
  rw [List.drop_append_of_le_length h]

theorem drop_snoc_all {α : Type} (l : List α) (c : α) : (l ++ [c]).drop (l.length + 1) = [] := by
  apply List.drop_eq_nil_of_le; simp

theorem shape_open {pre : Str} {st : ReadSt} (h : Shape pre st) : Shape (pre ++ ['(']) (readOpen pre.length st) := by
  unfold readOpen
  simp only
  split
  · refine ⟨by simp, by simp [drop_snoc_all], by simp, by simp, by simp [drop_snoc_all], fun _ => ⟨by simp, by simp [drop_snoc_all]⟩,
      h.types, ?_⟩
    intro l hl t ht
    rcases List.mem_append.1 hl with hl | hl
    · exact h.tuples l hl t ht
    · simp only [List.mem_singleton] at hl; subst hl; simp at ht
  · refine ⟨by have := h.last; simp; omega, ?_, by simp, by simp, by simp [drop_snoc_all], ?_, h.types, h.tuples⟩
    · simp only; rw [drop_snoc _ h.last]; simp [h.item]
    · intro hn; exact absurd hn (by simp only; omega)

theorem shape_other {pre : Str} {st : ReadSt} {c : Char} (h : Shape pre st) (h1 : c ≠ '(') (h2 : c ≠ ')') (h3 : c ≠ ',') :
    Shape (pre ++ [c]) st := by
  have ht := h.top
  refine ⟨by have := h.last; simp; omega, ?_, by simp; omega, ?_, ?_, ?_, h.types, h.tuples⟩
  · rw [drop_snoc _ h.last]; simp [h.item, Ne.symm h2]
  · rw [List.getElem?_append_left ht]; exact h.openAt
  · rw [drop_snoc _ (by omega)]; simp [h.body, Ne.symm h1]
  · intro hn
    refine ⟨(h.deep hn).1, ?_⟩
    rw [drop_snoc _ h.last]; simp [(h.deep hn).2, Ne.symm h3]

/-- a delimiter other than `(` that resets `lastItem` -/
theorem shape_reset {pre : Str} {st st' : ReadSt} {c : Char} (h : Shape pre st) (h1 : c ≠ '(')
    (hl : st'.lastItem = pre.length + 1) (ho : st'.topOpen = st.topOpen)
    (ht : ∀ t ∈ st'.subtypes, GoodMember t) (hs : ∀ l ∈ st'.subtuples, ∀ t ∈ l, tupleFree t = true) :
    Shape (pre ++ [c]) st' := by
  have htop := h.top
  refine ⟨by simp [hl], by simp [hl, drop_snoc_all], by simp [ho]; omega, ?_, ?_, ?_, ht, hs⟩
  · rw [ho, List.getElem?_append_left htop]; exact h.openAt
  · rw [ho, drop_snoc _ (by omega)]; simp [h.body, Ne.symm h1]
  · intro _; exact ⟨by rw [hl, ho]; omega, by simp [hl, drop_snoc_all]⟩

theorem notMem_drop {α : Type} {l : List α} {a : α} (h : a ∉ l) (n : Nat) : a ∉ l.drop n :=
  fun hm => h (List.mem_of_mem_drop hm)

theorem shape_comma {pre rest : Str} {st st' : ReadSt} (ha : ascii (pre ++ rest)) (hp : 'p' ∉ pre) (h : Shape pre st)
    (hr : readComma read (pre ++ rest) pre.length st = .ok st') :
    Shape (pre ++ [',']) st' := by
  unfold readComma at hr
  rw [Res.bind_eq_ok] at hr
  obtain ⟨item, hi, hr⟩ := hr
  have hitem := strSlice_pre ha hi h.last
  have hai : ascii item := by
    intro c hc; rw [hitem] at hc
    exact ha c (List.mem_append_left _ (List.mem_of_mem_drop hc))
  have hfree : ∀ u, read item = .ok u → tupleFree u = true := fun u hu =>
    read_item hai (by rw [hitem]; exact h.item) (by rw [hitem]; exact notMem_drop hp _) hu
  split at hr
  · cases hr
    exact shape_reset h (by decide) rfl rfl h.types h.tuples
  · split at hr
    · rw [Res.bind_eq_ok] at hr
      obtain ⟨u, hu, hr⟩ := hr
      cases hr
      refine shape_reset h (by decide) rfl rfl ?_ h.tuples
      intro t ht
      rcases List.mem_append.1 ht with ht | ht
      · exact h.types t ht
      · simp only [List.mem_singleton] at ht; subst ht; exact Or.inl (hfree _ hu)
    · split at hr
      · rw [Res.bind_eq_ok] at hr
        obtain ⟨u, hu, hr⟩ := hr
        rw [Res.bind_eq_ok] at hr
        obtain ⟨l, hl, hr⟩ := hr
        cases hr
        refine shape_reset h (by decide) rfl rfl h.types ?_
        intro l' hl' t ht
        rcases List.mem_or_eq_of_mem_set hl' with hl' | rfl
        · exact h.tuples l' hl' t ht
        · rcases List.mem_append.1 ht with ht | ht
          · exact h.tuples l (indexVec_mem hl) t ht
          · simp only [List.mem_singleton] at ht; subst ht; exact hfree _ hu
      · cases hr
        have ht := h.top
        refine ⟨by have := h.last; simp; omega, ?_, by simp; omega, ?_, ?_, ?_, h.types, h.tuples⟩
        · rw [drop_snoc _ h.last]; simp [h.item]
        · rw [List.getElem?_append_left ht]; exact h.openAt
        · rw [drop_snoc _ (by omega)]; simp [h.body]
        · intro hn; omega

theorem trailing_mem : ∀ (rest : Str), ∃ x y, rest = x ++ y ∧ x.length = trailing rest ∧ ')' ∉ x
  | [] => ⟨[], [], rfl, rfl, by simp⟩
  | c :: cs => by
    simp only [trailing]
    split
    · exact ⟨[], c :: cs, rfl, rfl, by simp⟩
    · rename_i hc
      obtain ⟨x, y, h1, h2, h3⟩ := trailing_mem cs
      refine ⟨c :: x, y, by rw [h1]; rfl, by simp [h2], ?_⟩
      intro hm
      rcases List.mem_cons.1 hm with h | h
      · exact hc (Or.inr h.symm)
      · exact h3 h

theorem shape_close {pre rest : Str} {st st' : ReadSt} {k : Nat} (ha : ascii (pre ++ ')' :: rest)) (hp : 'p' ∉ pre)
    (h : Shape pre st) (hr : readClose read (pre ++ ')' :: rest) rest pre.length st = .ok (st', k)) :
    ∃ suf rest', rest = suf ++ rest' ∧ suf.length = k ∧ Shape (pre ++ ')' :: suf) st' := by
  unfold readClose at hr
  simp only at hr
  split at hr
  · cases hr
  rw [Res.bind_eq_ok] at hr
  obtain ⟨item, hi, hr⟩ := hr
  have hitem := strSlice_pre ha hi h.last
  have hai : ascii item := by
    intro c hc; rw [hitem] at hc
    exact ha c (List.mem_append_left _ (List.mem_of_mem_drop hc))
  split at hr
  · cases hr
    exact ⟨[], rest, rfl, rfl, shape_reset h (by decide) rfl rfl h.types h.tuples⟩
  · rename_i hne
    split at hr
    · rw [Res.bind_eq_ok] at hr
      obtain ⟨u, hu, hr⟩ := hr
      cases hr
      refine ⟨[], rest, rfl, rfl, shape_reset h (by decide) rfl rfl ?_ h.tuples⟩
      intro t ht
      rcases List.mem_append.1 ht with ht | ht
      · exact h.types t ht
      · simp only [List.mem_singleton] at ht; subst ht
        exact Or.inl (read_item hai (by rw [hitem]; exact h.item) (by rw [hitem]; exact notMem_drop hp _) hu)
    · rename_i hneg hz
      obtain ⟨suf, rest', hrest, hsl, hsuf⟩ := trailing_mem rest
      rw [Res.bind_eq_ok] at hr
      obtain ⟨inner, hin, hr⟩ := hr
      rw [Res.bind_eq_ok] at hr
      obtain ⟨u, hu, hr⟩ := hr
      obtain ⟨hdeep, hcom⟩ := h.deep (by omega)
      have htop := h.top
      -- the inner text
      have hinner : inner = '(' :: (pre.drop (st.topOpen + 1) ++ ')' :: suf) := by
        rw [← hsl] at hin
        rw [strSlice_ascii ha (by omega) (by rw [hrest]; simp; omega)] at hin
        rw [← Res.ok.inj hin, hrest]
        rw [show pre ++ ')' :: (suf ++ rest') = (pre ++ ')' :: suf) ++ rest' by simp,
          List.take_left' (by simp; omega), List.drop_append_of_le_length (by omega)]
        have h1 : pre.drop st.topOpen = '(' :: pre.drop (st.topOpen + 1) := by
          rw [List.drop_eq_getElem_cons htop]
          have := h.openAt
          rw [List.getElem?_eq_getElem htop] at this
          rw [Option.some.inj this]
        rw [h1]; rfl
      have hsub : pre.drop st.lastItem = (pre.drop (st.topOpen + 1)).drop (st.lastItem - (st.topOpen + 1)) := by
        rw [List.drop_drop]; congr 1; omega
      have hflat := read_inner _ (pre.drop (st.topOpen + 1)) suf u rfl
        (by
          intro c hc
          apply ha c
          simp only [List.mem_cons, List.mem_append] at hc ⊢
          rcases hc with rfl | hc | rfl | hc
          · exact Or.inl (List.mem_of_getElem? h.openAt)
          · exact Or.inl (List.mem_of_mem_drop hc)
          · exact Or.inr (Or.inl rfl)
          · exact Or.inr (Or.inr (by rw [hrest]; simp [hc])))
        (notMem_drop hp _) h.body hsuf
        (by
          obtain ⟨c, hc⟩ := List.exists_mem_of_ne_nil _ hne
          rw [hitem] at hc
          refine ⟨c, ?_, ?_⟩
          · rw [hsub] at hc; exact List.mem_of_mem_drop hc
          · rintro rfl; exact hcom hc)
        (by rw [← hinner]; exact hu)
      -- both outcomes
      have fin : ∀ st'' : ReadSt, st''.lastItem = pre.length + trailing rest + 1 → st''.topOpen = st.topOpen →
          (∀ t ∈ st''.subtypes, GoodMember t) → (∀ l ∈ st''.subtuples, ∀ t ∈ l, tupleFree t = true) →
          Shape (pre ++ ')' :: suf) st'' := by
        intro st'' hl ho ht hs
        have hd : (pre ++ ')' :: suf).drop st''.lastItem = [] := by
          apply List.drop_eq_nil_of_le; rw [hl]; simp; omega
        refine ⟨by rw [hl]; simp; omega, by simp [hd], by rw [ho]; simp; omega, ?_, ?_, ?_, ht, hs⟩
        · rw [ho, List.getElem?_append_left htop]; exact h.openAt
        · rw [ho, List.drop_append_of_le_length (by omega)]
          simp [h.body, hflat.2]
        · intro _; exact ⟨by rw [hl, ho]; omega, by simp [hd]⟩
      split at hr
      · rw [Res.bind_eq_ok] at hr
        obtain ⟨l, hl, hr⟩ := hr
        cases hr
        refine ⟨suf, rest', hrest, hsl, fin _ rfl rfl ?_ ?_⟩
        · intro t ht
          rcases List.mem_append.1 ht with ht | ht
          · exact h.types t ht
          · simp only [List.mem_singleton] at ht; subst ht
            refine Or.inr (Or.inr ?_)
            simp only [lastNested, List.reverse_append, List.reverse_cons, List.reverse_nil, List.nil_append, List.cons_append,
              Bool.and_eq_true, List.all_eq_true, hflat.1, true_and]
            intro x hx
            exact h.tuples l (indexVec_mem hl) x (by simpa using hx)
        · intro l' hl' t ht
          rcases List.mem_or_eq_of_mem_set hl' with hl' | rfl
          · exact h.tuples l' hl' t ht
          · simp at ht
      · cases hr
        refine ⟨suf, rest', hrest, hsl, fin _ rfl rfl ?_ h.tuples⟩
        intro t ht
        rcases List.mem_append.1 ht with ht | ht
        · exact h.types t ht
        · simp only [List.mem_singleton] at ht; subst ht
          exact Or.inr (Or.inl hflat.1)

theorem shape_loop : ∀ (n : Nat) (pre cs : Str) (st st' : ReadSt), cs.length = n → ascii (pre ++ cs) → 'p' ∉ pre ++ cs →
    Shape pre st → readLoop read (pre ++ cs) cs pre.length 0 st = .ok st' → ∀ t ∈ st'.subtypes, GoodMember t := by
  intro n
  induction n using Nat.strongRecOn with
  | _ n ih =>
  intro pre cs st st' hn ha hp hS h
  cases cs with
  | nil =>
    rw [readLoop] at h
    cases h
    exact hS.types
  | cons c cs =>
    have hpp : 'p' ∉ pre := fun hm => hp (by simp [hm])
    have e : pre ++ c :: cs = (pre ++ [c]) ++ cs := by simp
    have el : pre.length + 1 = (pre ++ [c]).length := by simp
    have hlt : cs.length < n := by rw [← hn]; simp
    by_cases h1 : c = '('
    · subst h1
      rw [readLoop_open, el, e] at h
      rw [e] at ha hp
      exact ih _ hlt _ _ _ st' rfl ha hp (shape_open hS) h
    · by_cases h2 : c = ')'
      · subst h2
        rw [readLoop_close, Res.bind_eq_ok] at h
        obtain ⟨⟨s1, k⟩, hr, h⟩ := h
        obtain ⟨suf, rest', rfl, rfl, hS'⟩ := shape_close ha hpp hS hr
        simp only at h
        rw [loop_skip] at h
        have e2 : pre ++ ')' :: (suf ++ rest') = (pre ++ ')' :: suf) ++ rest' := by simp
        have el2 : pre.length + 1 + suf.length = (pre ++ ')' :: suf).length := by simp; omega
        rw [el2, e2] at h
        rw [e2] at ha hp
        exact ih _ (by rw [← hn]; simp; omega) _ _ _ st' rfl ha hp hS' h
      · by_cases h3 : c = ','
        · subst h3
          rw [readLoop_comma, Res.bind_eq_ok] at h
          obtain ⟨s1, hr, h⟩ := h
          have hS' := shape_comma ha hpp hS hr
          rw [el, e] at h
          rw [e] at ha hp
          exact ih _ hlt _ _ _ st' rfl ha hp hS' h
        · rw [readLoop.eq_def] at h
          simp only [if_neg h1, if_neg h2, if_neg h3] at h
          rw [el, e] at h
          rw [e] at ha hp
          exact ih _ hlt _ _ _ st' rfl ha hp (shape_other hS h1 h2 h3) h

/-- every tuple `read` returns has members of the three shapes -/
theorem read_tuple_shape {s : Str} {ts : List ParamType} (ha : ascii s) (hp : 'p' ∉ s) (h : read s = .ok (.tuple ts)) :
    ∀ t ∈ ts, GoodMember t := by
  rw [read_eq, readStep] at h
  split at h
  · split at h
    · cases h
    · rename_i hs
      cases s with
      | nil => simp [startsWith, lit] at hs
      | cons c cs =>
        have hc : c = '(' := by
          by_contra hc
          exact hs (by simp [startsWith, lit, List.isPrefixOf, Ne.symm hc])
        subst hc
        rw [readLoop_open, Res.bind_eq_ok] at h
        obtain ⟨st', h, h'⟩ := h
        cases h'
        refine shape_loop _ ['('] cs _ st' rfl ha hp ?_ h
        refine ⟨by simp [readOpen], by simp [readOpen], by simp [readOpen], by simp [readOpen], by simp [readOpen],
          by simp [readOpen], by simp [readOpen], by simp [readOpen]⟩
  · split at h
    · simp only at h
      split at h
      · simp only [Res.bind_eq_ok] at h
        obtain ⟨_, _, _, _, _, _, h⟩ := h
        cases h
      · simp only [Res.bind_eq_ok] at h
        obtain ⟨_, _, _, _, _, _, _, _, _, _, h⟩ := h
        cases h
    · have := elementary_tupleFree hp ((readElementary_iff _ _).1 h)
      simp [tupleFree] at this

/-! ### the exact result for members of the three shapes -/

/-- what the first entry of `subtuples` holds -/
def leak (S : List (List ParamType)) : List ParamType := S.headD []

/-- one member: `read` finds it at its place only if it is allowed there -/
theorem member_exact {name : Str} (hasc : ascii name) (m : ParamType) (pre rest : Str) (pos : Nat) (st : ReadSt) (d : Char)
    (ms : List ParamType) (hd : d = ',' ∨ d = ')') (hg : GoodMember m) (hu : m.usizeOk = true)
    (hname : name = pre ++ write m ++ d :: rest) (hpos : pos = pre.length) (hl : st.lastItem = pos) (hn : st.nested = 1) :
    ∃ S o u, (u = m → readableMembers (!(leak S).isEmpty) ms = true →
        readableMembers (!(leak st.subtuples).isEmpty) (m :: ms) = true) ∧
      readLoop read name (write m ++ d :: rest) pos 0 st = readLoop read name rest (pos + (write m).length + 1) 0
        { subtypes := st.subtypes ++ [u], subtuples := S, nested := if d = ')' then 0 else 1, topOpen := o
          lastItem := pos + (write m).length + 1 } := by
  have hlen : pos + (write m).length ≤ name.length := by rw [hname]; simp; omega
  by_cases hf : tupleFree m = true
  · refine ⟨st.subtuples, st.topOpen, m, ?_, member_free hd hasc hname hpos hf hu hl hn⟩
    intro _ h
    rw [readableMembers, if_pos hf]; exact h
  · by_cases hf2 : flatTuple m = true
    · obtain ⟨xs, x, hb, hx, hcnt⟩ := flatTuple_base hf2 hu
      obtain ⟨s, S0, hS0⟩ : ∃ s S0, st.subtuples ++ [[]] = s :: S0 := by
        cases st.subtuples <;> simp
      have hs : (st.subtuples ++ [[]])[0]? = some s := by rw [hS0]; rfl
      have hsl : leak st.subtuples = s := by
        cases h1 : st.subtuples with
        | nil => rw [h1] at hS0; simp at hS0; simp [leak, hS0.1]
        | cons a l => rw [h1] at hS0; simp at hS0; simp [leak, hS0.1]
      refine ⟨(st.subtuples ++ [[]]).set 0 (s ++ xs), pos, m, ?_, ?_⟩
      · intro _ h
        rw [readableMembers, if_neg hf, if_pos hf2]
        have : leak ((st.subtuples ++ [[]]).set 0 (s ++ xs)) = s ++ xs := by rw [hS0]; rfl
        rw [this] at h
        rw [hsl, hcnt]
        have e : (!(s ++ xs).isEmpty) = (!s.isEmpty || decide (2 ≤ xs.length + 1)) := by
          cases s <;> cases xs <;> simp
        rwa [← e]
      · rw [inner_flat_one hd hasc hname hpos hb hx (read_flat _ m rfl hf2 hu) hn hs,
          delimiter_empty hd hasc hlen rfl rfl]
        rfl
    · have hln : lastNested m = true := by
        rcases hg with h | h | h
        · exact absurd h hf
        · exact absurd h hf2
        · exact h
      have hln0 := hln
      cases m with
      | tuple ts =>
        simp only [lastNested] at hln
        split at hln
        · rename_i y ys hrev
          have hts : ts = ys.reverse ++ [y] := by
            have := congrArg List.reverse hrev
            simpa using this
          simp only [Bool.and_eq_true, List.all_eq_true] at hln
          obtain ⟨hfy, hys⟩ := hln
          have huy := usizeOkAll_mem hu y (by simp [hts])
          obtain ⟨xs, x, hb, hx, -⟩ := flatTuple_base hfy huy
          have hw : write (.tuple ts) = '(' :: (commaText ys.reverse ++ write y ++ [')']) := by
            rw [hts, write_tuple_concat]
          have e1 : write (.tuple ts) ++ d :: rest =
              '(' :: (commaText ys.reverse ++ (write y ++ ')' :: (d :: rest))) := by rw [hw]; simp
          have hlen2 : (write (.tuple ts)).length = 1 + (commaText ys.reverse).length + (write y).length + 1 := by
            rw [hw]; simp; omega
          obtain ⟨s, S, hS⟩ : ∃ s S, st.subtuples ++ [[]] = s :: S := by
            cases st.subtuples <;> simp
          have hsl : leak st.subtuples = s := by
            cases h1 : st.subtuples with
            | nil => rw [h1] at hS; simp at hS; simp [leak, hS.1]
            | cons a l => rw [h1] at hS; simp at hS; simp [leak, hS.1]
          rw [e1, readLoop_open, readOpen_inner (by omega)]
          rw [items_inner (j := 0) hasc ys.reverse (pre ++ ['(']) _ (pos + 1) _ s
            (fun z hz => ⟨hys z (by simpa using hz), usizeOkAll_mem hu z (by rw [hts]; exact List.mem_append_left _ hz)⟩)
            (by rw [hname, hw]; simp) (by simp [hpos]) rfl (by simp [hn]) (by simp [hS])]
          simp only [hS, List.set_cons_zero]
          obtain ⟨S', h2⟩ := inner_flat_two (name := name) (pre := pre ++ '(' :: commaText ys.reverse)
            (rest := d :: rest) (m := y) (x := x) (xs := xs) (pos := pos + 1 + (commaText ys.reverse).length)
            (st := { subtypes := st.subtypes, subtuples := (s ++ ys.reverse) :: S, nested := st.nested + 1, topOpen := pos, lastItem := pos + 1 + (commaText ys.reverse).length })
            (d := ')') (Or.inr rfl) hasc (by rw [hname, hw]; simp) (by simp [hpos]; omega)
            hb hx (read_flat _ y rfl hfy huy) (by simp [hn]) rfl
          rw [h2, readLoop_close]
          have hs : strSlice name (pos + 1 + (commaText ys.reverse).length + (write y).length)
              (pos + 1 + (commaText ys.reverse).length + (write y).length) = .ok [] := by
            rw [strSlice_ascii hasc (by omega) (by omega)]; simp
          unfold readClose
          simp only [hs, Res.ok_bind, if_true]
          rw [if_neg (by omega)]
          simp only [Res.ok_bind]
          rw [delimiter_empty (st := { subtypes := st.subtypes ++ [.tuple (s ++ ys.reverse ++ [y])], subtuples := [] :: S', nested := 2 - 1, topOpen := pos + 1 + (commaText ys.reverse).length, lastItem := pos + 1 + (commaText ys.reverse).length + (write y).length + 1 }) hd hasc (by simp only []; omega) rfl rfl]
          refine ⟨[] :: S', pos + 1 + (commaText ys.reverse).length, .tuple (s ++ ys.reverse ++ [y]), ?_, ?_⟩
          · intro he h
            rw [hts] at he
            have hs0 : s = [] := by
              have := congrArg List.length (ParamType.tuple.inj he)
              simp at this
              exact this
            rw [readableMembers, if_neg hf, if_neg hf2, hln0, hsl, hs0]
            simpa [leak] using h
          · rw [hlen2]
            simp only [afterMember]
            congr 1
            · omega
            · congr 1; omega
        · cases hln
      | _ => simp [lastNested] at hln

theorem members_exact {name : Str} (hasc : ascii name) : ∀ (ms : List ParamType) (m : ParamType) (pre : Str) (pos : Nat) (st : ReadSt),
      (∀ x ∈ ms ++ [m], GoodMember x ∧ x.usizeOk = true) →
      name = pre ++ (commaText ms ++ write m ++ [')']) → pos = pre.length → st.lastItem = pos → st.nested = 1 →
      ∃ st' us, readLoop read name (commaText ms ++ write m ++ [')']) pos 0 st = .ok st' ∧
        st'.subtypes = st.subtypes ++ us ∧
        (us = ms ++ [m] → readableMembers (!(leak st.subtuples).isEmpty) (ms ++ [m]) = true)
  | [], m, pre, pos, st, hu, hname, hpos, hl, hn => by
    have e : commaText [] ++ write m ++ [')'] = write m ++ ')' :: [] := by simp [commaText]
    obtain ⟨S, o, u, hm, h⟩ := member_exact hasc m pre [] pos st ')' [] (Or.inr rfl) (hu m (by simp)).1 (hu m (by simp)).2
      (by rw [hname]; simp [commaText]) hpos hl hn
    rw [e, h, readLoop]
    exact ⟨_, [u], rfl, rfl, fun he => hm (by simpa using he) rfl⟩
  | a :: ms, m, pre, pos, st, hu, hname, hpos, hl, hn => by
    have e : commaText (a :: ms) ++ write m ++ [')'] = write a ++ ',' :: (commaText ms ++ write m ++ [')']) := by
      simp [commaText]
    obtain ⟨S, o, u, hm, h⟩ := member_exact hasc a pre (commaText ms ++ write m ++ [')']) pos st ',' (ms ++ [m]) (Or.inl rfl)
      (hu a (by simp)).1 (hu a (by simp)).2 (by rw [hname, e]; simp) hpos hl hn
    rw [e, h]
    obtain ⟨st', us, h1, h2, h3⟩ := members_exact hasc ms m (pre ++ write a ++ [',']) (pos + (write a).length + 1)
      { subtypes := st.subtypes ++ [u], subtuples := S, nested := if ',' = ')' then 0 else 1, topOpen := o
        lastItem := pos + (write a).length + 1 }
      (fun x hx => hu x (by simp at hx ⊢; tauto)) (by rw [hname, e]; simp) (by simp [hpos]; omega) rfl rfl
    refine ⟨st', u :: us, h1, by rw [h2]; simp, ?_⟩
    intro he
    simp only [List.cons_append, List.cons.injEq] at he
    exact hm he.1 (h3 he.2)

theorem natText_no_p (n : Nat) : 'p' ∉ natText n := fun h => natText_ne h (by decide) rfl

theorem join_no_p : ∀ {l : List Str}, (∀ s ∈ l, 'p' ∉ s) → 'p' ∉ join (lit ",") l
  | [], _ => by simp [join]
  | [a], h => by simpa [join] using h a (by simp)
  | a :: b :: l, h => by
    rw [join_cons_cons]
    simp only [List.mem_append, not_or]
    exact ⟨⟨h a (by simp), by decide⟩, join_no_p fun s hs => h s (by simp at hs ⊢; tauto)⟩

mutual
theorem write_no_p : ∀ (t : ParamType), 'p' ∉ write t
  | .address => by decide
  | .bytes => by decide
  | .bool => by decide
  | .string => by decide
  | .int n => by rw [write, writeForAbi]; simp [natText_no_p, lit]
  | .uint n => by rw [write, writeForAbi]; simp [natText_no_p, lit]
  | .fixedBytes n => by rw [write, writeForAbi]; simp [natText_no_p, lit]
  | .array t => by
    have := write_no_p t
    rw [write] at this
    rw [write, writeForAbi]; simp [this, lit]
  | .fixedArray t n => by
    have := write_no_p t
    rw [write] at this
    rw [write, writeForAbi]; simp [this, lit, natText_no_p]
  | .tuple ts => by
    rw [write_tuple]
    simp only [List.mem_cons, List.mem_append, not_or]
    exact ⟨by decide, join_no_p (write_no_p_all ts), by decide⟩
theorem write_no_p_all : ∀ (ts : List ParamType), ∀ s ∈ ts.map write, 'p' ∉ s
  | [] => by simp
  | t :: ts => by
    intro s hs
    rcases List.mem_cons.1 hs with rfl | hs
    · exact write_no_p t
    · exact write_no_p_all ts s hs
end

theorem readable_of_read : ∀ (t : ParamType), t.usizeOk = true → read (write t) = .ok t → readable t = true
  | .address, _, _ => rfl
  | .bytes, _, _ => rfl
  | .bool, _, _ => rfl
  | .string, _, _ => rfl
  | .int _, _, _ => rfl
  | .uint _, _, _ => rfl
  | .fixedBytes _, _, _ => rfl
  | .array t, hu, h => by
    have e : write (.array t) = write t ++ lit "[]" := by simp [write, writeForAbi]
    rw [e, read_array (s := write t) (ascii_write _ t), Res.bind_eq_ok] at h
    obtain ⟨u, h, h'⟩ := h
    cases h'
    exact readable_of_read t hu h
  | .fixedArray t n, hu, h => by
    have hs := sizesFit_of_usizeOk _ hu
    simp only [sizesFit, Bool.and_eq_true, decide_eq_true_eq] at hs
    simp only [ParamType.usizeOk, Bool.and_eq_true] at hu
    have e : write (.fixedArray t n) = write t ++ '[' :: (natText n ++ [']']) := by
      simp [write, writeForAbi, lit]
    rw [e, read_fixedArray_nat (s := write t) (ascii_write _ t) hs.1, Res.bind_eq_ok] at h
    obtain ⟨u, h, h'⟩ := h
    cases h'
    exact readable_of_read t hu.2 h
  | .tuple ts, hu, h => by
    have hg := read_tuple_shape (ascii_write _ _) (write_no_p _) h
    rcases List.eq_nil_or_concat ts with rfl | ⟨ms, m, rfl⟩
    · rfl
    · rw [List.concat_eq_append] at *
      have hasc : ascii (write (.tuple (ms ++ [m]))) := ascii_write _ _
      have hw := write_tuple_concat ms m
      have hlast : (write (.tuple (ms ++ [m]))).getLast? = some ')' := by
        rw [hw, show '(' :: (commaText ms ++ write m ++ [')']) = ('(' :: (commaText ms ++ write m)) ++ [')'] by simp]
        exact List.getLast?_concat ..
      obtain ⟨st', us, h1, h2, h3⟩ := members_exact hasc ms m ['('] 1
        { subtypes := [], subtuples := [], nested := 1, topOpen := 0, lastItem := 1 }
        (fun x hx => ⟨hg x hx, usizeOkAll_mem hu x hx⟩) (by rw [hw]; simp) rfl rfl rfl
      rw [read_eq, readStep, if_pos hlast, if_neg (by rw [hw]; simp [lit, startsWith])] at h
      have : readLoop read (write (.tuple (ms ++ [m]))) (write (.tuple (ms ++ [m]))) 0 0
          { subtypes := [], subtuples := [], nested := 0, topOpen := 0, lastItem := 1 } = .ok st' := by
        rw [← h1]
        conv => lhs; arg 3; rw [hw]
        rw [readLoop_open]
        rfl
      rw [this] at h
      simp only [Res.ok_bind, h2, List.nil_append] at h
      exact h3 (ParamType.tuple.inj (Res.ok.inj h))

/-! ### depth -/

theorem strSlice_sub {s x : Str} {a b : Nat} (h : strSlice s a b = .ok x) : ∀ c ∈ x, c ∈ s := by
  obtain ⟨_, _, _, p, q, rfl⟩ := strSlice_ok h
  intro c hc; simp [hc]

theorem tupleDepthAll_le {n : Nat} : ∀ {ts : List ParamType}, (∀ t ∈ ts, tupleDepth t ≤ n) → tupleDepthAll ts ≤ n
  | [], _ => by simp [tupleDepthAll]
  | t :: ts, h => by
    rw [tupleDepthAll]
    exact Nat.max_le.2 ⟨h t (by simp), tupleDepthAll_le fun u hu => h u (by simp [hu])⟩

theorem depth_free : ∀ {t : ParamType}, tupleFree t = true → tupleDepth t = 0
  | .address, _ => by simp [tupleDepth]
  | .bytes, _ => by simp [tupleDepth]
  | .bool, _ => by simp [tupleDepth]
  | .string, _ => by simp [tupleDepth]
  | .int _, _ => by simp [tupleDepth]
  | .uint _, _ => by simp [tupleDepth]
  | .fixedBytes _, _ => by simp [tupleDepth]
  | .array t, h => by rw [tupleDepth]; exact depth_free (t := t) h
  | .fixedArray t _, h => by rw [tupleDepth]; exact depth_free (t := t) h
  | .tuple _, h => by simp [tupleFree] at h

theorem depth_flat : ∀ {t : ParamType}, flatTuple t = true → tupleDepth t ≤ 1
  | .array t, h => by rw [tupleDepth]; exact depth_flat (t := t) h
  | .fixedArray t _, h => by rw [tupleDepth]; exact depth_flat (t := t) h
  | .tuple ts, h => by
    simp only [flatTuple, Bool.and_eq_true, List.all_eq_true] at h
    rw [tupleDepth]
    have := tupleDepthAll_le (n := 0) (ts := ts) fun t ht => by rw [depth_free (h.2 t ht)]
    omega
  | .address, h => by cases h
  | .bytes, h => by cases h
  | .bool, h => by cases h
  | .string, h => by cases h
  | .int _, h => by cases h
  | .uint _, h => by cases h
  | .fixedBytes _, h => by cases h

theorem depth_lastNested {t : ParamType} (h : lastNested t = true) : tupleDepth t ≤ 2 := by
  cases t with
  | tuple ts =>
    simp only [lastNested] at h
    split at h
    · rename_i y ys hrev
      have hts : ts = ys.reverse ++ [y] := by
        have := congrArg List.reverse hrev
        simpa using this
      simp only [Bool.and_eq_true, List.all_eq_true] at h
      rw [tupleDepth]
      have := tupleDepthAll_le (n := 1) (ts := ts) fun t ht => by
        rw [hts] at ht
        rcases List.mem_append.1 ht with ht | ht
        · rw [depth_free (h.2 t (by simpa using ht))]; omega
        · simp only [List.mem_singleton] at ht; subst ht; exact depth_flat h.1
      omega
    · cases h
  | _ => simp [lastNested] at h

theorem depth_good {t : ParamType} (h : GoodMember t) : tupleDepth t ≤ 2 := by
  rcases h with h | h | h
  · rw [depth_free h]; omega
  · have := depth_flat h; omega
  · exact depth_lastNested h

/-- an array is read from its element's text -/
theorem read_sub {s : Str} {u t : ParamType} (h : read s = .ok u)
    (hu : u = .array t ∨ ∃ n, u = .fixedArray t n) : ∃ s', (∀ c ∈ s', c ∈ s) ∧ read s' = .ok t := by
  rw [read_eq, readStep] at h
  split at h
  · split at h
    · cases h
    · rw [Res.bind_eq_ok] at h
      obtain ⟨_, _, h⟩ := h
      cases h
      rcases hu with h | ⟨n, h⟩ <;> cases h
  · split at h
    · simp only at h
      split at h
      · simp only [Res.bind_eq_ok] at h
        obtain ⟨e, _, sub, hsub, t', ht, h⟩ := h
        cases h
        rcases hu with h | ⟨n, h⟩
        · cases h; exact ⟨sub, strSlice_sub hsub, ht⟩
        · cases h
      · simp only [Res.bind_eq_ok] at h
        obtain ⟨_, _, _, _, _, _, sub, hsub, t', ht, h⟩ := h
        cases h
        rcases hu with h | ⟨n, h⟩
        · cases h
        · cases h; exact ⟨sub, strSlice_sub hsub, ht⟩
    · cases (readElementary_iff _ _).1 h <;> (rcases hu with h | ⟨n, h⟩ <;> cases h)

/-- the shape of every type read from an ASCII text without the letter `p` -/
theorem read_shape : ∀ (t : ParamType) (s : Str), ascii s → 'p' ∉ s → read s = .ok t →
    tupleFree t = true ∨ ∃ ts, baseOf t = .tuple ts ∧ ∀ m ∈ ts, GoodMember m
  | .address, _, _, _, _ => Or.inl rfl
  | .bytes, _, _, _, _ => Or.inl rfl
  | .bool, _, _, _, _ => Or.inl rfl
  | .string, _, _, _, _ => Or.inl rfl
  | .int _, _, _, _, _ => Or.inl rfl
  | .uint _, _, _, _, _ => Or.inl rfl
  | .fixedBytes _, _, _, _, _ => Or.inl rfl
  | .tuple ts, s, ha, hp, h => Or.inr ⟨ts, rfl, read_tuple_shape ha hp h⟩
  | .array t, s, ha, hp, h => by
    obtain ⟨s', hs', hr⟩ := read_sub h (Or.inl rfl)
    exact read_shape t s' (fun c hc => ha c (hs' c hc)) (fun hm => hp (hs' _ hm)) hr
  | .fixedArray t n, s, ha, hp, h => by
    obtain ⟨s', hs', hr⟩ := read_sub h (Or.inr ⟨n, rfl⟩)
    exact read_shape t s' (fun c hc => ha c (hs' c hc)) (fun hm => hp (hs' _ hm)) hr

theorem arrayBase_eq : ∀ (t : ParamType), arrayBase t = baseOf t
  | .array t => by rw [arrayBase, baseOf]; exact arrayBase_eq t
  | .fixedArray t _ => by rw [arrayBase, baseOf]; exact arrayBase_eq t
  | .tuple _ => rfl
  | .address => rfl
  | .bytes => rfl
  | .bool => rfl
  | .string => rfl
  | .int _ => rfl
  | .uint _ => rfl
  | .fixedBytes _ => rfl

theorem depth_base : ∀ (t : ParamType), tupleDepth t = tupleDepth (baseOf t)
  | .array t => by rw [tupleDepth, baseOf]; exact depth_base t
  | .fixedArray t _ => by rw [tupleDepth, baseOf]; exact depth_base t
  | .tuple _ => rfl
  | .address => rfl
  | .bytes => rfl
  | .bool => rfl
  | .string => rfl
  | .int _ => rfl
  | .uint _ => rfl
  | .fixedBytes _ => rfl

theorem read_depth {t : ParamType} {s : Str} (ha : ascii s) (hp : 'p' ∉ s) (h : read s = .ok t) : tupleDepth t ≤ 3 := by
  rcases read_shape t s ha hp h with h | ⟨ts, h, hm⟩
  · rw [depth_free h]; omega
  · rw [depth_base, h, tupleDepth]
    have := tupleDepthAll_le (n := 2) (ts := ts) fun t ht => depth_good (hm t ht)
    omega

end Ethabi

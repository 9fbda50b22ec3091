import Verif.Spec.TokenText
import Verif.Proofs.Tokenize
import Verif.Proofs.TokenizeTypes
import Verif.Proofs.TokenizeNumbers
/-! # Lemmas for C81: which value a text denotes -/
namespace Ethabi.TokenText
open Spec

/-! ### parts -/

theorem length_utf8Char (c : Char) : (utf8Char c).length = c.utf8Size := by
  have e : c.toNat = c.val.toNat := rfl
  unfold utf8Char Char.utf8Size
  simp only [UInt32.le_iff_toNat_le, e]
  repeat' split
  all_goals first | rfl | (simp at *; omega)

theorem byteLen_eq (s : Str) : byteLen s = bytesIn s := by
  induction s with
  | nil => rfl
  | cons c s ih => simp [byteLen, bytesIn, length_utf8Char, ih]

theorem splitAtByte_append (a b : Str) : splitAtByte (a ++ b) (byteLen a) = some (a, b) := by
  induction a with
  | nil => cases b <;> simp [byteLen, splitAtByte]
  | cons c a ih =>
    have := utf8Char_length_pos c
    obtain ⟨k, hk⟩ : ∃ k, byteLen (c :: a) = k + 1 := ⟨byteLen (c :: a) - 1, by simp [byteLen]; omega⟩
    rw [hk, List.cons_append, splitAtByte, ← hk, byteLen, if_pos (by omega), Nat.add_sub_cancel_left, ih]
    rfl

theorem strSlice_iff {s : Str} {a b : Nat} {u : Str} : strSlice s a b = .ok u ↔ partOf s a b u := by
  unfold partOf
  simp only [← byteLen_eq]
  constructor
  · intro h
    unfold strSlice at h
    split at h
    · split at h
      · cases h
      · rename_i hab _ p post hp
        split at h
        · cases h
        · rename_i _ x r hr
          cases h
          obtain ⟨e1, e2⟩ := splitAtByte_some hp
          obtain ⟨e3, e4⟩ := splitAtByte_some hr
          exact ⟨x, post, by rw [e1, e3], e4, by rw [← e3, e2]⟩
    · cases h
  · rintro ⟨x, y, rfl, rfl, rfl⟩
    unfold strSlice
    rw [if_pos (by rw [byteLen_append]; omega), splitAtByte_append]
    simp only []
    rw [splitAtByte_append]

theorem strSlice_panic {s : Str} {a b : Nat} : strSlice s a b = .panic ↔ ∀ u, ¬ partOf s a b u := by
  constructor
  · intro h u hu
    rw [← strSlice_iff, h] at hu; cases hu
  · intro h
    cases hs : strSlice s a b with
    | ok u => exact absurd (strSlice_iff.1 hs) (h u)
    | panic => rfl
    | err e =>
      unfold strSlice at hs
      repeat' split at hs
      all_goals cases hs

/-! ### the loop as a scan followed by reading the parts -/

/-- positions of the cuts, and whether the end is reached properly -/
def scan (o c : Char) : Str → Nat → Int → Bool → List Nat × Bool
  | [], _, _, q => ([], !q)
  | ch :: cs, pos, d, q =>
      if ch = o ∧ q = false then scan o c cs (pos + 1) (d + 1) q
      else if ch = c ∧ q = false then
        if d - 1 < 0 then ([], false)
        else if d - 1 = 0 then (pos :: (scan o c cs (pos + 1) (d - 1) q).1, (scan o c cs (pos + 1) (d - 1) q).2)
        else scan o c cs (pos + 1) (d - 1) q
      else if ch = '"' then scan o c cs (pos + 1) d (!q)
      else if ch = ',' ∧ d = 1 ∧ q = false then (pos :: (scan o c cs (pos + 1) d q).1, (scan o c cs (pos + 1) d q).2)
      else scan o c cs (pos + 1) d q

/-- read the parts one by one -/
def readParts (value : Str) (item : Nat → Str → Res Token) (fine : Bool) : List (Nat × Nat) → List Token → Res (List Token)
  | [], result => if fine then .ok result else .err .invalidData
  | ab :: sp, result => do
      let sub ← strSlice value ab.1 ab.2
      let token ← item result.length sub
      readParts value item fine sp (result ++ [token])

theorem pieceLoop_scan (o c : Char) (value : Str) (item : Nat → Str → Res Token) :
    ∀ (cs : Str) (pos : Nat) (d : Int) (q : Bool) (last : Nat) (result : List Token),
    pieceLoop o c value item cs pos d q last result =
      readParts value item (scan o c cs pos d q).2 (spans last (scan o c cs pos d q).1) result
  | [], pos, d, q, last, result => by
    cases q <;> simp [pieceLoop, scan, spans, readParts]
  | ch :: cs, pos, d, q, last, result => by
    rw [pieceLoop, scan]
    have ih := pieceLoop_scan o c value item cs
    split
    · exact ih _ _ _ _ _
    · split
      · split
        · simp [spans, readParts]
        · split
          · simp only [spans, readParts, ih]
          · exact ih _ _ _ _ _
      · split
        · exact ih _ _ _ _ _
        · split
          · simp only [spans, readParts, ih]
          · exact ih _ _ _ _ _

/-! ### the scan finds the cuts -/

theorem quoted_snoc (a : Str) (ch : Char) : quoted (a ++ [ch]) = if ch = '"' then !quoted a else quoted a := by
  unfold quoted
  rw [List.count_append, List.count_singleton]
  by_cases h : ch = '"'
  · rw [if_pos h, h]
    simp only [beq_self_eq_true, if_true]
    rcases Nat.mod_two_eq_zero_or_one (a.count '"') with h | h <;> simp [h, Nat.add_mod]
  · rw [if_neg h]; simp [h]

theorem outside_append (a b : Str) : ∀ q, outside q (a ++ b) = outside q a ++ outside (q != quoted a) b := by
  induction a with
  | nil => intro q; simp [outside, quoted]
  | cons ch a ih =>
    intro q
    have hq : quoted (ch :: a) = if ch = '"' then !quoted a else quoted a := by
      unfold quoted
      by_cases h : ch = '"'
      · rw [if_pos h, h, List.count_cons_self]
        rcases Nat.mod_two_eq_zero_or_one (a.count '"') with h | h <;> simp [h, Nat.add_mod]
      · rw [if_neg h, List.count_cons_of_ne h]
    rw [List.cons_append, outside, outside, hq]
    by_cases h : ch = '"'
    · simp only [if_pos h, ih]
      cases q <;> cases quoted a <;> rfl
    · simp only [if_neg h, ih]
      cases q <;> simp

theorem depth_snoc {o c : Char} (hb : Brackets o c) (a : Str) (ch : Char) :
    depth o c (a ++ [ch]) = depth o c a + if quoted a then 0 else if ch = o then 1 else if ch = c then -1 else 0 := by
  unfold depth
  rw [outside_append, List.count_append, List.count_append]
  have : (false != quoted a) = quoted a := by cases quoted a <;> rfl
  rw [this]
  have h1 := hb.oc
  have h2 := hb.oq
  have h3 := hb.cq
  cases hq : quoted a with
  | true => by_cases h : ch = '"' <;> simp [outside, h]
  | false =>
    by_cases hc : ch = '"'
    · subst hc
      simp [outside, Ne.symm h2, Ne.symm h3]
    · simp only [outside, if_neg hc, Bool.false_eq_true, if_false, List.count_singleton]
      by_cases ho : ch = o
      · subst ho
        simp [h1]; omega
      · by_cases hcc : ch = c
        · subst hcc; simp [ho]; omega
        · simp [ho, hcc]

theorem sound_succ (o c : Char) (s : Str) (i : Nat) :
    sound o c s (i + 1) = (sound o c s i && decide (0 ≤ depth o c (s.take (i + 1)))) := by
  unfold sound
  rw [List.range_succ, List.all_append]; simp

theorem sound_le {o c : Char} {s : Str} {i j : Nat} (h : sound o c s j = true) (hij : i ≤ j) : sound o c s i = true := by
  unfold sound at h ⊢
  rw [List.all_eq_true] at h ⊢
  intro x hx
  exact h x (by simp at hx ⊢; omega)

theorem scan_spec {o c : Char} (hb : Brackets o c) (s : Str) : ∀ (cs pre : Str), s = pre ++ cs →
    sound o c s pre.length = true →
    (scan o c cs pre.length (depth o c pre) (quoted pre)).1 = (List.range' pre.length cs.length).filter (isCut o c s) ∧
    ((scan o c cs pre.length (depth o c pre) (quoted pre)).2 = true ↔ sound o c s s.length = true ∧ quoted s = false)
  | [], pre, hs, hsd => by
    rw [List.append_nil] at hs
    subst hs
    simp [scan, hsd]
  | ch :: cs, pre, hs, hsd => by
    have hlen : (pre ++ [ch]).length = pre.length + 1 := by simp
    have hs' : s = (pre ++ [ch]) ++ cs := by simp [hs]
    have ht0 : s.take pre.length = pre := by rw [hs]; simp
    have ht1 : s.take (pre.length + 1) = pre ++ [ch] := by rw [hs']; exact List.take_left' hlen
    have hget : s[pre.length]? = some ch := by rw [hs]; simp
    have hsl : pre.length + 1 ≤ s.length := by rw [hs]; simp
    have hd := depth_snoc hb pre ch
    have hq := quoted_snoc pre ch
    have hs1 := sound_succ o c s pre.length
    rw [hsd, ht1, Bool.true_and] at hs1
    have ih := fun h => scan_spec hb s cs (pre ++ [ch]) hs' h
    rw [hlen] at ih
    have hcut : isCut o c s pre.length = ((ch == ',' || ch == c) && !quoted pre && depth o c pre == 1) := by
      unfold isCut
      rw [hsd, ht0, hget, Bool.and_true]
      simp
    have h0 : 0 ≤ depth o c pre := by
      have : sound o c s pre.length = true := hsd
      unfold sound at this
      rw [List.all_eq_true] at this
      have := this pre.length (by simp)
      rw [ht0] at this
      simpa using this
    have hc1 := hb.oc
    have hc2 := hb.oq
    have hc3 := hb.cq
    have hc4 := hb.oComma
    have hc5 := hb.cComma
    rw [scan, List.length_cons, List.range'_succ, List.filter_cons, hcut]
    cases hqp : quoted pre with
    | true =>
      rw [hqp] at hd hq
      simp only [if_true, Int.add_zero] at hd
      rw [hd] at ih hs1
      have hok : sound o c s (pre.length + 1) = true := by rw [hs1]; simpa using h0
      have ih := ih hok
      by_cases hch : ch = '"'
      · rw [if_pos hch] at hq
        rw [hq] at ih
        simpa [hch] using ih
      · rw [if_neg hch] at hq
        rw [hq] at ih
        simpa [hch] using ih
    | false =>
      rw [hqp] at hd hq
      simp only [Bool.false_eq_true, if_false] at hd
      by_cases ho : ch = o
      · subst ho
        rw [if_pos rfl] at hd
        rw [if_neg hc2] at hq
        rw [hd] at hs1
        have ih := ih (by rw [hs1]; simp; omega)
        rw [hd, hq] at ih
        simpa [hc4, hc1] using ih
      · rw [if_neg ho] at hd
        by_cases hcc : ch = c
        · subst hcc
          rw [if_pos rfl] at hd
          rw [if_neg hc3] at hq
          rw [hd] at hs1
          by_cases hneg : depth o ch pre - 1 < 0
          · have hbad : sound o ch s (pre.length + 1) = false := by rw [hs1]; simp; omega
            have hnone : (List.range' (pre.length + 1) cs.length).filter (isCut o ch s) = [] := by
              rw [List.filter_eq_nil_iff]
              intro i hi hcut
              rw [List.mem_range'_1] at hi
              unfold isCut at hcut
              simp only [Bool.and_eq_true] at hcut
              rw [sound_le hcut.2 hi.1] at hbad
              cases hbad
            have hne : ¬ depth o ch pre = 1 := by omega
            rw [hnone]
            simp only [ho, false_and, if_false, true_and, if_true, hneg]
            refine ⟨by simp [hne], by simp, fun h => ?_⟩
            rw [sound_le h.1 hsl] at hbad; cases hbad
          · have ih := ih (by rw [hs1]; simp; omega)
            have e : depth o ch pre + -1 = depth o ch pre - 1 := by omega
            rw [hd, hq, e] at ih
            by_cases h1 : depth o ch pre = 1
            · simp only [ho, false_and, if_false, true_and, if_true, hneg]
              rw [h1] at ih ⊢
              simpa using ih
            · have h2 : ¬ depth o ch pre - 1 = 0 := by omega
              simpa [ho, hneg, h1, h2] using ih
        · rw [if_neg hcc, Int.add_zero] at hd
          rw [hd] at hs1
          replace ih := ih (by rw [hs1]; simp; omega)
          rw [hd, hq] at ih
          by_cases hch : ch = '"'
          · subst hch
            simpa [ho, hcc] using ih
          · rw [if_neg hch] at ih
            by_cases hcm : ch = ','
            · subst hcm
              by_cases h1 : depth o c pre = 1
              · rw [h1] at ih ⊢
                simpa [ho, hcc] using ih
              · simpa [ho, hcc, h1] using ih
            · simpa [ho, hcc, hch, hcm] using ih

/-- the whole text -/
theorem scan_all {o c : Char} (hb : Brackets o c) (s : Str) :
    (scan o c s 0 0 false).1 = cuts o c s ∧
    ((scan o c s 0 0 false).2 = true ↔ sound o c s s.length = true ∧ quoted s = false) := by
  have := scan_spec hb s s [] rfl (by simp [sound, depth, outside])
  rw [cuts, List.range_eq_range']
  exact this

/-! ### outcomes of reading the parts -/

theorem readParts_ok {value : Str} {item : Nat → Str → Res Token} {fine : Bool} :
    ∀ {sp : List (Nat × Nat)} {result ts : List Token}, readParts value item fine sp result = .ok ts ↔
      fine = true ∧ ∃ us new, List.Forall₂ (fun ab u => partOf value ab.1 ab.2 u) sp us ∧
        eachPiece item result.length us = .ok new ∧ ts = result ++ new
  | [], result, ts => by
    cases fine with
    | true =>
      simp only [readParts, if_true, Res.ok.injEq, List.forall₂_nil_left_iff, true_and]
      constructor
      · rintro rfl; exact ⟨[], [], rfl, rfl, by simp⟩
      · rintro ⟨us, new, rfl, h, rfl⟩
        rw [eachPiece] at h
        rw [← Res.ok.inj h]; simp
    | false => simp [readParts]
  | ab :: sp, result, ts => by
    rw [readParts, Res.bind_eq_ok]
    have ih := fun r ts => readParts_ok (value := value) (item := item) (fine := fine) (sp := sp) (result := r) (ts := ts)
    constructor
    · rintro ⟨u, hu, h⟩
      obtain ⟨t, ht, h⟩ := Res.bind_eq_ok.1 h
      obtain ⟨hf, us, new, h1, h2, rfl⟩ := (ih _ _).1 h
      refine ⟨hf, u :: us, t :: new, .cons (strSlice_iff.1 hu) h1, ?_, by simp⟩
      rw [eachPiece, ht, Res.ok_bind]
      rw [List.length_append, List.length_singleton] at h2
      rw [h2]; rfl
    · rintro ⟨hf, us, new, h1, h2, rfl⟩
      cases h1 with
      | @cons _ u _ us hu h1 =>
        rw [eachPiece, Res.bind_eq_ok] at h2
        obtain ⟨t, ht, h2⟩ := h2
        obtain ⟨new', h2, h3⟩ := Res.bind_eq_ok.1 h2
        rw [← Res.ok.inj h3]
        refine ⟨u, strSlice_iff.2 hu, ?_⟩
        rw [Res.bind_eq_ok]
        refine ⟨t, ht, (ih _ _).2 ⟨hf, us, new', h1, ?_, by simp⟩⟩
        rw [List.length_append, List.length_singleton]; exact h2

theorem bind_eq_panic {α β : Type} {x : Res α} {f : α → Res β} :
    (x >>= f) = .panic ↔ x = .panic ∨ ∃ a, x = .ok a ∧ f a = .panic := by
  cases x <;> simp

theorem partOf_unique {s : Str} {a b : Nat} {u v : Str} (h : partOf s a b u) (h' : partOf s a b v) : u = v := by
  rw [← strSlice_iff] at h h'
  rw [h] at h'
  exact Res.ok.inj h'

theorem readParts_panic {value : Str} {item : Nat → Str → Res Token} {fine : Bool} :
    ∀ {sp : List (Nat × Nat)} {result : List Token}, readParts value item fine sp result = .panic ↔
      ∃ now ab later us ts, ∃ next : Option Str, sp = now ++ ab :: later ∧
        List.Forall₂ (fun ab u => partOf value ab.1 ab.2 u) now us ∧
        (∀ u, next = some u ↔ partOf value ab.1 ab.2 u) ∧
        eachPiece item result.length us = .ok ts ∧
        (next = none ∨ ∃ u, next = some u ∧ item (result.length + us.length) u = .panic)
  | [], result => by
    cases fine <;> simp [readParts]
  | ab :: sp, result => by
    rw [readParts, bind_eq_panic]
    have ih := fun r => readParts_panic (value := value) (item := item) (fine := fine) (sp := sp) (result := r)
    constructor
    · rintro (h | ⟨u, hu, h⟩)
      · rw [strSlice_panic] at h
        exact ⟨[], ab, sp, [], [], none, rfl, .nil, fun u => ⟨nofun, fun hu => absurd hu (h u)⟩, rfl, Or.inl rfl⟩
      · rw [strSlice_iff] at hu
        rw [bind_eq_panic] at h
        rcases h with h | ⟨t, ht, h⟩
        · refine ⟨[], ab, sp, [], [], some u, rfl, .nil, fun v => ⟨?_, ?_⟩, rfl, Or.inr ⟨u, rfl, h⟩⟩
          · intro e; rw [← Option.some.inj e]; exact hu
          · intro hv; rw [partOf_unique hu hv]
        · obtain ⟨now, ab', later, us, ts, next, rfl, h1, h2, h3, h4⟩ := (ih _).1 h
          rw [List.length_append, List.length_singleton] at h3 h4
          refine ⟨ab :: now, ab', later, u :: us, t :: ts, next, rfl, .cons hu h1, h2, ?_, ?_⟩
          · rw [eachPiece, ht, Res.ok_bind, h3]; rfl
          · rw [List.length_cons]
            rwa [Nat.add_assoc, Nat.add_comm 1] at h4
    · rintro ⟨now, ab', later, us, ts, next, hsp, h1, h2, h3, h4⟩
      cases h1 with
      | nil =>
        simp only [List.nil_append, List.cons.injEq] at hsp
        obtain ⟨rfl, rfl⟩ := hsp
        rcases h4 with rfl | ⟨u, rfl, h4⟩
        · left
          rw [strSlice_panic]
          intro u hu
          exact absurd ((h2 u).2 hu) nofun
        · right
          exact ⟨u, strSlice_iff.2 ((h2 u).1 rfl), bind_eq_panic.2 (Or.inl h4)⟩
      | @cons _ u now' us' hu h1 =>
        simp only [List.cons_append, List.cons.injEq] at hsp
        obtain ⟨rfl, rfl⟩ := hsp
        right
        rw [eachPiece, Res.bind_eq_ok] at h3
        obtain ⟨t, ht, h3⟩ := h3
        obtain ⟨ts', h3, -⟩ := Res.bind_eq_ok.1 h3
        refine ⟨u, strSlice_iff.2 hu, bind_eq_panic.2 (Or.inr ⟨t, ht, (ih _).2 ?_⟩)⟩
        rw [List.length_append, List.length_singleton]
        refine ⟨now', ab', later, us', ts', next, rfl, h1, h2, h3, ?_⟩
        rw [List.length_cons] at h4
        rwa [Nat.add_assoc, Nat.add_comm 1]

theorem tokenizePieces_ok {o c : Char} (hb : Brackets o c) {s : Str} {item : Nat → Str → Res Token} {ts : List Token} :
    tokenizePieces o c s item = .ok ts ↔ ∃ us, listOf o c s us ∧ eachPiece item 0 us = .ok ts := by
  unfold tokenizePieces listOf bracketed
  obtain ⟨hs1, hs2⟩ := scan_all hb s
  rw [pieceLoop_scan, hs1]
  split
  · rename_i h
    constructor
    · intro h; cases h
    · rintro ⟨us, ⟨hbr, -⟩, -⟩
      rcases h with h | h
      · exact absurd hbr.1 h
      · exact absurd hbr.2 h
  · rename_i h
    simp only [not_or, not_not] at h
    split
    · rename_i hl
      constructor
      · intro e
        exact ⟨[], ⟨h, Or.inl ⟨hl, rfl⟩⟩, e⟩
      · rintro ⟨us, ⟨-, ⟨-, rfl⟩ | ⟨hl', -⟩⟩, e⟩
        · exact e
        · exact absurd hl hl'
    · rename_i hl
      rw [readParts_ok, hs2]
      constructor
      · rintro ⟨⟨h1, h2⟩, us, new, h3, h4, rfl⟩
        exact ⟨us, ⟨h, Or.inr ⟨hl, h1, h2, h3⟩⟩, by simpa using h4⟩
      · rintro ⟨us, ⟨-, ⟨hl', -⟩ | ⟨-, h1, h2, h3⟩⟩, h4⟩
        · exact absurd hl' hl
        · exact ⟨⟨h1, h2⟩, us, ts, h3, h4, rfl⟩

theorem tokenizePieces_panic {o c : Char} (hb : Brackets o c) {s : Str} {item : Nat → Str → Res Token} :
    tokenizePieces o c s item = .panic ↔ ∃ us ts next, partsThen o c s us next ∧ eachPiece item 0 us = .ok ts ∧
      (next = none ∨ ∃ u, next = some u ∧ item us.length u = .panic) := by
  unfold tokenizePieces partsThen bracketed
  obtain ⟨hs1, hs2⟩ := scan_all hb s
  rw [pieceLoop_scan, hs1]
  split
  · rename_i h
    constructor
    · intro h; cases h
    · rintro ⟨us, ts, next, ⟨hbr, -⟩, -⟩
      rcases h with h | h
      · exact absurd hbr.1 h
      · exact absurd hbr.2 h
  · rename_i h
    simp only [not_or, not_not] at h
    split
    · rename_i hl
      constructor
      · intro e; cases e
      · rintro ⟨us, ts, next, ⟨-, hl', -⟩, -⟩
        exact absurd hl hl'
    · rename_i hl
      rw [readParts_panic]
      simp only [List.length_nil, Nat.zero_add]
      constructor
      · rintro ⟨now, ab, later, us, ts, next, h1, h2, h3, h4, h5⟩
        exact ⟨us, ts, next, ⟨h, hl, now, ab, later, h1, h2, h3⟩, h4, h5⟩
      · rintro ⟨us, ts, next, ⟨-, -, now, ab, later, h1, h2, h3⟩, h4, h5⟩
        exact ⟨now, ab, later, us, ts, next, h1, h2, h3, h4, h5⟩

/-! ### elementary types -/

theorem hexDecode_iff {s : Str} {b : Bytes} : hexDecode s = .ok b ↔ hexText s b := by
  unfold hexText
  constructor
  · intro h
    obtain ⟨h1, h2⟩ := hexadecimal_of_hexDecode s b h
    obtain ⟨v, hv⟩ := Option.isSome_iff_exists.1 h1
    obtain ⟨b', h3, -, h5⟩ := hexDecode_of_hexadecimal s b.length v hv h2
    rw [h] at h3
    cases Res.ok.inj h3
    exact ⟨h2, by rw [hv, h5]⟩
  · rintro ⟨h1, h2⟩
    obtain ⟨b', h3, h4, h5⟩ := hexDecode_of_hexadecimal s b.length _ h2 h1
    rw [h3, ← beBytes_beNat b', h4, h5, beBytes_beNat b]

theorem fullHex_iff {s : Str} : isFullHex s = true ↔ s.length = 64 ∧ ∃ n, hexadecimal s = some n := by
  simp [isFullHex, Option.isSome_iff_exists]

theorem uint_iff (m : Tokenizer) (bits : Nat) (s : Str) (t : Token) :
    tokenize m (.uint bits) s = .ok t ↔ denotes m (.uint bits) s t := by
  simp only [denotes]
  cases hf : isFullHex s with
  | true =>
    obtain ⟨hl, n, hn⟩ := fullHex_iff.1 hf
    rw [tokenize_hex_uint m bits s n hl hn, Res.ok.injEq]
    constructor
    · rintro rfl; exact ⟨n, rfl, Or.inl ⟨hl, hn⟩⟩
    · rintro ⟨k, rfl, ⟨-, hk⟩ | ⟨-, h, -⟩⟩
      · rw [hn] at hk; rw [Option.some.inj hk]
      · cases h
  | false =>
    have hno : ∀ n, ¬ (s.length = 64 ∧ hexadecimal s = some n) := by
      rintro n ⟨hl, hn⟩
      rw [fullHex_iff.2 ⟨hl, n, hn⟩] at hf; cases hf
    cases m with
    | strict =>
      obtain ⟨e, he⟩ := strictUint_not_hex hf
      rw [tokenize, tokenizeUint, he]
      constructor
      · intro h; cases h
      · rintro ⟨k, rfl, h | ⟨h, -⟩⟩
        · exact absurd h (hno k)
        · cases h
    | lenient =>
      rw [tokenize_lenient_uint bits s hf]
      cases hd : decimal s with
      | none =>
        constructor
        · intro h; cases h
        · rintro ⟨k, rfl, h | ⟨-, -, h, -⟩⟩
          · exact absurd h (hno k)
          · cases h
      | some v =>
        simp only []
        split
        · rename_i hv
          rw [Res.ok.injEq]
          constructor
          · rintro rfl; exact ⟨v, rfl, Or.inr ⟨trivial, trivial, rfl, hv⟩⟩
          · rintro ⟨k, rfl, h | ⟨-, -, h, -⟩⟩
            · exact absurd h (hno k)
            · rw [Option.some.inj h]
        · rename_i hv
          constructor
          · intro h; cases h
          · rintro ⟨k, rfl, h | ⟨-, -, h, h'⟩⟩
            · exact absurd h (hno k)
            · rw [Option.some.inj h] at hv; exact absurd h' hv

theorem int_iff (m : Tokenizer) (bits : Nat) (s : Str) (t : Token) :
    tokenize m (.int bits) s = .ok t ↔ denotes m (.int bits) s t := by
  simp only [denotes]
  cases hf : isFullHex s with
  | true =>
    obtain ⟨hl, n, hn⟩ := fullHex_iff.1 hf
    rw [tokenize_hex_int m bits s n hl hn, Res.ok.injEq]
    constructor
    · rintro rfl; exact Or.inl ⟨n, rfl, hl, hn⟩
    · rintro (⟨k, rfl, -, hk⟩ | ⟨i, -, -, h, -⟩)
      · rw [hn] at hk; rw [Option.some.inj hk]
      · cases h
  | false =>
    have hno : ∀ n, ¬ (s.length = 64 ∧ hexadecimal s = some n) := by
      rintro n ⟨hl, hn⟩
      rw [fullHex_iff.2 ⟨hl, n, hn⟩] at hf; cases hf
    cases m with
    | strict =>
      obtain ⟨e, he⟩ := strictUint_not_hex hf
      have he : strictInt s = .err e := he
      rw [tokenize, tokenizeInt, he]
      constructor
      · intro h; cases h
      · rintro (⟨k, rfl, h⟩ | ⟨i, -, h, -⟩)
        · exact absurd h (hno k)
        · cases h
    | lenient =>
      rw [tokenize_lenient_int bits s hf]
      cases hd : signedDecimal s with
      | none =>
        constructor
        · intro h; cases h
        · rintro (⟨k, rfl, h⟩ | ⟨i, -, -, -, h, -⟩)
          · exact absurd h (hno k)
          · cases h
      | some v =>
        simp only []
        split
        · rename_i hv
          rw [Res.ok.injEq]
          constructor
          · rintro rfl; exact Or.inr ⟨v, rfl, trivial, trivial, rfl, hv⟩
          · rintro (⟨k, rfl, h⟩ | ⟨i, rfl, -, -, h, -⟩)
            · exact absurd h (hno k)
            · rw [Option.some.inj h]
        · rename_i hv
          constructor
          · intro h; cases h
          · rintro (⟨k, rfl, h⟩ | ⟨i, rfl, -, -, h, h'⟩)
            · exact absurd h (hno k)
            · rw [Option.some.inj h] at hv; exact absurd h' hv

/-! ### all types -/

theorem forall₂_congr {α β : Type} {R S : α → β → Prop} (h : ∀ a b, R a b ↔ S a b) {l : List α} {l' : List β} :
    List.Forall₂ R l l' ↔ List.Forall₂ S l l' :=
  ⟨fun g => g.imp fun a b => (h a b).1, fun g => g.imp fun a b => (h a b).2⟩

mutual
theorem tokenize_iff (m : Tokenizer) : ∀ (p : ParamType) (s : Str) (t : Token), tokenize m p s = .ok t ↔ denotes m p s t
  | .address, s, t => by
    rw [tokenize, map_eq_ok, denotes]
    constructor
    · rintro ⟨a, h, rfl⟩
      rw [strictAddress, Res.bind_eq_ok] at h
      obtain ⟨b, hb, h⟩ := h
      split at h
      · cases h; exact ⟨_, hexDecode_iff.1 hb, rfl⟩
      · cases h
    · rintro ⟨a, h, rfl⟩
      refine ⟨a, ?_, rfl⟩
      rw [strictAddress, hexDecode_iff.2 h, Res.ok_bind, dif_pos a.2]
  | .bytes, s, t => by
    rw [tokenize, map_eq_ok, denotes]
    constructor
    · rintro ⟨b, h, rfl⟩; exact ⟨b, hexDecode_iff.1 h, rfl⟩
    · rintro ⟨b, h, rfl⟩; exact ⟨b, hexDecode_iff.2 h, rfl⟩
  | .fixedBytes n, s, t => by
    rw [tokenize, map_eq_ok, denotes]
    constructor
    · rintro ⟨b, h, rfl⟩
      rw [strictFixedBytes, Res.bind_eq_ok] at h
      obtain ⟨b', hb, h⟩ := h
      split at h
      · rename_i hl
        cases h; exact ⟨b, hexDecode_iff.1 hb, hl, rfl⟩
      · cases h
    · rintro ⟨b, h, hl, rfl⟩
      refine ⟨b, ?_, rfl⟩
      rw [strictFixedBytes, hexDecode_iff.2 h, Res.ok_bind, if_pos hl]
  | .string, s, t => by
    rw [tokenize, map_eq_ok, denotes, strictString]
    constructor
    · rintro ⟨b, h, rfl⟩; rw [Res.ok.inj h]
    · rintro rfl; exact ⟨s, rfl, rfl⟩
  | .bool, s, t => by
    rw [tokenize, map_eq_ok, denotes, strictBool]
    split
    · rename_i h1
      simp only [Res.ok.injEq, exists_eq_left', h1, true_and]
      have hx : ¬ (s = lit "false" ∨ s = lit "0") := by
        rcases h1 with rfl | rfl <;> decide
      simp only [hx, false_and, or_false]
      exact eq_comm
    · rename_i h1
      simp only [h1, false_and, false_or]
      split
      · rename_i h2
        simp only [Res.ok.injEq, exists_eq_left', h2, true_and]
        exact eq_comm
      · rename_i h2
        simp only [h2, false_and, iff_false]
        rintro ⟨a, h, -⟩
        cases h
  | .uint bits, s, t => uint_iff m bits s t
  | .int bits, s, t => int_iff m bits s t
  | .array p, s, t => by
    rw [tokenize, map_eq_ok, denotes, tokenizeArray]
    simp only [tokenizePieces_ok square, eachPiece_const, forall₂_congr (tokenize_iff m p)]
    constructor
    · rintro ⟨ts, ⟨us, h1, h2⟩, rfl⟩; exact ⟨us, ts, h1, h2, rfl⟩
    · rintro ⟨us, ts, h1, h2, rfl⟩; exact ⟨ts, ⟨us, h1, h2⟩, rfl⟩
  | .fixedArray p n, s, t => by
    rw [tokenize, map_eq_ok, denotes]
    simp only [tokenizeFixedArray, Res.bind_eq_ok, tokenizeArray]
    simp only [tokenizePieces_ok square, eachPiece_const, forall₂_congr (tokenize_iff m p)]
    constructor
    · rintro ⟨ts, ⟨ts', ⟨us, h1, h2⟩, h3⟩, rfl⟩
      split at h3
      · rename_i hl
        cases h3
        exact ⟨us, ts, h1, h2, hl, rfl⟩
      · cases h3
    · rintro ⟨us, ts, h1, h2, hl, rfl⟩; exact ⟨ts, ⟨ts, ⟨us, h1, h2⟩, if_pos hl⟩, rfl⟩
  | .tuple ps, s, t => by
    rw [tokenize, map_eq_ok, denotes, tokenizeStruct_eq]
    simp only [tokenizePieces_ok round]
    have key := fun us ts => (eachPiece_members (m := m) (ps := us) (i := 0) (qs := ps) (qs' := ps) (ts := ts)
      (by simp) (by simp)).trans (tokenizeEach_iff m ps us ts)
    simp only [key]
    constructor
    · rintro ⟨ts, ⟨us, h1, h2⟩, rfl⟩; exact ⟨us, ts, h1, h2, rfl⟩
    · rintro ⟨us, ts, h1, h2, rfl⟩; exact ⟨ts, ⟨us, h1, h2⟩, rfl⟩
theorem tokenizeEach_iff (m : Tokenizer) : ∀ (ps : List ParamType) (us : List Str) (ts : List Token),
    (us.length ≤ ps.length ∧ List.Forall₂ (fun x t => tokenize m x.1 x.2 = .ok t) (ps.zip us) ts) ↔ denotesEach m ps us ts
  | ps, [], ts => by
    have : denotesEach m ps [] ts ↔ ts = [] := by cases ps <;> simp [denotesEach]
    rw [this, List.zip_nil_right, List.forall₂_nil_left_iff]; simp
  | [], u :: us, ts => by simp [denotesEach]
  | p :: ps, u :: us, ts => by
    rw [denotesEach, List.zip_cons_cons]
    constructor
    · rintro ⟨hl, h⟩
      cases h with
      | cons h1 h2 =>
        exact ⟨_, _, (tokenize_iff m p u _).1 h1, (tokenizeEach_iff m ps us _).1 ⟨by simpa using hl, h2⟩, rfl⟩
    · rintro ⟨t, rest, h1, h2, rfl⟩
      obtain ⟨h3, h4⟩ := (tokenizeEach_iff m ps us rest).2 h2
      exact ⟨by simpa using h3, .cons ((tokenize_iff m p u t).2 h1) h4⟩
end

mutual
theorem tokenize_panic_iff (m : Tokenizer) : ∀ (p : ParamType) (s : Str), tokenize m p s = .panic ↔ breaks m p s
  | .address, s => by simpa [breaks] using tokenize_leaf_noPanic m .address s trivial
  | .bytes, s => by simpa [breaks] using tokenize_leaf_noPanic m .bytes s trivial
  | .fixedBytes n, s => by simpa [breaks] using tokenize_leaf_noPanic m (.fixedBytes n) s trivial
  | .string, s => by simpa [breaks] using tokenize_leaf_noPanic m .string s trivial
  | .bool, s => by simpa [breaks] using tokenize_leaf_noPanic m .bool s trivial
  | .uint n, s => by simpa [breaks] using tokenize_leaf_noPanic m (.uint n) s trivial
  | .int n, s => by simpa [breaks] using tokenize_leaf_noPanic m (.int n) s trivial
  | .array p, s => by
    rw [tokenize, map_eq_panic, breaks, tokenizeArray]
    simp only [tokenizePieces_panic square, eachPiece_const, forall₂_congr (tokenize_iff m p), tokenize_panic_iff m p]
  | .fixedArray p n, s => by
    rw [tokenize, map_eq_panic, breaks, tokenizeFixedArray, bind_eq_panic, tokenizeArray]
    have : ¬ ∃ a : List Token, tokenizePieces '[' ']' s (fun _ sub => tokenize m p sub) = .ok a ∧
        (if a.length = n then .ok a else .err .invalidData : Res (List Token)) = .panic := by
      rintro ⟨a, -, h⟩
      split at h <;> cases h
    simp only [this, or_false]
    simp only [tokenizePieces_panic square, eachPiece_const, forall₂_congr (tokenize_iff m p), tokenize_panic_iff m p]
  | .tuple ps, s => by
    rw [tokenize, map_eq_panic, breaks, tokenizeStruct_eq]
    have key := fun us ts => (eachPiece_members (m := m) (ps := us) (i := 0) (qs := ps) (qs' := ps) (ts := ts)
      (by simp) (by simp)).trans (tokenizeEach_iff m ps us ts)
    simp only [tokenizePieces_panic round, key, member_panic_iff m ps]
theorem member_panic_iff (m : Tokenizer) : ∀ (ps : List ParamType) (i : Nat) (u : Str),
    memberItem m ps i u = .panic ↔ breaksAt m ps i u
  | [], i, u => by simp [memberItem, breaksAt]
  | p :: ps, 0, u => by
    rw [breaksAt]
    exact tokenize_panic_iff m p u
  | p :: ps, i + 1, u => by
    rw [breaksAt]
    exact member_panic_iff m ps i u
end

end Ethabi.TokenText

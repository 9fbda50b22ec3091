import Verif.Proofs.TypeText
import Verif.Spec.NestedText
/-! `Reader::read` on tuples with one level of tuples inside. -/
namespace Ethabi.NestedText
open Spec

theorem noDelimiter_plain {s : Str} (h : NoDelimiter s) : plainText s := fun c hc => (h c hc).2

theorem noDelimiter_ascii {s : Str} (h : NoDelimiter s) : ascii s := fun c hc => (h c hc).1

/-- what a member contributes -/
def pieceRead : Piece → Res (List ParamType)
  | .plain p => if p = [] then .ok [] else read p >>= fun t => .ok [t]
  | .group _ inside last after => seqRead inside >>= fun _ =>
      if last = [] then (if after = [] then .ok [] else read after >>= fun t => .ok [t])
      else read ('(' :: (commaSeparated (inside ++ [last]) ++ ')' :: after)) >>= fun t => .ok [t]

/-- the loop's continuation after a member -/
def Continues (name rest : Str) (p : Nat) (d : Char) (subs : List ParamType) (loop : Res ReadSt) :
    Res (List ParamType) → Prop
  | .ok ts => ∃ S o, loop = readLoop read name rest p 0
      { subtypes := subs ++ ts, subtuples := S, nested := if d = ')' then 0 else 1, topOpen := o, lastItem := p }
  | .err e => loop = .err e
  | .panic => loop = .panic

/-- a plain item and its delimiter -/
theorem item_delimiter {name pre p rest : Str} {pos : Nat} {st : ReadSt} {d : Char}
    (hd : d = ',' ∨ d = ')') (hasc : ascii name) (hname : name = pre ++ p ++ d :: rest) (hpos : pos = pre.length)
    (hp : plainText p) (hl : st.lastItem = pos) (hn : st.nested = 1) :
    Continues name rest (pos + p.length + 1) d st.subtypes (readLoop read name (p ++ d :: rest) pos 0 st)
      (if p = [] then .ok [] else read p >>= fun t => .ok [t]) := by
  rw [loop_plain read name hp]
  have hs : strSlice name st.lastItem (pos + p.length) = .ok p := by
    rw [hname] at hasc ⊢
    exact strSlice_mid hasc (by omega) (by omega)
  rcases hd with rfl | rfl
  · rw [readLoop_comma, readComma, hs]
    simp only [Res.ok_bind]
    by_cases he : p = []
    · rw [if_pos he, if_pos he]
      exact ⟨st.subtuples, st.topOpen, by simp [hn]⟩
    · rw [if_neg he, if_neg he, if_pos hn]
      cases read p with
      | err e => rfl
      | panic => rfl
      | ok t => exact ⟨st.subtuples, st.topOpen, by simp [hn]⟩
  · rw [readLoop_close]
    unfold readClose
    simp only [hn]
    rw [if_neg (by omega), hs]
    simp only [Res.ok_bind]
    by_cases he : p = []
    · rw [if_pos he, if_pos he]
      exact ⟨st.subtuples, st.topOpen, by simp⟩
    · rw [if_neg he, if_neg he, if_pos (by omega)]
      cases read p with
      | err e => rfl
      | panic => rfl
      | ok t => exact ⟨st.subtuples, st.topOpen, by simp⟩

/-- texts each followed by a comma -/
def commas (ps : List Str) : Str := ps.flatMap fun p => p ++ [',']

theorem commaSeparated_concat (ps : List Str) (l : Str) : commaSeparated (ps ++ [l]) = commas ps ++ l := by
  induction ps with
  | nil => simp [commas, commaSeparated_one]
  | cons p ps ih =>
    cases ps with
    | nil => simp [commas, commaSeparated_cons, commaSeparated_one]
    | cons q ps =>
      simp only [List.cons_append] at ih ⊢
      rw [commaSeparated_cons, ih]
      simp [commas]

/-- the pieces of an inner list but the last one -/
theorem inside_read {name : Str} (hasc : ascii name) : ∀ (ps : List Str) (pre rest : Str) (pos : Nat) (st : ReadSt),
    (∀ p ∈ ps, plainText p) → name = pre ++ (commas ps ++ rest) → pos = pre.length → st.lastItem = pos →
    st.nested = 2 → st.subtuples ≠ [] →
    (∀ ts, seqRead ps = .ok ts → ∃ S, S ≠ [] ∧ readLoop read name (commas ps ++ rest) pos 0 st =
      readLoop read name rest (pos + (commas ps).length) 0
        { st with subtuples := S, lastItem := pos + (commas ps).length }) ∧
    (∀ e, seqRead ps = .err e → readLoop read name (commas ps ++ rest) pos 0 st = .err e) ∧
    (seqRead ps = .panic → readLoop read name (commas ps ++ rest) pos 0 st = .panic)
  | [], pre, rest, pos, st, _, _, _, hl, _, hS => by
    refine ⟨fun ts _ => ⟨st.subtuples, hS, ?_⟩, nofun, nofun⟩
    simp [commas, ← hl]
  | p :: ps, pre, rest, pos, st, hpl, hname, hpos, hl, hn, hS => by
    have e : commas (p :: ps) ++ rest = p ++ ',' :: (commas ps ++ rest) := by simp [commas]
    have elen : (commas (p :: ps)).length = p.length + 1 + (commas ps).length := by simp [commas]; omega
    obtain ⟨s, S, hs⟩ := List.exists_cons_of_ne_nil hS
    have hsl : strSlice name st.lastItem (pos + p.length) = .ok p := by
      have : name = pre ++ p ++ ',' :: (commas ps ++ rest) := by rw [hname, e]; simp
      rw [this] at hasc ⊢
      exact strSlice_mid hasc (by omega) (by omega)
    have ih : ∀ (S' : List (List ParamType)), S' ≠ [] → _ := fun S' hS' =>
      inside_read hasc ps (pre ++ p ++ [',']) rest (pos + p.length + 1)
        { st with subtuples := S', lastItem := pos + p.length + 1 } (fun q hq => hpl q (by simp [hq]))
        (by rw [hname, e]; simp) (by simp; omega) rfl hn hS'
    have epos : pos + p.length + 1 + (commas ps).length = pos + (commas (p :: ps)).length := by omega
    rw [e, loop_plain read name (hpl p (by simp)), readLoop_comma, readComma, hsl]
    simp only [Res.ok_bind]
    by_cases he : p = []
    · rw [if_pos he, seqRead, if_pos he]
      simp only [Res.ok_bind]
      obtain ⟨i1, i2, i3⟩ := ih st.subtuples hS
      refine ⟨fun ts h => ?_, i2, i3⟩
      obtain ⟨S', h1, h2⟩ := i1 ts h
      exact ⟨S', h1, by rw [h2, epos]⟩
    · rw [if_neg he, if_neg (by omega), if_pos (by omega), seqRead, if_neg he]
      cases hr : read p with
      | err e => exact ⟨nofun, fun e' h => by simpa using h, nofun⟩
      | panic => exact ⟨nofun, nofun, fun _ => rfl⟩
      | ok t =>
        have hi : indexVec st.subtuples (st.nested - 2) = .ok s := by
          rw [hn, hs]; rfl
        simp only [Res.ok_bind, hi]
        obtain ⟨i1, i2, i3⟩ := ih (st.subtuples.set (st.nested - 2).toNat (s ++ [t])) (by rw [hs, hn]; simp)
        refine ⟨fun ts h => ?_, fun e h => ?_, fun h => ?_⟩
        · rw [Res.bind_eq_ok] at h
          obtain ⟨us, h, -⟩ := h
          obtain ⟨S', h1, h2⟩ := i1 us h
          exact ⟨S', h1, by rw [h2, epos]⟩
        · apply i2
          cases hq : seqRead ps with
          | ok us => rw [hq] at h; cases h
          | panic => rw [hq] at h; cases h
          | err e' => rw [hq] at h; exact h
        · apply i3
          cases hq : seqRead ps with
          | ok us => rw [hq] at h; cases h
          | panic => rfl
          | err e' => rw [hq] at h; cases h

/-- a member and its delimiter -/
theorem piece_delimiter {name pre rest : Str} {p : Piece} {pos : Nat} {st : ReadSt} {d : Char}
    (hd : d = ',' ∨ d = ')') (hasc : ascii name) (hname : name = pre ++ p.text ++ d :: rest) (hpos : pos = pre.length)
    (hp : p.Plain) (hl : st.lastItem = pos) (hn : st.nested = 1) :
    Continues name rest (pos + p.text.length + 1) d st.subtypes (readLoop read name (p.text ++ d :: rest) pos 0 st)
      (pieceRead p) := by
  cases p with
  | plain p => exact item_delimiter hd hasc hname hpos (noDelimiter_plain hp) hl hn
  | group before inside last after =>
    obtain ⟨hb, hi, hla, haf⟩ := hp
    have hb := noDelimiter_plain hb
    have hla := noDelimiter_plain hla
    have haf := noDelimiter_plain haf
    have et : (Piece.group before inside last after).text =
        before ++ '(' :: (commas inside ++ (last ++ ')' :: after)) := by
      simp [Piece.text, commaSeparated_concat]
    have elen : (Piece.group before inside last after).text.length =
        before.length + 1 + (commas inside).length + last.length + 1 + after.length := by
      rw [et]; simp; omega
    rw [et] at hname
    rw [elen, et]
    rw [show before ++ '(' :: (commas inside ++ (last ++ ')' :: after)) ++ d :: rest =
      before ++ '(' :: (commas inside ++ (last ++ ')' :: (after ++ d :: rest))) by simp,
      loop_plain read name hb, readLoop_open, readOpen_inner (by omega)]
    obtain ⟨i1, i2, i3⟩ := inside_read hasc inside (pre ++ before ++ ['(']) (last ++ ')' :: (after ++ d :: rest))
      (pos + before.length + 1) { st with topOpen := pos + before.length, nested := st.nested + 1, subtuples := st.subtuples ++ [[]], lastItem := pos + before.length + 1 }
      (fun q hq => noDelimiter_plain (hi q hq)) (by rw [hname]; simp) (by simp; omega) rfl (by simp [hn]) (by simp)
    rw [pieceRead]
    cases hq : seqRead inside with
    | err e => exact i2 e hq
    | panic => exact i3 hq
    | ok ts =>
      obtain ⟨S, hS, h⟩ := i1 ts hq
      rw [h, loop_plain read name hla, readLoop_close]
      have hitem : strSlice name (pos + before.length + 1 + (commas inside).length)
          (pos + before.length + 1 + (commas inside).length + last.length) = .ok last := by
        have : name = (pre ++ before ++ '(' :: commas inside) ++ last ++ (')' :: (after ++ d :: rest)) := by
          rw [hname]; simp
        rw [this] at hasc ⊢
        exact strSlice_mid hasc (by simp; omega) (by simp; omega)
      unfold readClose
      simp only [hn]
      rw [if_neg (by omega), hitem]
      simp only [Res.ok_bind]
      by_cases he : last = []
      · rw [if_pos he, if_pos he]
        simp only [Res.ok_bind]
        have := item_delimiter (name := name) (pre := pre ++ before ++ '(' :: (commas inside ++ last ++ [')'])) (p := after)
          (rest := rest) (pos := pos + before.length + 1 + (commas inside).length + last.length + 1)
          (st := { subtypes := st.subtypes, subtuples := S, nested := 1 + 1 - 1, topOpen := pos + before.length, lastItem := pos + before.length + 1 + (commas inside).length + last.length + 1 })
          hd hasc (by rw [hname]; simp) (by simp; omega) haf rfl rfl
        rw [show pos + (before.length + 1 + (commas inside).length + last.length + 1 + after.length) + 1 =
          pos + before.length + 1 + (commas inside).length + last.length + 1 + after.length + 1 by omega]
        exact this
      · rw [if_neg he, if_neg he, if_neg (by omega), trailing_plain haf hd]
        have hinner : strSlice name (pos + before.length)
            (pos + before.length + 1 + (commas inside).length + last.length + after.length + 1) =
            .ok ('(' :: (commaSeparated (inside ++ [last]) ++ ')' :: after)) := by
          have : name = (pre ++ before) ++ ('(' :: (commaSeparated (inside ++ [last]) ++ ')' :: after)) ++ (d :: rest) := by
            rw [hname, commaSeparated_concat]; simp
          rw [this] at hasc ⊢
          refine strSlice_mid hasc (by simp; omega) ?_
          rw [commaSeparated_concat]; simp; omega
        rw [hinner]
        simp only [Res.ok_bind]
        cases hr : read ('(' :: (commaSeparated (inside ++ [last]) ++ ')' :: after)) with
        | err e => rfl
        | panic => rfl
        | ok t =>
          simp only [Res.ok_bind]
          rw [if_neg (by omega)]
          simp only [Res.ok_bind]
          rw [loop_skip]
          have := item_delimiter (name := name) (pre := pre ++ before ++ '(' :: (commas inside ++ last ++ ')' :: after)) (p := [])
            (rest := rest) (pos := pos + before.length + 1 + (commas inside).length + last.length + 1 + after.length)
            (st := { subtypes := st.subtypes ++ [t], subtuples := S, nested := 1 + 1 - 1, topOpen := pos + before.length, lastItem := pos + before.length + 1 + (commas inside).length + last.length + after.length + 1 })
            hd hasc (by rw [hname]; simp) (by simp; omega) (fun _ h => nomatch h)
            (by simp only []; omega) rfl
          obtain ⟨S', o, h⟩ := this
          refine ⟨S', o, ?_⟩
          rw [show pos + (before.length + 1 + (commas inside).length + last.length + 1 + after.length) + 1 =
            pos + before.length + 1 + (commas inside).length + last.length + 1 + after.length + ([] : Str).length + 1 by simp; omega]
          simpa using h

/-- reading members in order -/
def piecesRead : List Piece → Res (List ParamType)
  | [] => .ok []
  | p :: ps => pieceRead p >>= fun ts => piecesRead ps >>= fun us => .ok (ts ++ us)

theorem loop_members {name : Str} (hasc : ascii name) : ∀ (ps : List Piece) (p : Piece) (pre : Str) (pos : Nat) (st : ReadSt),
    (∀ q ∈ p :: ps, q.Plain) → name = pre ++ commaSeparated ((p :: ps).map Piece.text) ++ [')'] → pos = pre.length →
    st.lastItem = pos → st.nested = 1 →
    (readLoop read name (commaSeparated ((p :: ps).map Piece.text) ++ [')']) pos 0 st >>=
        fun st' => Res.ok (ParamType.tuple st'.subtypes))
      = (piecesRead (p :: ps) >>= fun ts => .ok (.tuple (st.subtypes ++ ts)))
  | [], p, pre, pos, st, hpl, hname, hpos, hl, hn => by
    simp only [List.map_cons, List.map_nil] at hname ⊢
    rw [commaSeparated_one] at hname ⊢
    have h := piece_delimiter (d := ')') (rest := []) (Or.inr rfl) hasc hname hpos (hpl p (by simp)) hl hn
    rw [piecesRead]
    cases hr : pieceRead p with
    | err e => rw [hr] at h; rw [show readLoop read name (p.text ++ [')']) pos 0 st = _ from h]; rfl
    | panic => rw [hr] at h; rw [show readLoop read name (p.text ++ [')']) pos 0 st = _ from h]; rfl
    | ok ts =>
      rw [hr] at h
      obtain ⟨S, o, h⟩ := h
      rw [h]
      simp [readLoop, piecesRead]
  | q :: ps, p, pre, pos, st, hpl, hname, hpos, hl, hn => by
    have e : ∀ x : Str, commaSeparated ((p :: q :: ps).map Piece.text) ++ x =
        p.text ++ ',' :: (commaSeparated ((q :: ps).map Piece.text) ++ x) := by
      intro x; simp [commaSeparated_cons]
    rw [e]
    have h := piece_delimiter (d := ',') (rest := commaSeparated ((q :: ps).map Piece.text) ++ [')']) (Or.inl rfl) hasc
      (by rw [hname, List.append_assoc, e]; simp) hpos (hpl p (by simp)) hl hn
    rw [piecesRead]
    cases hr : pieceRead p with
    | err e => rw [hr] at h; rw [h]; rfl
    | panic => rw [hr] at h; rw [h]; rfl
    | ok ts =>
      rw [hr] at h
      obtain ⟨S, o, h⟩ := h
      rw [h, loop_members hasc ps q (pre ++ p.text ++ [',']) (pos + p.text.length + 1)
        { subtypes := st.subtypes ++ ts, subtuples := S, nested := if ',' = ')' then 0 else 1, topOpen := o, lastItem := pos + p.text.length + 1 }
        (fun r hr => hpl r (by simp at hr ⊢; tauto))
        (by rw [hname, List.append_assoc, e]; simp) (by simp; omega) rfl rfl]
      simp only [Res.ok_bind]
      cases piecesRead (q :: ps) <;> simp

theorem ascii_text {p : Piece} (h : p.Plain) : ascii p.text := by
  cases p with
  | plain p => exact noDelimiter_ascii h
  | group before inside last after =>
    obtain ⟨h1, h2, h3, h4⟩ := h
    intro c hc
    simp only [Piece.text, List.mem_append] at hc
    rcases hc with (((hc | hc) | hc) | hc) | hc
    · exact noDelimiter_ascii h1 c hc
    · revert c; decide
    · refine ascii_commaSeparated _ ?_ c hc
      intro q hq
      rcases List.mem_append.1 hq with hq | hq
      · exact noDelimiter_ascii (h2 q hq)
      · simp at hq; subst hq; exact noDelimiter_ascii h3
    · revert c; decide
    · exact noDelimiter_ascii h4 c hc

theorem read_tupleText {ps : List Piece} (hp : ∀ p ∈ ps, p.Plain) :
    read (tupleText ps) = (piecesRead ps >>= fun ts => .ok (.tuple ts)) := by
  cases ps with
  | nil => decide
  | cons p ps =>
    have e : tupleText (p :: ps) = '(' :: (commaSeparated ((p :: ps).map Piece.text) ++ [')']) := by
      simp [tupleText]
    have hasc : ascii ('(' :: (commaSeparated ((p :: ps).map Piece.text) ++ [')'])) := by
      intro c hc
      simp only [List.mem_cons, List.mem_append, List.not_mem_nil, or_false] at hc
      rcases hc with rfl | hc | rfl
      · decide
      · refine ascii_commaSeparated _ ?_ c hc
        intro s hs
        obtain ⟨q, hq, rfl⟩ := List.mem_map.1 hs
        exact ascii_text (hp q hq)
      · decide
    have hlast : ('(' :: (commaSeparated ((p :: ps).map Piece.text) ++ [')'])).getLast? = some ')' := by
      rw [← List.cons_append]
      exact List.getLast?_concat ..
    rw [e, read_eq, readStep, if_pos hlast, if_neg (by simp [lit, startsWith]), readLoop_open]
    exact loop_members hasc ps p ['('] 1
      { subtypes := [], subtuples := [], nested := 1, topOpen := 0, lastItem := 1 } hp (by simp) rfl rfl rfl

/-! ### the members' outcomes -/

theorem count_plain {s : Str} (h : plainText s) : s.count '(' = 0 ∧ s.count ')' = 0 :=
  ⟨List.count_eq_zero.2 fun hc => (h _ hc).1 rfl, List.count_eq_zero.2 fun hc => (h _ hc).2.1 rfl⟩

theorem count_commas {ps : List Str} (h : ∀ p ∈ ps, plainText p) : (commas ps).count '(' = 0 ∧ (commas ps).count ')' = 0 := by
  induction ps with
  | nil => simp [commas]
  | cons p ps ih =>
    have ih := ih fun q hq => h q (by simp [hq])
    have hp := count_plain (h p (by simp))
    have e : commas (p :: ps) = p ++ ',' :: commas ps := by simp [commas]
    rw [e]
    simp [hp, ih]

theorem group_outcome {inside : List Str} {last after : Str} (h2 : ∀ p ∈ inside, NoDelimiter p) (h3 : NoDelimiter last)
    (h4 : NoDelimiter after) : TextOutcome FlatText FlatUnopened
      ("(".toList ++ commaSeparated (inside ++ [last]) ++ ")".toList ++ after) := by
  have hc := count_commas fun p hp => noDelimiter_plain (h2 p hp)
  have hl := count_plain (noDelimiter_plain h3)
  have ha := count_plain (noDelimiter_plain h4)
  apply flatOutcome _ _ rfl
  · exact ascii_text (p := .group [] inside last after) ⟨nofun, h2, h3, h4⟩
  · rw [commaSeparated_concat]; simp [hc, hl, ha]
  · rw [commaSeparated_concat]; simp [hc, hl, ha]

theorem members_left {ps qs : List Str} : ∀ {ts : List ParamType}, Members (ps ++ qs) ts → ∃ us, Members ps us := by
  induction ps with
  | nil => exact fun _ => ⟨[], .nil⟩
  | cons p ps ih =>
    intro ts h
    cases h with
    | skip h => obtain ⟨us, h⟩ := ih h; exact ⟨us, .skip h⟩
    | cons h1 h => obtain ⟨us, h⟩ := ih h; exact ⟨_ :: us, .cons h1 h⟩

/-- cutting a suffix without `)` off a text with one -/
theorem cut_suffix {s suf g after : Str} (h : s ++ suf = g ++ ')' :: after) (hs : ')' ∉ suf) :
    ∃ a, s = g ++ ')' :: a ∧ after = a ++ suf := by
  rcases List.append_eq_append_iff.1 h with ⟨a, h1, h2⟩ | ⟨a, h1, h2⟩
  · exact absurd (by rw [h2]; simp) hs
  · cases a with
    | nil => exact absurd (by rw [← show ')' :: after = suf by simpa using h2]; simp) hs
    | cons c a =>
      rw [List.cons_append] at h2
      obtain ⟨rfl, rfl⟩ := List.cons.inj h2
      exact ⟨a, h1, rfl⟩

/-- the pieces of an accepted tuple text are accepted -/
theorem flatText_members {s : Str} {t : ParamType} (h : FlatText s t) : ∀ (qs : List Str) (after : Str),
    s = '(' :: commaSeparated qs ++ ')' :: after → (∀ q ∈ qs, NoDelimiter q) → plainText after →
    ∃ ts, Members qs ts := by
  induction h with
  | elementary h =>
    intro qs after e _ _
    exact absurd rfl (elementary_plain h '(' (by rw [e]; simp)).1
  | @tuple ps ts hm =>
    intro qs after e hq ha
    have hal : after = [] := by
      rcases List.eq_nil_or_concat after with rfl | ⟨a, c, rfl⟩
      · rfl
      · have h1 := congrArg List.getLast? e
        rw [tuple_last, List.concat_eq_append, ← List.cons_append, ← List.append_assoc, List.getLast?_concat] at h1
        exact absurd (Option.some.inj h1).symm (ha c (by simp)).2.1
    subst hal
    have ec : commaSeparated ps = commaSeparated qs := by simpa using e
    have haq : ∀ q ∈ qs, ascii q := fun q h => noDelimiter_ascii (hq q h)
    have hap : ∀ p ∈ ps, ascii p := ascii_pieces (by rw [ec]; exact ascii_commaSeparated _ haq)
    have h1 := read_pieces hap (members_plainText hm)
    rw [(seqRead_ok hap (members_plainText hm) ts).2 hm, ec,
      read_pieces haq (fun q h => noDelimiter_plain (hq q h)), Res.ok_bind, Res.bind_eq_ok] at h1
    obtain ⟨us, h1, -⟩ := h1
    exact ⟨us, (seqRead_ok haq (fun q h => noDelimiter_plain (hq q h)) us).1 h1⟩
  | array _ ih =>
    intro qs after e hq ha
    obtain ⟨a, h1, rfl⟩ := cut_suffix e (by decide)
    exact ih qs a h1 hq (fun c hc => ha c (by simp [hc]))
  | fixedArray _ hd ih =>
    intro qs after e hq ha
    rw [List.append_assoc, List.append_assoc] at e
    obtain ⟨a, h1, rfl⟩ := cut_suffix e (by
      intro h
      simp only [List.mem_append] at h
      rcases h with h | h | h
      · revert h; decide
      · exact (numberText_plain hd _ h).2.1 rfl
      · revert h; decide)
    exact ih qs a h1 hq (fun c hc => ha c (by simp [hc]))

/-- the pieces of a tuple text on which `read` panics -/
theorem flatUnopened_pieces {s : Str} (h : FlatUnopened s) : ∀ (qs : List Str) (after : Str),
    s = '(' :: commaSeparated qs ++ ')' :: after → (∀ q ∈ qs, NoDelimiter q) → plainText after →
    seqRead qs = .panic := by
  induction h with
  | bare => intro qs after e _ _; cases e
  | @number d n h =>
    intro qs after e _ _
    cases d with
    | nil => cases e
    | cons c d =>
      have : c = '(' := (List.cons.inj e).1
      exact absurd this (numberText_plain h c (by simp)).1
  | @tuple ps rs p ts hm hu hr =>
    intro qs after e hq ha
    have hal : after = [] := by
      rcases List.eq_nil_or_concat after with rfl | ⟨a, c, rfl⟩
      · rfl
      · have h1 := congrArg List.getLast? e
        rw [tuple_last, List.concat_eq_append, ← List.cons_append, ← List.append_assoc, List.getLast?_concat] at h1
        exact absurd (Option.some.inj h1).symm (ha c (by simp)).2.1
    subst hal
    have ec : commaSeparated (ps ++ p :: rs) = commaSeparated qs := by simpa using e
    have haq : ∀ q ∈ qs, ascii q := fun q h => noDelimiter_ascii (hq q h)
    have hap : ∀ p' ∈ ps ++ p :: rs, ascii p' := ascii_pieces (by rw [ec]; exact ascii_commaSeparated _ haq)
    have hpp : ∀ x ∈ ps ++ p :: rs, plainText x := by
      intro x hx
      rcases List.mem_append.1 hx with hx | hx
      · exact members_plainText hm x hx
      · rcases List.mem_cons.1 hx with rfl | hx
        · exact unopened_plainText hu
        · exact hr x hx
    have h1 := read_pieces hap hpp
    rw [(seqRead_panic hap hpp).2 ⟨ps, p, rs, ts, rfl, hm, hu⟩, ec,
      read_pieces haq (fun q h => noDelimiter_plain (hq q h))] at h1
    cases hs : seqRead qs with
    | panic => rfl
    | ok us => rw [hs] at h1; cases h1
    | err e => rw [hs] at h1; cases h1
  | array _ ih =>
    intro qs after e hq ha
    obtain ⟨a, h1, rfl⟩ := cut_suffix e (by decide)
    exact ih qs a h1 hq (fun c hc => ha c (by simp [hc]))
  | fixedArray _ hd ih =>
    intro qs after e hq ha
    rw [List.append_assoc, List.append_assoc] at e
    obtain ⟨a, h1, rfl⟩ := cut_suffix e (by
      intro h
      simp only [List.mem_append] at h
      rcases h with h | h | h
      · revert h; decide
      · exact (numberText_plain hd _ h).2.1 rfl
      · revert h; decide)
    exact ih qs a h1 hq (fun c hc => ha c (by simp [hc]))

theorem seqRead_append_err {ps : List Str} (qs : List Str) {e : Err} (h : seqRead ps = .err e) :
    seqRead (ps ++ qs) = .err e := by
  induction ps with
  | nil => cases h
  | cons p ps ih =>
    rw [List.cons_append, seqRead]
    rw [seqRead] at h
    by_cases he : p = []
    · rw [if_pos he] at h ⊢; exact ih h
    · rw [if_neg he] at h ⊢
      cases hr : read p with
      | err e' => rw [hr] at h; exact h
      | panic => rw [hr] at h; cases h
      | ok t =>
        rw [hr, Res.ok_bind] at h
        rw [Res.ok_bind]
        cases hs : seqRead ps with
        | ok us => rw [hs] at h; cases h
        | panic => rw [hs] at h; cases h
        | err e' =>
          rw [hs] at h
          have : e' = e := by simpa using h
          subst this
          rw [ih hs]; rfl

theorem pieceRead_ok {p : Piece} (h : p.Plain) (ts : List ParamType) : pieceRead p = .ok ts ↔ PieceMembers p ts := by
  cases p with
  | plain p =>
    rw [pieceRead]
    by_cases he : p = []
    · subst he
      rw [if_pos rfl]
      constructor
      · intro h; cases h; exact .nothing
      · intro h
        cases h with
        | nothing => rfl
        | plain h => exact absurd h typeText_ne_nil
    · obtain ⟨o1, -⟩ := plainText_outcome (noDelimiter_ascii h) (noDelimiter_plain h)
      rw [if_neg he, Res.bind_eq_ok]
      constructor
      · rintro ⟨t, h1, h2⟩
        cases h2
        exact .plain ((o1 t).1 h1)
      · intro h
        cases h with
        | nothing => exact absurd rfl he
        | plain h => exact ⟨_, (o1 _).2 h, rfl⟩
  | group before inside last after =>
    obtain ⟨-, h2, h3, h4⟩ := h
    have hs := seqRead_ok (fun q hq => noDelimiter_ascii (h2 q hq)) (fun q hq => noDelimiter_plain (h2 q hq))
    rw [pieceRead, Res.bind_eq_ok]
    by_cases he : last = []
    · subst he
      obtain ⟨o1, -⟩ := plainText_outcome (noDelimiter_ascii h4) (noDelimiter_plain h4)
      simp only [if_true]
      by_cases hea : after = []
      · subst hea
        constructor
        · rintro ⟨us, h1, h⟩
          cases h
          exact .dropped ((hs us).1 h1)
        · intro h
          cases h with
          | group h _ => exact absurd rfl h
          | dropped h => exact ⟨_, (hs _).2 h, rfl⟩
          | after _ h => exact absurd h typeText_ne_nil
      · rw [if_neg hea]
        constructor
        · rintro ⟨us, h1, h⟩
          obtain ⟨t, h5, h6⟩ := Res.bind_eq_ok.1 h
          cases h6
          exact .after ((hs us).1 h1) ((o1 t).1 h5)
        · intro h
          cases h with
          | group h _ => exact absurd rfl h
          | dropped h => exact absurd rfl hea
          | after h h' => exact ⟨_, (hs _).2 h, by rw [(o1 _).2 h']; rfl⟩
    · obtain ⟨o1, -⟩ := group_outcome h2 h3 h4
      have e : '(' :: (commaSeparated (inside ++ [last]) ++ ')' :: after) =
        "(".toList ++ commaSeparated (inside ++ [last]) ++ ")".toList ++ after := by simp
      simp only [if_neg he, e]
      constructor
      · rintro ⟨us, h1, h⟩
        obtain ⟨t, h5, h6⟩ := Res.bind_eq_ok.1 h
        cases h6
        exact .group he ((o1 t).1 h5)
      · intro h
        cases h with
        | group _ h =>
          obtain ⟨ts, hm⟩ := flatText_members h (inside ++ [last]) after (by simp) (by
            intro q hq
            rcases List.mem_append.1 hq with hq | hq
            · exact h2 q hq
            · simp at hq; subst hq; exact h3) (noDelimiter_plain h4)
          obtain ⟨us, hm⟩ := members_left hm
          exact ⟨us, (hs us).2 hm, by rw [(o1 _).2 h]; rfl⟩
        | dropped h => exact absurd rfl he
        | after h h' => exact absurd rfl he

theorem bind_one_panic {x : Res ParamType} : (x >>= fun t => Res.ok [t]) = .panic ↔ x = .panic := by
  cases x with
  | ok t => exact ⟨nofun, nofun⟩
  | err e => exact ⟨nofun, nofun⟩
  | panic => exact ⟨fun _ => rfl, fun _ => rfl⟩

theorem bind_panic {α β : Type} {x : Res α} {f : α → Res β} :
    (x >>= f) = .panic ↔ x = .panic ∨ ∃ a, x = .ok a ∧ f a = .panic := by
  cases x with
  | ok t => simp
  | err e => exact ⟨nofun, by rintro (h | ⟨_, h, _⟩) <;> cases h⟩
  | panic => exact ⟨fun _ => Or.inl rfl, fun _ => rfl⟩

theorem pieceRead_panic {p : Piece} (h : p.Plain) : pieceRead p = .panic ↔ PieceUnopened p := by
  cases p with
  | plain p =>
    rw [pieceRead]
    by_cases he : p = []
    · subst he
      rw [if_pos rfl]
      refine ⟨nofun, fun h => ?_⟩
      cases h with
      | plain h => exact absurd h unopened_ne_nil
    · obtain ⟨-, o2⟩ := plainText_outcome (noDelimiter_ascii h) (noDelimiter_plain h)
      rw [if_neg he, bind_one_panic, o2]
      constructor
      · exact .plain
      · intro h
        cases h with
        | plain h => exact h
  | group before inside last after =>
    obtain ⟨-, h2, h3, h4⟩ := h
    have hs := seqRead_ok (fun q hq => noDelimiter_ascii (h2 q hq)) (fun q hq => noDelimiter_plain (h2 q hq))
    have hsp := seqRead_panic (fun q hq => noDelimiter_ascii (h2 q hq)) (fun q hq => noDelimiter_plain (h2 q hq))
    obtain ⟨-, o2⟩ := plainText_outcome (noDelimiter_ascii h4) (noDelimiter_plain h4)
    obtain ⟨-, g2⟩ := group_outcome h2 h3 h4
    have e : '(' :: (commaSeparated (inside ++ [last]) ++ ')' :: after) =
      "(".toList ++ commaSeparated (inside ++ [last]) ++ ")".toList ++ after := by simp
    rw [pieceRead, bind_panic, hsp]
    constructor
    · rintro (⟨xs, p, ys, ts, rfl, h5, h6⟩ | ⟨ts, h5, h6⟩)
      · exact .inside h5 h6
      · by_cases he : last = []
        · subst he
          rw [if_pos rfl] at h6
          by_cases hea : after = []
          · rw [if_pos hea] at h6; cases h6
          · rw [if_neg hea, bind_one_panic, o2] at h6
            exact .after ((hs ts).1 h5) h6
        · rw [if_neg he, bind_one_panic, e, g2] at h6
          exact .group he h6
    · intro h
      cases h with
      | inside h5 h6 => exact Or.inl ⟨_, _, _, _, rfl, h5, h6⟩
      | group he h =>
        cases hq : seqRead inside with
        | ok ts => exact Or.inr ⟨ts, rfl, by rw [if_neg he, bind_one_panic, e, g2]; exact h⟩
        | panic => exact Or.inl (hsp.1 hq)
        | err er =>
          have h5 := flatUnopened_pieces h (inside ++ [last]) after (by simp) (by
            intro q hq
            rcases List.mem_append.1 hq with hq | hq
            · exact h2 q hq
            · simp at hq; subst hq; exact h3) (noDelimiter_plain h4)
          rw [seqRead_append_err [last] hq] at h5
          cases h5
      | after h5 h6 =>
        refine Or.inr ⟨_, (hs _).2 h5, ?_⟩
        rw [if_pos rfl, if_neg (by rintro rfl; exact unopened_ne_nil h6), bind_one_panic, o2]
        exact h6

theorem piecesRead_ok {ps : List Piece} (h : ∀ p ∈ ps, p.Plain) :
    ∀ ts, piecesRead ps = .ok ts ↔ NestedMembers ps ts := by
  induction ps with
  | nil =>
    intro ts
    constructor
    · intro h; cases h; exact .nil
    · intro h; cases h; rfl
  | cons p ps ih =>
    intro ts
    have ih := ih fun q hq => h q (by simp [hq])
    rw [piecesRead, Res.bind_eq_ok]
    constructor
    · rintro ⟨us, h1, h2⟩
      obtain ⟨vs, h4, h3⟩ := Res.bind_eq_ok.1 h2
      cases h3
      exact .cons ((pieceRead_ok (h p (by simp)) us).1 h1) ((ih vs).1 h4)
    · intro hm
      cases hm with
      | cons h1 h2 =>
        exact ⟨_, (pieceRead_ok (h p (by simp)) _).2 h1, by rw [(ih _).2 h2]; rfl⟩

theorem piecesRead_panic {ps : List Piece} (h : ∀ p ∈ ps, p.Plain) :
    piecesRead ps = .panic ↔ ∃ xs p ys ts, ps = xs ++ p :: ys ∧ NestedMembers xs ts ∧ PieceUnopened p := by
  induction ps with
  | nil => simp [piecesRead]
  | cons p ps ih =>
    have ih := ih fun q hq => h q (by simp [hq])
    have o1 := pieceRead_ok (h p (by simp))
    have o2 := pieceRead_panic (h p (by simp))
    rw [piecesRead, bind_panic, o2]
    constructor
    · rintro (hp | ⟨us, h1, h2⟩)
      · exact ⟨[], p, ps, [], rfl, .nil, hp⟩
      · rcases bind_panic.1 h2 with h2 | ⟨vs, _, h2⟩
        · obtain ⟨xs, q, ys, ts, rfl, h3, h4⟩ := ih.1 h2
          exact ⟨p :: xs, q, ys, us ++ ts, rfl, .cons ((o1 us).1 h1) h3, h4⟩
        · cases h2
    · rintro ⟨xs, q, ys, ts, e, h1, h2⟩
      cases xs with
      | nil =>
        obtain ⟨rfl, rfl⟩ := List.cons.inj e
        exact Or.inl h2
      | cons x xs =>
        obtain ⟨rfl, rfl⟩ := List.cons.inj e
        cases h1 with
        | cons h3 h4 =>
          exact Or.inr ⟨_, (o1 _).2 h3, by rw [ih.2 ⟨xs, q, ys, _, rfl, h4, h2⟩]; rfl⟩

end Ethabi.NestedText

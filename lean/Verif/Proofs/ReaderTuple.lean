import Verif.Proofs.Reader
import Verif.Spec.Text
/-! `Reader::read` on the text of tuple types. -/
namespace Ethabi
open Spec

/-- no `(`, `)`, `,` -/
def plainText (s : Str) : Prop := ∀ c ∈ s, c ≠ '(' ∧ c ≠ ')' ∧ c ≠ ','

theorem plainText_append {a b : Str} (ha : plainText a) (hb : plainText b) : plainText (a ++ b) := by
  intro c hc
  rcases List.mem_append.1 hc with h | h
  · exact ha c h
  · exact hb c h

theorem plainText_natText (n : Nat) : plainText (natText n) := fun c hc =>
  ⟨natText_ne hc (by decide), natText_ne hc (by decide), natText_ne hc (by decide)⟩

theorem plainText_of_all {p : Str} (hp : p.all (fun c => decide (c ≠ '(' ∧ c ≠ ')' ∧ c ≠ ',')) = true) : plainText p :=
  fun c hc => by simpa using List.all_eq_true.1 hp c hc

theorem plainText_write : ∀ (t : ParamType), tupleFree t = true → plainText (write t)
  | .address, _ => plainText_of_all (by decide)
  | .bytes, _ => plainText_of_all (by decide)
  | .bool, _ => plainText_of_all (by decide)
  | .string, _ => plainText_of_all (by decide)
  | .int n, _ => by rw [write, writeForAbi]; exact plainText_append (plainText_of_all (by decide)) (plainText_natText n)
  | .uint n, _ => by rw [write, writeForAbi]; exact plainText_append (plainText_of_all (by decide)) (plainText_natText n)
  | .fixedBytes n, _ => by
      rw [write, writeForAbi]; exact plainText_append (plainText_of_all (by decide)) (plainText_natText n)
  | .array t, h => by
      rw [write, writeForAbi]
      exact plainText_append (plainText_write t h) (plainText_of_all (by decide))
  | .fixedArray t n, h => by
      rw [write, writeForAbi]
      exact plainText_append (plainText_append (plainText_append (plainText_write t h) (plainText_of_all (by decide)))
        (plainText_natText n)) (plainText_of_all (by decide))
  | .tuple _, h => by simp [tupleFree] at h

theorem write_ne_nil (t : ParamType) : write t ≠ [] := by
  obtain ⟨c, r, h, _⟩ := write_head t
  simp [h]

theorem write_tupleFree (b : Bool) : ∀ (t : ParamType), tupleFree t = true → writeForAbi b t = write t
  | .address, _ => rfl
  | .bytes, _ => rfl
  | .bool, _ => rfl
  | .string, _ => rfl
  | .int _, _ => rfl
  | .uint _, _ => rfl
  | .fixedBytes _, _ => rfl
  | .array t, h => by simp only [write, writeForAbi, write_tupleFree b t h]
  | .fixedArray t n, h => by simp only [write, writeForAbi, write_tupleFree b t h]
  | .tuple _, h => by simp [tupleFree] at h

theorem eraseTuple_tupleFree : ∀ (t : ParamType), tupleFree t = true → eraseTuple t = t
  | .address, _ => rfl
  | .bytes, _ => rfl
  | .bool, _ => rfl
  | .string, _ => rfl
  | .int _, _ => rfl
  | .uint _, _ => rfl
  | .fixedBytes _, _ => rfl
  | .array t, h => by simp only [eraseTuple, eraseTuple_tupleFree t h]
  | .fixedArray t n, h => by simp only [eraseTuple, eraseTuple_tupleFree t h]
  | .tuple _, h => by simp [tupleFree] at h

theorem read_write_tupleFree (t : ParamType) (h : tupleFree t = true) (hu : t.usizeOk = true) :
    read (write t) = .ok t := by
  have := read_writeForAbi t (sizesFit_of_usizeOk t hu)
  rwa [write_tupleFree false t h, eraseTuple_tupleFree t h] at this

/-! ### the loop on plain text -/

theorem loop_plain (rec : Str → Res ParamType) (name : Str) {cs : Str} (h : plainText cs) (rest : Str) (st : ReadSt) :
    ∀ (pos : Nat), readLoop rec name (cs ++ rest) pos 0 st = readLoop rec name rest (pos + cs.length) 0 st := by
  induction cs with
  | nil => simp
  | cons c cs ih =>
    intro pos
    obtain ⟨h1, h2, h3⟩ := h c (by simp)
    simp only [List.cons_append, readLoop, if_neg h1, if_neg h2, if_neg h3]
    rw [ih (fun d hd => h d (by simp [hd]))]
    congr 1
    simp; omega

theorem loop_skip (rec : Str → Res ParamType) (name : Str) (cs rest : Str) (st : ReadSt) :
    ∀ (pos : Nat), readLoop rec name (cs ++ rest) pos cs.length st = readLoop rec name rest (pos + cs.length) 0 st := by
  induction cs with
  | nil => simp
  | cons c cs ih =>
    intro pos
    simp only [List.cons_append, List.length_cons, readLoop]
    rw [ih]
    congr 1
    omega

theorem trailing_plain {cs : Str} (h : plainText cs) {d : Char} (hd : d = ',' ∨ d = ')') (rest : Str) :
    trailing (cs ++ d :: rest) = cs.length := by
  induction cs with
  | nil => simp [trailing, hd]
  | cons c cs ih =>
    obtain ⟨h1, h2, h3⟩ := h c (by simp)
    simp only [List.cons_append, trailing]
    rw [if_neg (by simp [h2, h3]), ih (fun d hd => h d (by simp [hd]))]
    simp

theorem readLoop_open (rec : Str → Res ParamType) (name rest : Str) (pos : Nat) (st : ReadSt) :
    readLoop rec name ('(' :: rest) pos 0 st = readLoop rec name rest (pos + 1) 0 (readOpen pos st) := by
  simp [readLoop]

theorem readLoop_close (rec : Str → Res ParamType) (name rest : Str) (pos : Nat) (st : ReadSt) :
    readLoop rec name (')' :: rest) pos 0 st = (readClose rec name rest pos st >>= fun r =>
      readLoop rec name rest (pos + 1) r.2 r.1) := by
  simp [readLoop]

theorem readLoop_comma (rec : Str → Res ParamType) (name rest : Str) (pos : Nat) (st : ReadSt) :
    readLoop rec name (',' :: rest) pos 0 st = (readComma rec name pos st >>= fun st' =>
      readLoop rec name rest (pos + 1) 0 st') := by
  simp [readLoop]

theorem readOpen_inner {pos : Nat} {st : ReadSt} (h : 1 ≤ st.nested) : readOpen pos st =
    { st with topOpen := pos, nested := st.nested + 1, subtuples := st.subtuples ++ [[]], lastItem := pos + 1 } := by
  simp only [readOpen]; rw [if_pos (by omega)]

/-- an item in the top level of the tuple, followed by a comma -/
theorem item_top {name pre x rest : Str} {t : ParamType} {pos : Nat} {st : ReadSt} (hasc : ascii name)
    (hname : name = pre ++ x ++ ',' :: rest) (hpos : pos = pre.length) (hx : plainText x) (hne : x ≠ [])
    (hr : read x = .ok t) (hl : st.lastItem = pos) (hn : st.nested = 1) :
    readLoop read name (x ++ ',' :: rest) pos 0 st = readLoop read name rest (pos + x.length + 1) 0
      { st with subtypes := st.subtypes ++ [t], lastItem := pos + x.length + 1 } := by
  rw [loop_plain read name hx]
  have hs : strSlice name st.lastItem (pos + x.length) = .ok x := by
    rw [hname] at hasc ⊢
    exact strSlice_mid hasc (by omega) (by omega)
  simp only [readLoop, readComma, hs, Res.ok_bind, if_neg hne, hn, hr]
  rfl

/-- an item in an inner tuple, followed by a comma -/
theorem item_inner {name pre x rest : Str} {t : ParamType} {pos j : Nat} {st : ReadSt} {s : List ParamType}
    (hasc : ascii name) (hname : name = pre ++ x ++ ',' :: rest) (hpos : pos = pre.length) (hx : plainText x)
    (hne : x ≠ []) (hr : read x = .ok t) (hl : st.lastItem = pos) (hn : st.nested = (j : Int) + 2)
    (hs : st.subtuples[j]? = some s) :
    readLoop read name (x ++ ',' :: rest) pos 0 st = readLoop read name rest (pos + x.length + 1) 0
      { st with subtuples := st.subtuples.set j (s ++ [t]), lastItem := pos + x.length + 1 } := by
  rw [loop_plain read name hx]
  have hsl : strSlice name st.lastItem (pos + x.length) = .ok x := by
    rw [hname] at hasc ⊢
    exact strSlice_mid hasc (by omega) (by omega)
  have hi : indexVec st.subtuples (st.nested - 2) = .ok s := by
    unfold indexVec
    have : (st.nested - 2).toNat = j := by omega
    rw [if_neg (by omega), this, hs]
  have hj : (st.nested - 2).toNat = j := by omega
  rw [readLoop_comma, readComma]
  simp only [hsl, Res.ok_bind, if_neg hne, hr, hi, hj]
  rw [if_neg (by omega), if_pos (by omega)]
  rfl

/-- items each followed by a comma -/
def commaText (xs : List ParamType) : Str := xs.flatMap fun x => write x ++ [',']

theorem write_tuple_concat (xs : List ParamType) (m : ParamType) :
    write (.tuple (xs ++ [m])) = '(' :: (commaText xs ++ write m ++ [')']) := by
  rw [write_tuple]
  have : join (lit ",") ((xs ++ [m]).map write) = commaText xs ++ write m := by
    induction xs with
    | nil => simp [join, commaText]
    | cons x xs ih =>
      cases xs with
      | nil => simp [join, commaText, lit]
      | cons y ys =>
        simp only [List.cons_append, List.map_cons, join_cons_cons] at ih ⊢
        rw [ih]
        simp [commaText, lit]
  rw [this]

theorem items_inner {name : Str} (hasc : ascii name) {j : Nat} : ∀ (xs : List ParamType) (pre rest : Str) (pos : Nat)
    (st : ReadSt) (s : List ParamType), (∀ x ∈ xs, tupleFree x = true ∧ x.usizeOk = true) →
    name = pre ++ (commaText xs ++ rest) → pos = pre.length → st.lastItem = pos → st.nested = (j : Int) + 2 →
    st.subtuples[j]? = some s →
    readLoop read name (commaText xs ++ rest) pos 0 st = readLoop read name rest (pos + (commaText xs).length) 0
      { st with subtuples := st.subtuples.set j (s ++ xs), lastItem := pos + (commaText xs).length }
  | [], pre, rest, pos, st, s, _, _, _, hl, _, hs => by
      have : st.subtuples.set j s = st.subtuples := by
        have hlt : j < st.subtuples.length := by
          rcases Nat.lt_or_ge j st.subtuples.length with h | h
          · exact h
          · simp [h] at hs
        rw [List.getElem?_eq_getElem hlt] at hs
        cases hs
        simp
      simp [commaText, ← hl, this]
  | x :: xs, pre, rest, pos, st, s, hx, hname, hpos, hl, hn, hs => by
      have e : commaText (x :: xs) ++ rest = write x ++ ',' :: (commaText xs ++ rest) := by
        simp [commaText]
      obtain ⟨h1, h2⟩ := hx x (by simp)
      have hlt : j < st.subtuples.length := by
        rcases Nat.lt_or_ge j st.subtuples.length with h | h
        · exact h
        · simp [h] at hs
      rw [e, item_inner (s := s) hasc (by rw [hname, e]; simp) hpos (plainText_write x h1) (write_ne_nil x)
        (read_write_tupleFree x h1 h2) hl hn hs,
        items_inner hasc xs (pre ++ write x ++ [',']) rest (pos + (write x).length + 1)
          { st with subtuples := st.subtuples.set j (s ++ [x]), lastItem := pos + (write x).length + 1 } (s ++ [x]) (fun y hy => hx y (by simp [hy]))
          (by rw [hname, e]; simp) (by simp [hpos]; omega) rfl hn (by simp [hlt])]
      congr 1
      · simp [commaText]; omega
      · simp [commaText]; omega

/-! ### array chains over tuples -/

/-- the type under the arrays -/
def baseOf : ParamType → ParamType
  | .array t => baseOf t
  | .fixedArray t _ => baseOf t
  | t => t

/-- the array brackets -/
def suffixOf : ParamType → Str
  | .array t => suffixOf t ++ lit "[]"
  | .fixedArray t n => suffixOf t ++ '[' :: (natText n ++ [']'])
  | _ => []

theorem write_chain : ∀ (t : ParamType), write t = write (baseOf t) ++ suffixOf t
  | .address => by simp [baseOf, suffixOf]
  | .bytes => by simp [baseOf, suffixOf]
  | .bool => by simp [baseOf, suffixOf]
  | .string => by simp [baseOf, suffixOf]
  | .int _ => by simp [baseOf, suffixOf]
  | .uint _ => by simp [baseOf, suffixOf]
  | .fixedBytes _ => by simp [baseOf, suffixOf]
  | .tuple _ => by simp [baseOf, suffixOf]
  | .array t => by
      have := write_chain t
      simp only [baseOf, suffixOf, ← List.append_assoc, ← this]; rfl
  | .fixedArray t n => by
      have := write_chain t
      simp only [baseOf, suffixOf, ← List.append_assoc, ← this]
      simp [write, writeForAbi, lit]

theorem plainText_suffix : ∀ (t : ParamType), plainText (suffixOf t)
  | .address => plainText_of_all (by decide)
  | .bytes => plainText_of_all (by decide)
  | .bool => plainText_of_all (by decide)
  | .string => plainText_of_all (by decide)
  | .int _ => fun _ h => nomatch h
  | .uint _ => fun _ h => nomatch h
  | .fixedBytes _ => fun _ h => nomatch h
  | .tuple _ => fun _ h => nomatch h
  | .array t => plainText_append (plainText_suffix t) (plainText_of_all (by decide))
  | .fixedArray t n => by
      have e : suffixOf (.fixedArray t n) = suffixOf t ++ (lit "[" ++ (natText n ++ lit "]")) := by simp [suffixOf, lit]
      rw [e]
      exact plainText_append (plainText_suffix t) (plainText_append (plainText_of_all (by decide))
        (plainText_append (plainText_natText n) (plainText_of_all (by decide))))

theorem read_chain : ∀ (t : ParamType), sizesFit t = true → read (write (baseOf t)) = .ok (baseOf t) →
    read (write t) = .ok t
  | .address, _, h => h
  | .bytes, _, h => h
  | .bool, _, h => h
  | .string, _, h => h
  | .int _, _, h => h
  | .uint _, _, h => h
  | .fixedBytes _, _, h => h
  | .tuple _, _, h => h
  | .array t, hs, h => by
      have e : write (.array t) = write t ++ lit "[]" := by simp [write, writeForAbi]
      rw [e, read_array (s := write t) (ascii_write _ t), read_chain t hs h]; rfl
  | .fixedArray t n, hs, h => by
      simp only [sizesFit, Bool.and_eq_true, decide_eq_true_eq] at hs
      have e : write (.fixedArray t n) = write t ++ '[' :: (natText n ++ [']']) := by
        simp [write, writeForAbi, lit]
      rw [e, read_fixedArray_nat (s := write t) (ascii_write _ t) hs.1, read_chain t hs.2 h]; rfl

/-- all members are tuple-free -/
def FlatMembers (xs : List ParamType) : Prop := ∀ x ∈ xs, tupleFree x = true ∧ x.usizeOk = true

/-- an inner flat tuple with array suffixes, directly inside the outer tuple -/
theorem inner_flat_one {name pre rest : Str} {m x : ParamType} {xs : List ParamType} {pos : Nat} {st : ReadSt}
    {d : Char} (hd : d = ',' ∨ d = ')') {s : List ParamType}
    (hasc : ascii name) (hname : name = pre ++ write m ++ d :: rest) (hpos : pos = pre.length)
    (hb : baseOf m = .tuple (xs ++ [x])) (hx : FlatMembers (xs ++ [x])) (hr : read (write m) = .ok m)
    (hn : st.nested = 1) (hs : (st.subtuples ++ [[]])[0]? = some s) :
    readLoop read name (write m ++ d :: rest) pos 0 st = readLoop read name (d :: rest) (pos + (write m).length) 0
      { subtypes := st.subtypes ++ [m], subtuples := (st.subtuples ++ [[]]).set 0 (s ++ xs), nested := 1,
        topOpen := pos, lastItem := pos + (write m).length } := by
  have hw : write m = '(' :: (commaText xs ++ write x ++ [')']) ++ suffixOf m := by
    rw [write_chain, hb, write_tuple_concat]
  obtain ⟨hx1, hx2⟩ := hx x (by simp)
  have e1 : write m ++ d :: rest =
      '(' :: (commaText xs ++ (write x ++ ')' :: (suffixOf m ++ d :: rest))) := by rw [hw]; simp
  have hlen : (write m).length = 1 + (commaText xs).length + (write x).length + 1 + (suffixOf m).length := by
    rw [hw]; simp; omega
  rw [e1, readLoop_open, readOpen_inner (by omega)]
  rw [items_inner (j := 0) hasc xs (pre ++ ['(']) _ (pos + 1) _ s (fun y hy => hx y (by simp [hy]))
    (by rw [hname, hw]; simp) (by simp [hpos]) rfl (by simp [hn]) (by simpa using hs)]
  rw [loop_plain read name (plainText_write x hx1), readLoop_close]
  have hitem : strSlice name (pos + 1 + (commaText xs).length) (pos + 1 + (commaText xs).length + (write x).length)
      = .ok (write x) := by
    have : name = (pre ++ '(' :: commaText xs) ++ write x ++ (')' :: (suffixOf m ++ d :: rest)) := by
      rw [hname, hw]; simp
    rw [this] at hasc ⊢
    exact strSlice_mid hasc (by simp; omega) (by simp; omega)
  have hinner : strSlice name pos (pos + 1 + (commaText xs).length + (write x).length + (suffixOf m).length + 1)
      = .ok (write m) := by
    rw [hname] at hasc ⊢
    exact strSlice_mid hasc hpos (by rw [hlen]; omega)
  unfold readClose
  simp only [hn]
  rw [if_neg (by omega), hitem]
  simp only [Res.ok_bind, if_neg (write_ne_nil x)]
  rw [if_neg (by omega), trailing_plain (plainText_suffix m) hd, hinner]
  simp only [Res.ok_bind, hr]
  rw [if_neg (by omega)]
  simp only [Res.ok_bind]
  rw [loop_skip]
  have e2 : pos + 1 + (commaText xs).length + (write x).length + 1 + (suffixOf m).length = pos + (write m).length := by
    omega
  have e3 : pos + 1 + (commaText xs).length + (write x).length + (suffixOf m).length + 1 = pos + (write m).length := by
    omega
  rw [e2, e3]
  rfl

/-- an inner flat tuple with array suffixes, two levels down -/
theorem inner_flat_two {name pre rest : Str} {m x : ParamType} {xs : List ParamType} {pos : Nat} {st : ReadSt}
    {d : Char} (hd : d = ',' ∨ d = ')') {s : List ParamType}
    (hasc : ascii name) (hname : name = pre ++ write m ++ d :: rest) (hpos : pos = pre.length)
    (hb : baseOf m = .tuple (xs ++ [x])) (hx : FlatMembers (xs ++ [x])) (hr : read (write m) = .ok m)
    (hn : st.nested = 2) {S : List (List ParamType)} (hs : st.subtuples = s :: S) :
    ∃ S', readLoop read name (write m ++ d :: rest) pos 0 st = readLoop read name (d :: rest) (pos + (write m).length) 0
      { subtypes := st.subtypes ++ [.tuple (s ++ [m])], subtuples := [] :: S', nested := 2,
        topOpen := pos, lastItem := pos + (write m).length } := by
  have hw : write m = '(' :: (commaText xs ++ write x ++ [')']) ++ suffixOf m := by
    rw [write_chain, hb, write_tuple_concat]
  obtain ⟨hx1, hx2⟩ := hx x (by simp)
  have e1 : write m ++ d :: rest =
      '(' :: (commaText xs ++ (write x ++ ')' :: (suffixOf m ++ d :: rest))) := by rw [hw]; simp
  have hlen : (write m).length = 1 + (commaText xs).length + (write x).length + 1 + (suffixOf m).length := by
    rw [hw]; simp; omega
  obtain ⟨s1, S1, hS⟩ : ∃ s1 S1, S ++ [[]] = s1 :: S1 := by cases S <;> simp
  have hst : st.subtuples ++ [[]] = s :: s1 :: S1 := by rw [hs, List.cons_append, hS]
  rw [e1, readLoop_open, readOpen_inner (by omega)]
  rw [items_inner (j := 1) hasc xs (pre ++ ['(']) _ (pos + 1) _ s1 (fun y hy => hx y (by simp [hy]))
    (by rw [hname, hw]; simp) (by simp [hpos]) rfl (by simp [hn]) (by simp [hst])]
  rw [loop_plain read name (plainText_write x hx1), readLoop_close]
  have hitem : strSlice name (pos + 1 + (commaText xs).length) (pos + 1 + (commaText xs).length + (write x).length)
      = .ok (write x) := by
    have : name = (pre ++ '(' :: commaText xs) ++ write x ++ (')' :: (suffixOf m ++ d :: rest)) := by
      rw [hname, hw]; simp
    rw [this] at hasc ⊢
    exact strSlice_mid hasc (by simp; omega) (by simp; omega)
  have hinner : strSlice name pos (pos + 1 + (commaText xs).length + (write x).length + (suffixOf m).length + 1)
      = .ok (write m) := by
    rw [hname] at hasc ⊢
    exact strSlice_mid hasc hpos (by rw [hlen]; omega)
  unfold readClose
  simp only [hn, hst]
  rw [if_neg (by omega), hitem]
  simp only [Res.ok_bind, if_neg (write_ne_nil x)]
  rw [if_neg (by omega), trailing_plain (plainText_suffix m) hd, hinner]
  simp only [Res.ok_bind, hr]
  rw [if_pos (by omega)]
  simp only [indexVec]
  simp only [List.set_cons_succ, List.set_cons_zero, Int.reduceAdd, Int.reduceSub, Int.toNat_zero, List.getElem?_cons_zero,
    Int.lt_irrefl, if_false, Res.ok_bind]
  rw [loop_skip]
  have e2 : pos + 1 + (commaText xs).length + (write x).length + 1 + (suffixOf m).length = pos + (write m).length := by
    omega
  have e3 : pos + 1 + (commaText xs).length + (write x).length + (suffixOf m).length + 1 = pos + (write m).length := by
    omega
  rw [e2, e3]
  exact ⟨_, rfl⟩

/-! ### members of the outer tuple -/

/-- after a member, the delimiter: state unchanged but for position and nesting -/
def afterMember (d : Char) (st : ReadSt) (p : Nat) : ReadSt :=
  { st with nested := if d = ')' then 0 else 1, lastItem := p }

theorem delimiter_empty {name rest : Str} {pos : Nat} {st : ReadSt} {d : Char} (hd : d = ',' ∨ d = ')')
    (hasc : ascii name) (hp : pos ≤ name.length) (hl : st.lastItem = pos) (hn : st.nested = 1) :
    readLoop read name (d :: rest) pos 0 st = readLoop read name rest (pos + 1) 0 (afterMember d st (pos + 1)) := by
  have hs : strSlice name pos pos = .ok [] := by
    rw [strSlice_ascii hasc (by omega) hp]; simp
  rcases hd with rfl | rfl
  · rw [readLoop_comma, readComma, hl, hs]
    simp only [Res.ok_bind, if_true, afterMember]
    rw [if_neg (by decide), ← hn]
  · rw [readLoop_close, readClose]
    simp only [hl, hs, hn]
    rw [if_neg (by omega)]
    simp only [Res.ok_bind, if_true, afterMember]
    rfl

/-- a tuple-free member -/
theorem member_free {name pre rest : Str} {m : ParamType} {pos : Nat} {st : ReadSt} {d : Char}
    (hd : d = ',' ∨ d = ')') (hasc : ascii name) (hname : name = pre ++ write m ++ d :: rest) (hpos : pos = pre.length)
    (hf : tupleFree m = true) (hu : m.usizeOk = true) (hl : st.lastItem = pos) (hn : st.nested = 1) :
    readLoop read name (write m ++ d :: rest) pos 0 st = readLoop read name rest (pos + (write m).length + 1) 0
      (afterMember d { st with subtypes := st.subtypes ++ [m] } (pos + (write m).length + 1)) := by
  have hr := read_write_tupleFree m hf hu
  rcases hd with rfl | rfl
  · rw [item_top hasc hname hpos (plainText_write m hf) (write_ne_nil m) hr hl hn]
    simp only [afterMember]
    rw [if_neg (by decide), ← hn]
  · rw [loop_plain read name (plainText_write m hf), readLoop_close]
    have hs : strSlice name st.lastItem (pos + (write m).length) = .ok (write m) := by
      rw [hname] at hasc ⊢
      exact strSlice_mid hasc (by omega) (by omega)
    unfold readClose
    simp only [hn]
    rw [if_neg (by omega), hs]
    simp only [Res.ok_bind, if_neg (write_ne_nil m), hr]
    rw [if_pos (by omega)]
    rfl

theorem concat_of_ne {α : Type} {l : List α} (h : l ≠ []) : ∃ xs x, l = xs ++ [x] :=
  ⟨_, _, (List.dropLast_concat_getLast h).symm⟩

theorem usizeOkAll_mem : ∀ {ts : List ParamType}, ParamType.usizeOkAll ts = true → ∀ t ∈ ts, t.usizeOk = true
  | [], _, t, h => by cases h
  | u :: us, hu, t, h => by
      simp only [ParamType.usizeOkAll, Bool.and_eq_true] at hu
      rcases List.mem_cons.1 h with rfl | h
      · exact hu.1
      · exact usizeOkAll_mem hu.2 t h

theorem flatTuple_base : ∀ {m : ParamType}, flatTuple m = true → m.usizeOk = true →
    ∃ xs x, baseOf m = .tuple (xs ++ [x]) ∧ FlatMembers (xs ++ [x]) ∧ memberCount m = xs.length + 1
  | .array t, h, hu => flatTuple_base (m := t) h hu
  | .fixedArray t n, h, hu => by
      simp only [ParamType.usizeOk, Bool.and_eq_true] at hu
      exact flatTuple_base (m := t) h hu.2
  | .tuple ts, h, hu => by
      simp only [flatTuple, Bool.and_eq_true, Bool.not_eq_true', List.isEmpty_eq_false_iff, List.all_eq_true] at h
      obtain ⟨xs, x, rfl⟩ := concat_of_ne h.1
      refine ⟨xs, x, rfl, ?_, by simp [memberCount]⟩
      intro y hy
      exact ⟨h.2 y hy, usizeOkAll_mem hu y hy⟩
  | .address, h, _ => by cases h
  | .bytes, h, _ => by cases h
  | .bool, h, _ => by cases h
  | .string, h, _ => by cases h
  | .int _, h, _ => by cases h
  | .uint _, h, _ => by cases h
  | .fixedBytes _, h, _ => by cases h

/-- the invariant on `subtuples`: its first entry is empty unless `seen` -/
def Clean (seen : Bool) (S : List (List ParamType)) : Prop := seen = false → ∀ s, S[0]? = some s → s = []

/-- members of the outer tuple, the last one followed by `)` -/
theorem members_read {name : Str} (hasc : ascii name)
    (hflat : ∀ m : ParamType, flatTuple m = true → m.usizeOk = true → (write m).length < name.length →
      read (write m) = .ok m) :
    ∀ (ms : List ParamType) (m : ParamType) (seen : Bool) (pre : Str) (pos : Nat) (st : ReadSt),
      readableMembers seen (ms ++ [m]) = true → (∀ x ∈ ms ++ [m], x.usizeOk = true) →
      name = pre ++ (commaText ms ++ write m ++ [')']) → pos = pre.length → st.lastItem = pos → st.nested = 1 →
      Clean seen st.subtuples →
      ∃ st', readLoop read name (commaText ms ++ write m ++ [')']) pos 0 st = .ok st' ∧
        st'.subtypes = st.subtypes ++ ms ++ [m] := by
  -- one member
  have step : ∀ (m : ParamType) (seen : Bool) (pre rest : Str) (pos : Nat) (st : ReadSt) (d : Char) (ms : List ParamType),
      (d = ',' ∨ d = ')') → readableMembers seen (m :: ms) = true → m.usizeOk = true →
      name = pre ++ write m ++ d :: rest → pos = pre.length → st.lastItem = pos → st.nested = 1 →
      Clean seen st.subtuples →
      ∃ S o seen', Clean seen' S ∧ readableMembers seen' ms = true ∧
        readLoop read name (write m ++ d :: rest) pos 0 st = readLoop read name rest (pos + (write m).length + 1) 0
          { subtypes := st.subtypes ++ [m], subtuples := S, nested := if d = ')' then 0 else 1, topOpen := o
            lastItem := pos + (write m).length + 1 } := by
    intro m seen pre rest pos st d ms hd hm hu hname hpos hl hn hc
    have hlen : pos + (write m).length ≤ name.length := by rw [hname]; simp; omega
    rw [readableMembers] at hm
    split at hm
    · rename_i hf
      exact ⟨st.subtuples, st.topOpen, seen, hc, hm, member_free hd hasc hname hpos hf hu hl hn⟩
    · split at hm
      · rename_i hf
        obtain ⟨xs, x, hb, hx, hcnt⟩ := flatTuple_base hf hu
        obtain ⟨s, hs⟩ : ∃ s, (st.subtuples ++ [[]])[0]? = some s := by
          cases st.subtuples <;> simp
        refine ⟨(st.subtuples ++ [[]]).set 0 (s ++ xs), pos, _, ?_, hm, ?_⟩
        · intro h0 s' hs'
          simp only [Bool.or_eq_false_iff, decide_eq_false_iff_not] at h0
          have hxs : xs = [] := by
            rw [hcnt] at h0
            exact List.eq_nil_of_length_eq_zero (by omega)
          have : s = [] := by
            cases h1 : st.subtuples with
            | nil => rw [h1] at hs; simpa using hs.symm
            | cons a l =>
              rw [h1] at hs
              have := hc h0.1 a (by simp [h1])
              simp at hs
              rw [← hs, this]
          subst this hxs
          cases h1 : st.subtuples with
          | nil => rw [h1] at hs'; simpa using hs'.symm
          | cons a l => rw [h1] at hs'; simpa using hs'.symm
        · rw [inner_flat_one hd hasc hname hpos hb hx (hflat m hf hu (by rw [hname]; simp; omega)) hn hs,
            delimiter_empty hd hasc hlen rfl rfl]
          rfl
      · simp only [Bool.and_eq_true, Bool.not_eq_true'] at hm
        obtain ⟨⟨hln, hseen⟩, hm⟩ := hm
        -- the nested-last case
        cases m with
        | tuple ts =>
          simp only [lastNested] at hln
          split at hln
          · rename_i y ys hrev
            have hts : ts = ys.reverse ++ [y] := by
              have := congrArg List.reverse hrev
              simpa using this
            simp only [Bool.and_eq_true, List.all_eq_true] at hln
            obtain ⟨hfy, hys⟩ := hln
            have huy := usizeOkAll_mem hu y (by simp [hts])
            obtain ⟨xs, x, hb, hx, -⟩ := flatTuple_base hfy huy
            have hw : write (.tuple ts) = '(' :: (commaText ys.reverse ++ write y ++ [')']) := by
              rw [hts, write_tuple_concat]
            have e1 : write (.tuple ts) ++ d :: rest =
                '(' :: (commaText ys.reverse ++ (write y ++ ')' :: (d :: rest))) := by rw [hw]; simp
            have hlen2 : (write (.tuple ts)).length = 1 + (commaText ys.reverse).length + (write y).length + 1 := by
              rw [hw]; simp; omega
            obtain ⟨S, hS⟩ : ∃ S, st.subtuples ++ [[]] = [] :: S := by
              cases h1 : st.subtuples with
              | nil => exact ⟨[], rfl⟩
              | cons a l =>
                have := hc hseen a (by simp [h1])
                exact ⟨l ++ [[]], by rw [this]; rfl⟩
            rw [e1, readLoop_open, readOpen_inner (by omega)]
            rw [items_inner (j := 0) hasc ys.reverse (pre ++ ['(']) _ (pos + 1) _ []
              (fun z hz => ⟨hys z (by simpa using hz), usizeOkAll_mem hu z (by rw [hts]; exact List.mem_append_left _ hz)⟩)
              (by rw [hname, hw]; simp) (by simp [hpos]) rfl (by simp [hn]) (by simp [hS])]
            simp only [hS, List.set_cons_zero, List.nil_append]
            obtain ⟨S', h2⟩ := inner_flat_two (name := name) (pre := pre ++ '(' :: commaText ys.reverse)
              (rest := d :: rest) (m := y) (x := x) (xs := xs) (pos := pos + 1 + (commaText ys.reverse).length)
              (st := { subtypes := st.subtypes, subtuples := ys.reverse :: S, nested := st.nested + 1, topOpen := pos, lastItem := pos + 1 + (commaText ys.reverse).length })
              (d := ')') (Or.inr rfl) hasc (by rw [hname, hw]; simp) (by simp [hpos]; omega)
              hb hx (hflat y hfy huy (by rw [hname, hw]; simp; omega)) (by simp [hn]) rfl
            rw [h2, readLoop_close]
            have hs : strSlice name (pos + 1 + (commaText ys.reverse).length + (write y).length)
                (pos + 1 + (commaText ys.reverse).length + (write y).length) = .ok [] := by
              rw [strSlice_ascii hasc (by omega) (by omega)]; simp
            unfold readClose
            simp only [hs, Res.ok_bind, if_true]
            rw [if_neg (by omega)]
            simp only [Res.ok_bind]
            rw [delimiter_empty (st := { subtypes := st.subtypes ++ [.tuple (ys.reverse ++ [y])], subtuples := [] :: S', nested := 2 - 1, topOpen := pos + 1 + (commaText ys.reverse).length, lastItem := pos + 1 + (commaText ys.reverse).length + (write y).length + 1 }) hd hasc (by simp only []; omega) rfl rfl]
            refine ⟨[] :: S', pos + 1 + (commaText ys.reverse).length, false, by simp [Clean], hm, ?_⟩
            rw [hlen2]
            simp only [afterMember, hts]
            congr 1
            · omega
            · congr 1; omega
          · cases hln
        | _ => simp [lastNested] at hln
  intro ms
  induction ms with
  | nil =>
    intro m seen pre pos st hm hu hname hpos hl hn hc
    have e : commaText [] ++ write m ++ [')'] = write m ++ ')' :: [] := by simp [commaText]
    obtain ⟨S, o, seen', -, -, h⟩ := step m seen pre [] pos st ')' [] (Or.inr rfl) hm (hu m (by simp))
      (by rw [hname]; simp [commaText]) hpos hl hn hc
    rw [e, h, readLoop]
    exact ⟨_, rfl, by simp⟩
  | cons a ms ih =>
    intro m seen pre pos st hm hu hname hpos hl hn hc
    have e : commaText (a :: ms) ++ write m ++ [')'] = write a ++ ',' :: (commaText ms ++ write m ++ [')']) := by
      simp [commaText]
    obtain ⟨S, o, seen', hS, hm', h⟩ := step a seen pre (commaText ms ++ write m ++ [')']) pos st ',' (ms ++ [m]) (Or.inl rfl) hm (hu a (by simp))
      (by rw [hname, e]; simp) hpos hl hn hc
    rw [e, h]
    obtain ⟨st', h1, h2⟩ := ih m seen' (pre ++ write a ++ [',']) (pos + (write a).length + 1)
      { subtypes := st.subtypes ++ [a], subtuples := S, nested := if ',' = ')' then 0 else 1, topOpen := o
        lastItem := pos + (write a).length + 1 }
      hm' (fun x hx => hu x (by simp at hx ⊢; tauto)) (by rw [hname, e]; simp) (by simp [hpos]; omega) rfl rfl hS
    exact ⟨st', h1, by rw [h2]; simp⟩

theorem read_tuple_members {ts : List ParamType}
    (hflat : ∀ m : ParamType, flatTuple m = true → m.usizeOk = true →
      (write m).length < (write (.tuple ts)).length → read (write m) = .ok m)
    (hm : readableMembers false ts = true) (hu : ParamType.usizeOkAll ts = true) :
    read (write (.tuple ts)) = .ok (.tuple ts) := by
  rcases List.eq_nil_or_concat ts with rfl | ⟨ms, m, rfl⟩
  · decide
  · rw [List.concat_eq_append] at *
    have hasc : ascii (write (.tuple (ms ++ [m]))) := ascii_write _ _
    have hw := write_tuple_concat ms m
    have hlast : (write (.tuple (ms ++ [m]))).getLast? = some ')' := by
      rw [hw, show '(' :: (commaText ms ++ write m ++ [')']) = ('(' :: (commaText ms ++ write m)) ++ [')'] by simp]
      exact List.getLast?_concat ..
    obtain ⟨st', h1, h2⟩ := members_read hasc hflat ms m false ['('] 1
      { subtypes := [], subtuples := [], nested := 1, topOpen := 0, lastItem := 1 } hm
      (fun x hx => usizeOkAll_mem hu x hx) (by rw [hw]; simp) rfl rfl rfl (by simp [Clean])
    rw [read_eq, readStep, if_pos hlast, if_neg (by rw [hw]; simp [lit, startsWith])]
    have : readLoop read (write (.tuple (ms ++ [m]))) (write (.tuple (ms ++ [m]))) 0 0
        { subtypes := [], subtuples := [], nested := 0, topOpen := 0, lastItem := 1 } = .ok st' := by
      rw [← h1]
      conv => lhs; arg 3; rw [hw]
      rw [readLoop_open]
      rfl
    rw [this]
    simp only [Res.ok_bind, h2, List.nil_append]

theorem readableMembers_free {ts : List ParamType} (h : ∀ t ∈ ts, tupleFree t = true) (seen : Bool) :
    readableMembers seen ts = true := by
  induction ts with
  | nil => rfl
  | cons t ts ih =>
    rw [readableMembers, if_pos (h t (by simp))]
    exact ih fun u hu => h u (by simp [hu])

theorem usizeOk_sizesFit {t : ParamType} (h : t.usizeOk = true) : sizesFit t = true := sizesFit_of_usizeOk t h

theorem usizeOk_base : ∀ {t : ParamType}, t.usizeOk = true → (baseOf t).usizeOk = true
  | .array t, h => usizeOk_base (t := t) h
  | .fixedArray t n, h => by
      simp only [ParamType.usizeOk, Bool.and_eq_true] at h
      exact usizeOk_base (t := t) h.2
  | .tuple _, h => h
  | .address, h => h
  | .bytes, h => h
  | .bool, h => h
  | .string, h => h
  | .int _, h => h
  | .uint _, h => h
  | .fixedBytes _, h => h

theorem read_flat : ∀ (n : Nat) (m : ParamType), (write m).length = n → flatTuple m = true → m.usizeOk = true →
    read (write m) = .ok m := by
  intro n
  induction n using Nat.strongRecOn with
  | ind n ih =>
    intro m hn hf hu
    obtain ⟨xs, x, hb, hx, -⟩ := flatTuple_base hf hu
    apply read_chain m (usizeOk_sizesFit hu)
    rw [hb]
    have hlen : (write (.tuple (xs ++ [x]))).length ≤ n := by
      rw [← hn, write_chain m, hb]; simp
    have hub := usizeOk_base hu
    rw [hb] at hub
    apply read_tuple_members
    · intro m' hf' hu' hl
      exact ih _ (by omega) m' rfl hf' hu'
    · exact readableMembers_free (fun t ht => (hx t ht).1) false
    · exact hub

theorem readable_base : ∀ {t : ParamType}, readable t = true → readable (baseOf t) = true
  | .array t, h => readable_base (t := t) h
  | .fixedArray t _, h => readable_base (t := t) h
  | .tuple _, h => h
  | .address, h => h
  | .bytes, h => h
  | .bool, h => h
  | .string, h => h
  | .int _, h => h
  | .uint _, h => h
  | .fixedBytes _, h => h

theorem baseOf_cases : ∀ (t : ParamType), (∃ ts, baseOf t = .tuple ts) ∨ tupleFree (baseOf t) = true
  | .array t => baseOf_cases t
  | .fixedArray t _ => baseOf_cases t
  | .tuple ts => Or.inl ⟨ts, rfl⟩
  | .address => Or.inr rfl
  | .bytes => Or.inr rfl
  | .bool => Or.inr rfl
  | .string => Or.inr rfl
  | .int _ => Or.inr rfl
  | .uint _ => Or.inr rfl
  | .fixedBytes _ => Or.inr rfl

theorem read_readable (t : ParamType) (h : readable t = true) (hu : t.usizeOk = true) : read (write t) = .ok t := by
  apply read_chain t (usizeOk_sizesFit hu)
  have hb := readable_base h
  have hub := usizeOk_base hu
  rcases baseOf_cases t with ⟨ts, e⟩ | e
  · rw [e] at hb hub ⊢
    exact read_tuple_members (fun m hf hu' _ => read_flat _ m rfl hf hu') hb hub
  · exact read_write_tupleFree _ e hub

end Ethabi

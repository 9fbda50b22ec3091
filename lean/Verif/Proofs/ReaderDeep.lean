import Mathlib.Data.Nat.Choose.Basic
import Verif.Proofs.Reader
import Verif.Proofs.TokenText
import Verif.Spec.TypeSize
/-! # Type texts outside ASCII: types that are larger than every power of the length of the text -/
namespace Ethabi.Deep
open Spec

/-! ### slices -/

/-- so many zeros -/
def zeros (n : Nat) : Str := List.replicate n '0'

theorem slice_mid (x r y : Str) : strSlice (x ++ r ++ y) (byteLen x) (byteLen x + byteLen r) = .ok r := by
  rw [TokenText.strSlice_iff]
  refine ⟨x, y, rfl, ?_, ?_⟩
  · rw [← TokenText.byteLen_eq]
  · rw [← TokenText.byteLen_eq, byteLen_append]

/-- slices of an ASCII part -/
theorem slice_ascii {name a b c : Str} {p x y : Nat} (hn : name = a ++ b ++ c) (hb : ascii b) (hp : byteLen a = p) (hxy : x ≤ y)
    (hy : y ≤ b.length) : strSlice name (p + x) (p + y) = .ok ((b.drop x).take (y - x)) := by
  have hsub : ∀ l : Str, (∀ c ∈ l, c ∈ b) → ascii l := fun l hl c hc => hb c (hl c hc)
  have e : b = b.take x ++ ((b.drop x).take (y - x) ++ (b.drop x).drop (y - x)) := by
    rw [List.take_append_drop, List.take_append_drop]
  have h1 : ascii (b.take x) := hsub _ fun c hc => List.mem_of_mem_take hc
  have h2 : ascii ((b.drop x).take (y - x)) := hsub _ fun c hc => List.mem_of_mem_drop (List.mem_of_mem_take hc)
  have l1 : byteLen (a ++ b.take x) = p + x := by
    rw [byteLen_append, hp, byteLen_ascii h1, List.length_take, Nat.min_eq_left (by omega)]
  have l2 : byteLen ((b.drop x).take (y - x)) = y - x := by
    rw [byteLen_ascii h2, List.length_take, List.length_drop, Nat.min_eq_left (by omega)]
  have := slice_mid (a ++ b.take x) ((b.drop x).take (y - x)) ((b.drop x).drop (y - x) ++ c)
  rw [l1, l2] at this
  have e1 : name = a ++ b.take x ++ (b.drop x).take (y - x) ++ ((b.drop x).drop (y - x) ++ c) := by
    rw [hn]
    conv => lhs; rw [e]
    simp only [List.append_assoc]
  rw [e1]
  have e2 : p + y = p + x + (y - x) := by omega
  rw [e2]
  exact this

/-! ### the loop, one kind of character at a time -/

/-- characters that the loop passes over -/
def plain (s : Str) : Prop := ∀ c ∈ s, c ≠ '(' ∧ c ≠ ')' ∧ c ≠ ','

theorem run_plain (r : Str → Res ParamType) (name rest : Str) : ∀ (u : Str) (pos : Nat) (st : ReadSt), plain u →
    readLoop r name (u ++ rest) pos 0 st = readLoop r name rest (pos + u.length) 0 st
  | [], _, _, _ => rfl
  | c :: u, pos, st, h => by
    obtain ⟨h1, h2, h3⟩ := h c (List.mem_cons_self ..)
    rw [List.cons_append, readLoop, if_neg h1, if_neg h2, if_neg h3, run_plain r name rest u _ _ fun c hc => h c (List.mem_cons_of_mem _ hc),
      List.length_cons]
    congr 1
    omega

/-- what is known of the state: so many are open, the last one opened there, the last item begins there, room in `subtuples`,
and the types read so far hold so many types -/
structure St (st : ReadSt) (n top last c : Nat) : Prop where
  nested : st.nested = n
  top : st.topOpen = top
  last : st.lastItem = last
  room : n ≤ st.subtuples.length + 1
  size : c ≤ nodesAll st.subtypes

theorem nodesAll_append : ∀ (a b : List ParamType), nodesAll (a ++ b) = nodesAll a + nodesAll b
  | [], b => by rw [nodesAll, Nat.zero_add]; rfl
  | t :: a, b => by rw [List.cons_append, nodesAll, nodesAll, nodesAll_append a b, Nat.add_assoc]

theorem run_open {r : Str → Res ParamType} {name rest : Str} {pos n top last c : Nat} {st : ReadSt} (h : St st n top last c)
    (hn : 1 ≤ n) : ∃ st', St st' (n + 1) pos (pos + 1) c ∧
      readLoop r name ('(' :: rest) pos 0 st = readLoop r name rest (pos + 1) 0 st' := by
  refine ⟨readOpen pos st, ?_, by rw [readLoop, if_pos rfl]⟩
  have h1 : st.nested + 1 > 1 := by rw [h.nested]; omega
  have e : readOpen pos st = ⟨st.subtypes, st.subtuples ++ [[]], st.nested + 1, pos, pos + 1⟩ := by
    rw [readOpen]; exact if_pos h1
  rw [e]
  refine ⟨by show st.nested + 1 = _; rw [h.nested]; rfl, rfl, rfl, ?_, h.size⟩
  have := h.room
  show _ ≤ (st.subtuples ++ [[]]).length + 1
  rw [List.length_append]
  show _ ≤ _ + 1 + 1
  omega

theorem run_opens (r : Str → Res ParamType) (name rest : Str) : ∀ (m pos n top last c : Nat) (st : ReadSt), St st n top last c → 1 ≤ n →
    ∃ st', St st' (n + (m + 1)) (pos + m) (pos + (m + 1)) c ∧
      readLoop r name (List.replicate (m + 1) '(' ++ rest) pos 0 st = readLoop r name rest (pos + (m + 1)) 0 st'
  | 0, pos, n, top, last, c, st, h, hn => run_open h hn
  | m + 1, pos, n, top, last, c, st, h, hn => by
    obtain ⟨st1, h1, e1⟩ := run_open (r := r) (name := name) (rest := List.replicate (m + 1) '(' ++ rest) (pos := pos) h hn
    obtain ⟨st2, h2, e2⟩ := run_opens r name rest m (pos + 1) (n + 1) _ _ c st1 h1 (by omega)
    refine ⟨st2, ?_, ?_⟩
    · have a1 : n + 1 + (m + 1) = n + (m + 1 + 1) := by omega
      have a2 : pos + 1 + m = pos + (m + 1) := by omega
      have a3 : pos + 1 + (m + 1) = pos + (m + 1 + 1) := by omega
      rwa [a1, a2, a3] at h2
    · rw [List.replicate_succ, List.cons_append, e1, e2]
      congr 1
      omega

/-- the parentheses at the beginning -/
theorem run_first (r : Str → Res ParamType) (name rest : Str) (m : Nat) :
    ∃ st', St st' (m + 1) m (m + 1) 0 ∧
      readLoop r name (List.replicate (m + 1) '(' ++ rest) 0 0
        { subtypes := [], subtuples := [], nested := 0, topOpen := 0, lastItem := 1 } = readLoop r name rest (m + 1) 0 st' := by
  have h0 : St (readOpen 0 { subtypes := [], subtuples := [], nested := 0, topOpen := 0, lastItem := 1 }) 1 0 1 0 :=
    ⟨rfl, rfl, rfl, Nat.le_refl _, Nat.zero_le _⟩
  have e0 : ∀ rest', readLoop r name ('(' :: rest') 0 0
      { subtypes := [], subtuples := [], nested := 0, topOpen := 0, lastItem := 1 } =
      readLoop r name rest' (0 + 1) 0 (readOpen 0 { subtypes := [], subtuples := [], nested := 0, topOpen := 0, lastItem := 1 }) := by
    intro rest'
    rw [readLoop, if_pos rfl]
  cases m with
  | zero => exact ⟨_, h0, e0 rest⟩
  | succ m =>
    obtain ⟨st2, h2, e2⟩ := run_opens r name rest m (0 + 1) 1 0 1 0 _ h0 (Nat.le_refl _)
    refine ⟨st2, ?_, ?_⟩
    · have a1 : 1 + (m + 1) = m + 1 + 1 := by omega
      have a2 : 0 + 1 + m = m + 1 := by omega
      rwa [a1, a2] at h2
    · rw [List.replicate_succ, List.cons_append, e0, e2]
      congr 1
      omega

theorem run_comma_empty {r : Str → Res ParamType} {name rest : Str} {pos n top c : Nat} {st : ReadSt} (h : St st n top pos c)
    (hs : strSlice name pos pos = .ok []) : ∃ st', St st' n top (pos + 1) c ∧
      readLoop r name (',' :: rest) pos 0 st = readLoop r name rest (pos + 1) 0 st' := by
  refine ⟨{ st with lastItem := pos + 1 }, ⟨h.nested, h.top, rfl, h.room, h.size⟩, ?_⟩
  rw [readLoop, if_neg (by decide), if_neg (by decide), if_pos rfl, readComma, h.last, hs]
  rfl

theorem run_comma {r : Str → Res ParamType} {name rest item : Str} {pos n top last c : Nat} {st : ReadSt} {t : ParamType}
    (h : St st n top last c) (hn : 2 ≤ n) (hs : strSlice name last pos = .ok item) (hi : item ≠ []) (hr : r item = .ok t) :
    ∃ st', St st' n top (pos + 1) c ∧ readLoop r name (',' :: rest) pos 0 st = readLoop r name rest (pos + 1) 0 st' := by
  have hroom := h.room
  have h1 : ¬ (st.nested = 1) := by rw [h.nested]; omega
  have h2 : st.nested > 1 := by rw [h.nested]; omega
  have hi2 : (st.nested - 2).toNat = n - 2 := by rw [h.nested]; omega
  obtain ⟨sub, hsub⟩ : ∃ sub, indexVec st.subtuples (st.nested - 2) = .ok sub := by
    unfold indexVec
    rw [if_neg (by rw [h.nested]; omega), hi2]
    have : n - 2 < st.subtuples.length := by omega
    rw [List.getElem?_eq_getElem this]
    exact ⟨_, rfl⟩
  refine ⟨{ st with subtuples := st.subtuples.set (st.nested - 2).toNat (sub ++ [t]), lastItem := pos + 1 },
    ⟨h.nested, h.top, rfl, by show _ ≤ (st.subtuples.set _ _).length + 1; rw [List.length_set]; exact h.room, h.size⟩, ?_⟩
  rw [readLoop, if_neg (by decide), if_neg (by decide), if_pos rfl, readComma, h.last, hs, Res.ok_bind, if_neg hi, if_neg h1, if_pos h2,
    hr, Res.ok_bind, hsub]
  rfl

theorem run_close {r : Str → Res ParamType} {name rest item inner : Str} {pos n top last c : Nat} {st : ReadSt} {t : ParamType}
    (h : St st (n + 1) top last c) (hn : 2 ≤ n) (hs : strSlice name last pos = .ok item) (hi : item ≠ [])
    (ht : trailing rest = 0) (hin : strSlice name top (pos + 1) = .ok inner) (hr : r inner = .ok t) :
    ∃ st', St st' n top (pos + 1) (c + nodes t) ∧
      readLoop r name (')' :: rest) pos 0 st = readLoop r name rest (pos + 1) 0 st' := by
  have hroom := h.room
  have e : st.nested - 1 = (n : Int) := by rw [h.nested]; omega
  have h0 : ¬ ((n : Int) < 0) := by omega
  have h1 : ¬ ((n : Int) = 0) := by omega
  have h2 : (n : Int) > 1 := by omega
  have hi2 : ((n : Int) - 2).toNat = n - 2 := by omega
  obtain ⟨sub, hsub⟩ : ∃ sub, indexVec st.subtuples ((n : Int) - 2) = .ok sub := by
    unfold indexVec
    rw [if_neg (by omega), hi2]
    have : n - 2 < st.subtuples.length := by omega
    rw [List.getElem?_eq_getElem this]
    exact ⟨_, rfl⟩
  refine ⟨⟨st.subtypes ++ [.tuple (sub ++ [t])], st.subtuples.set ((n : Int) - 2).toNat [], n, st.topOpen, pos + 1⟩,
    ⟨rfl, h.top, rfl, ?_, ?_⟩, ?_⟩
  · show _ ≤ (st.subtuples.set _ _).length + 1
    rw [List.length_set]; omega
  · have := h.size
    show _ ≤ nodesAll (st.subtypes ++ [.tuple (sub ++ [t])])
    rw [nodesAll_append, nodesAll, nodesAll, nodes, nodesAll_append, nodesAll, nodesAll]
    omega
  · rw [readLoop, if_neg (by decide), if_pos rfl]
    have : readClose r name rest pos st = .ok (⟨st.subtypes ++ [.tuple (sub ++ [t])], st.subtuples.set ((n : Int) - 2).toNat [], n,
        st.topOpen, pos + 1⟩, 0) := by
      unfold readClose
      simp only [e, ht, Nat.add_zero]
      rw [if_neg h0, h.last, hs, Res.ok_bind, if_neg hi, if_neg h1, h.top, hin, Res.ok_bind, hr, Res.ok_bind, if_pos h2, hsub]
      rfl
    rw [this]
    rfl

/-- so many times -/
def rep (n : Nat) (s : Str) : Str :=
  match n with
  | 0 => []
  | n + 1 => s ++ rep n s

/-- the sum of the first `m + 1` -/
def sumTo (g : Nat → Nat) : Nat → Nat
  | 0 => g 0
  | m + 1 => g 0 + sumTo (fun i => g (i + 1)) m

/-- `)` and so many times `,a)` -/
theorem run_closes {r : Str → Res ParamType} {name tail : Str} (htail : trailing tail = 0) :
    ∀ (m pos n top last c : Nat) (g : Nat → Nat) (st : ReadSt), St st (n + (m + 1)) top last c → 2 ≤ n → last < pos →
    (∃ item, strSlice name last pos = .ok item) →
    (∀ a b, pos < a → a ≤ b → b ≤ pos + 3 * m → ∃ item, strSlice name a b = .ok item) →
    (∀ i, i ≤ m → ∃ inner t, strSlice name top (pos + 3 * i + 1) = .ok inner ∧ r inner = .ok t ∧ g i ≤ nodes t) →
    ∃ st', St st' n top (pos + 3 * m + 1) (c + sumTo g m) ∧
      readLoop r name (')' :: (rep m [',', 'a', ')'] ++ tail)) pos 0 st = readLoop r name tail (pos + 3 * m + 1) 0 st'
  | 0, pos, n, top, last, c, g, st, h, hn, hl, ⟨item, hs⟩, _, hr => by
    obtain ⟨inner, t, h1, h2, h3⟩ := hr 0 (Nat.le_refl _)
    have hi : item ≠ [] := by
      rintro rfl
      have := (strSlice_ok hs).1
      simp only [byteLen] at this
      omega
    obtain ⟨st', k1, k2⟩ := run_close (rest := tail) h hn hs hi htail h1 h2
    refine ⟨st', ⟨k1.nested, k1.top, k1.last, k1.room, ?_⟩, k2⟩
    have := k1.size
    rw [sumTo]; omega
  | m + 1, pos, n, top, last, c, g, st, h, hn, hl, ⟨item, hs⟩, hb, hr => by
    obtain ⟨inner, t, h1, h2, h3⟩ := hr 0 (Nat.zero_le _)
    have hi : item ≠ [] := by
      rintro rfl
      have := (strSlice_ok hs).1
      simp only [byteLen] at this
      omega
    have h' : St st (n + (m + 1) + 1) top last c := h
    have e : rep (m + 1) [',', 'a', ')'] ++ tail = ',' :: (['a'] ++ (')' :: (rep m [',', 'a', ')'] ++ tail))) := rfl
    obtain ⟨st1, a1, b1⟩ := run_close (rest := ',' :: (['a'] ++ (')' :: (rep m [',', 'a', ')'] ++ tail)))) h' (by omega) hs hi
      (by simp [trailing]) h1 h2
    have hempty : strSlice name (pos + 1) (pos + 1) = .ok [] := by
      obtain ⟨item, h⟩ := hb (pos + 1) (pos + 1) (by omega) (Nat.le_refl _) (by omega)
      have := (strSlice_ok h).1
      rw [h, Nat.sub_self] at *
      cases item with
      | nil => rfl
      | cons c s => have := utf8Char_length_pos c; rw [byteLen] at *; omega
    obtain ⟨st2, a2, b2⟩ := run_comma_empty (r := r) (rest := ['a'] ++ (')' :: (rep m [',', 'a', ')'] ++ tail))) a1 hempty
    have b3 := run_plain r name (')' :: (rep m [',', 'a', ')'] ++ tail)) ['a'] (pos + 1 + 1) st2 (by
      intro c hc; simp only [List.mem_singleton] at hc; subst hc; decide)
    obtain ⟨st4, a4, b4⟩ := run_closes htail m (pos + 3) n top (pos + 2) (c + nodes t) (fun i => g (i + 1)) st2 a2 hn
      (by omega) (hb _ _ (by omega) (by omega) (by omega)) (fun a b h1 h2 h3 => hb a b (by omega) h2 (by omega)) (by
        intro i hi
        obtain ⟨inner, t, h1, h2, h3⟩ := hr (i + 1) (by omega)
        refine ⟨inner, t, ?_, h2, h3⟩
        have : pos + 3 + 3 * i + 1 = pos + 3 * (i + 1) + 1 := by omega
        rw [this]; exact h1)
    have p1 : pos + 3 + 3 * m + 1 = pos + 3 * (m + 1) + 1 := by omega
    refine ⟨st4, ?_, ?_⟩
    · rw [p1] at a4
      refine ⟨a4.nested, a4.top, a4.last, a4.room, ?_⟩
      have := a4.size
      rw [sumTo]; omega
    · rw [e, b1, b2, b3]
      rw [p1] at b4
      exact b4

/-! ### the texts -/

theorem length_le : ∀ s : Str, s.length ≤ byteLen s
  | [] => Nat.le_refl _
  | c :: cs => by
    have := length_le cs
    have := utf8Char_length_pos c
    rw [byteLen, List.length_cons]; omega

/-- a text that ends in any of several places, and what its characters meet when it is part of another text -/
structure Level where
  /-- up to the first place where it may end -/
  head : Str
  /-- what lies between two such places -/
  sep : Str
  /-- as many characters as the whole text -/
  mirror : Str

/-- the text with `i` continuations -/
def Level.text (l : Level) (i : Nat) : Str := l.head ++ rep i l.sep

/-- the next level, for `j` continuations -/
def Level.next (j : Nat) (l : Level) : Level :=
  ⟨List.replicate (j + 1) '(' ++ (List.replicate ((l.text j).length + 2) 'é' ++ ('0' :: (l.mirror ++ '0' :: '(' :: (l.text j ++
      ',' :: 'a' :: '(' :: (List.replicate (byteLen l.head - 2) 'a' ++ [')']))))),
    [',', 'a', ')'],
    zeros j ++ lit "int" ++ zeros ((l.text j).length + ((l.text j).length + 2)) ++ '0' :: (l.mirror ++ '0' :: '0' ::
      (lit "int" ++ zeros (byteLen l.head - 2 + 3 * j - 1)))⟩

/-- level zero is an integer type with zeros in front of its width -/
def level (j : Nat) : Nat → Level
  | 0 => ⟨lit "int", lit "000", lit "int" ++ zeros (3 * j)⟩
  | d + 1 => (level j d).next j

theorem ascii_zeros (n : Nat) : ascii (zeros n) := by
  intro c hc
  rw [List.eq_of_mem_replicate hc]; decide

theorem ascii_append {a b : Str} (ha : ascii a) (hb : ascii b) : ascii (a ++ b) := by
  intro c hc
  rcases List.mem_append.1 hc with h | h
  · exact ha c h
  · exact hb c h

theorem ascii_cons {c : Char} {b : Str} (ha : c.toNat < 128) (hb : ascii b) : ascii (c :: b) := by
  intro x hx
  rcases List.mem_cons.1 hx with rfl | h
  · exact ha
  · exact hb x h

theorem ascii_int : ascii (lit "int") := by
  intro c hc
  simp only [lit, String.toList] at hc
  revert c
  decide

theorem length_zeros (n : Nat) : (zeros n).length = n := List.length_replicate

theorem length_rep (s : Str) : ∀ n, (rep n s).length = n * s.length
  | 0 => by rw [Nat.zero_mul]; rfl
  | n + 1 => by rw [rep, List.length_append, length_rep s n, Nat.succ_mul, Nat.add_comm]

theorem ascii_rep {s : Str} (h : ascii s) : ∀ n, ascii (rep n s)
  | 0 => fun _ hc => by cases hc
  | n + 1 => ascii_append h (ascii_rep h n)

theorem rep_add (s : Str) : ∀ m n, rep (m + n) s = rep m s ++ rep n s
  | 0, n => by rw [Nat.zero_add]; rfl
  | m + 1, n => by rw [Nat.add_right_comm, rep, rep_add s m n, rep, List.append_assoc]

theorem plain_append {a b : Str} (ha : plain a) (hb : plain b) : plain (a ++ b) := by
  intro c hc
  rcases List.mem_append.1 hc with h | h
  · exact ha c h
  · exact hb c h

theorem plain_cons {c : Char} {b : Str} (ha : c ≠ '(' ∧ c ≠ ')' ∧ c ≠ ',') (hb : plain b) : plain (c :: b) := by
  intro x hx
  rcases List.mem_cons.1 hx with rfl | h
  · exact ha
  · exact hb x h

theorem plain_replicate {c : Char} (ha : c ≠ '(' ∧ c ≠ ')' ∧ c ≠ ',') (n : Nat) : plain (List.replicate n c) := by
  intro x hx
  rw [List.eq_of_mem_replicate hx]; exact ha

theorem plain_int : plain (lit "int") := by
  intro c hc
  simp only [lit, String.toList] at hc
  revert c
  decide

/-- what holds of every level -/
structure Good (j : Nat) (l : Level) : Prop where
  sepAscii : ascii l.sep
  sepLength : l.sep.length = 3
  head : ∃ a mid b, l.head = a :: (mid ++ [b]) ∧ a.toNat < 128 ∧ b.toNat < 128 ∧ 1 ≤ byteLen mid
  mirrorAscii : ascii l.mirror
  mirrorPlain : plain l.mirror
  mirrorLength : l.mirror.length = (l.text j).length

theorem Good.headBytes {j : Nat} {l : Level} (h : Good j l) : 3 ≤ byteLen l.head := by
  obtain ⟨a, mid, b, e, ha, hb, hm⟩ := h.head
  rw [e, byteLen, byteLen_append, byteLen, byteLen, utf8Char_ascii ha, utf8Char_ascii hb]
  omega

theorem good_zero (j : Nat) : Good j ⟨lit "int", lit "000", lit "int" ++ zeros (3 * j)⟩ := by
  refine ⟨?_, rfl, ⟨'i', ['n'], 't', rfl, by decide, by decide, by decide⟩, ascii_append ascii_int (ascii_zeros _),
    plain_append plain_int (plain_replicate (by decide) _), ?_⟩
  · exact ascii_zeros 3
  · show (lit "int" ++ zeros (3 * j)).length = (lit "int" ++ rep j (lit "000")).length
    rw [List.length_append, List.length_append, length_zeros, length_rep]
    show _ + 3 * j = _ + j * 3
    omega

theorem length_next (j : Nat) (l : Level) (h : Good j l) : (l.next j).head.length =
    j + 1 + ((l.text j).length + 2) + 1 + (l.text j).length + 2 + (l.text j).length + 3 + (byteLen l.head - 2) + 1 := by
  simp only [Level.next, List.length_append, List.length_cons, List.length_replicate, List.length_nil, h.mirrorLength]
  omega

theorem good_next {j : Nat} {l : Level} (h : Good j l) : Good j (l.next j) := by
  have hb := h.headBytes
  refine ⟨?_, rfl, ?_, ?_, ?_, ?_⟩
  · exact ascii_cons (by decide) (ascii_cons (by decide) (ascii_cons (by decide) (fun _ hc => by cases hc)))
  · refine ⟨'(', List.replicate j '(' ++ (List.replicate ((l.text j).length + 2) 'é' ++ ('0' :: (l.mirror ++ '0' :: '(' :: (l.text j ++
      ',' :: 'a' :: '(' :: (List.replicate (byteLen l.head - 2) 'a'))))), ')', ?_, by decide, by decide, ?_⟩
    · simp only [Level.next, List.replicate_succ, List.cons_append, List.append_assoc]
    · have := length_le (List.replicate j '(' ++ (List.replicate ((l.text j).length + 2) 'é' ++ ('0' :: (l.mirror ++ '0' :: '(' ::
        (l.text j ++ ',' :: 'a' :: '(' :: (List.replicate (byteLen l.head - 2) 'a'))))))
      simp only [List.length_append, List.length_cons, List.length_replicate] at this
      omega
  · exact ascii_append (ascii_append (ascii_append (ascii_zeros _) ascii_int) (ascii_zeros _)) (ascii_cons (by decide) (ascii_append
      h.mirrorAscii (ascii_cons (by decide) (ascii_cons (by decide) (ascii_append ascii_int (ascii_zeros _))))))
  · exact plain_append (plain_append (plain_append (plain_replicate (by decide) _) plain_int) (plain_replicate (by decide) _))
      (plain_cons (by decide) (plain_append h.mirrorPlain (plain_cons (by decide) (plain_cons (by decide) (plain_append plain_int
        (plain_replicate (by decide) _))))))
  · have e : ((l.next j).text j).length = (l.next j).head.length + 3 * j := by
      rw [Level.text, List.length_append, length_rep]
      show _ + j * 3 = _
      omega
    have hi : (lit "int").length = 3 := rfl
    rw [e, length_next j l h]
    simp only [Level.next, List.length_append, List.length_cons, length_zeros, h.mirrorLength, hi]
    omega

theorem good (j : Nat) : ∀ d, Good j (level j d)
  | 0 => good_zero j
  | d + 1 => good_next (good j d)

/-! ### reading them -/

theorem digitsVal_zeros : ∀ n acc, acc = 0 → (zeros n).foldl (fun acc c => acc * 10 + (c.toNat - '0'.toNat)) acc = 0
  | 0, _, h => h
  | n + 1, acc, h => by
    rw [zeros, List.replicate_succ, List.foldl_cons]
    exact digitsVal_zeros n _ (by rw [h]; rfl)

/-- `int`, `int0`, `int00` and so on are types -/
theorem read_int (n : Nat) : ∃ t, read (lit "int" ++ zeros n) = .ok t ∧ 1 ≤ nodes t := by
  have e : lit "int" ++ zeros n = 'i' :: 'n' :: 't' :: zeros n := rfl
  cases n with
  | zero => exact ⟨.int 256, by decide +kernel, by decide⟩
  | succ n =>
    have hl : (lit "int" ++ zeros (n + 1)).getLast? = some '0' := by
      rw [zeros, List.replicate_succ', ← List.append_assoc, List.getLast?_concat]
    have hp : parseUsize ((lit "int" ++ zeros (n + 1)).drop 3) = .ok 0 := by
      have hd : (lit "int" ++ zeros (n + 1)).drop 3 = zeros (n + 1) := rfl
      have hs : stripPlus (zeros (n + 1)) = zeros (n + 1) := rfl
      have hv : digitsVal (zeros (n + 1)) = 0 := digitsVal_zeros _ _ rfl
      have ha : (zeros (n + 1)).all isDigit = true := by
        rw [List.all_eq_true]
        intro c hc
        rw [List.eq_of_mem_replicate hc]; decide
      rw [hd, parseUsize, hs, hv, if_pos ⟨by simp [zeros, List.replicate_succ], ha, by decide⟩]
    refine ⟨.int 0, ?_, by decide⟩
    rw [read_eq, readStep, hl, if_neg (by decide), if_neg (by decide), readElementary, hp]
    have ne : ∀ s : Str, s.length ≤ 3 ∨ s[0]? ≠ some 'i' → lit "int" ++ zeros (n + 1) ≠ s := by
      rintro s hs rfl
      rcases hs with hs | hs
      · rw [List.length_append, length_zeros] at hs
        have : (lit "int").length = 3 := rfl
        omega
      · exact hs rfl
    rw [if_neg (ne _ (Or.inr (by decide))), if_neg (ne _ (Or.inr (by decide))), if_neg (ne _ (Or.inr (by decide))),
      if_neg (ne _ (Or.inr (by decide))), if_neg (ne _ (Or.inl (by decide))), if_neg (ne _ (Or.inr (by decide))),
      if_neg (ne _ (Or.inr (by decide))), if_pos (by rw [e]; rfl)]
    rfl

theorem byteLen_zeros (n : Nat) : byteLen (zeros n) = n := by rw [byteLen_ascii (ascii_zeros n), length_zeros]

theorem take_zeros {m n : Nat} (h : m ≤ n) : (zeros n).take m = zeros m := by
  rw [zeros, zeros, List.take_replicate, Nat.min_eq_left h]

/-- passing over a level inside another text -/
theorem run_mirror (j : Nat) : ∀ (d : Nat) (name A B rest : Str) (pos n top c : Nat) (st : ReadSt),
    name = A ++ ((level j d).mirror ++ '0' :: B) → byteLen A = pos → 2 ≤ n → St st n top pos c →
    ∃ st' top', St st' (n + 2 * d) top' (pos + ((level j d).text j).length + 1) c ∧
      readLoop read name ((level j d).text j ++ ',' :: rest) pos 0 st =
        readLoop read name rest (pos + ((level j d).text j).length + 1) 0 st'
  | 0, name, A, B, rest, pos, n, top, c, st, hname, hA, hn, h => by
    have hz : ∀ m, rep m (lit "000") = zeros (3 * m) := by
      intro m
      induction m with
      | zero => rfl
      | succ m ih => rw [rep, ih, Nat.mul_succ, Nat.add_comm]; simp only [zeros, List.replicate_add]; rfl
    have ht : (level j 0).text j = lit "int" ++ zeros (3 * j) := by rw [← hz]; rfl
    have hlen : (lit "int" ++ zeros (3 * j)).length = 3 + 3 * j := by rw [List.length_append, length_zeros]; rfl
    obtain ⟨t, hr, -⟩ := read_int (3 * j)
    have hsl : strSlice name pos (pos + (3 + 3 * j)) = .ok (lit "int" ++ zeros (3 * j)) := by
      have := slice_ascii (name := name) (a := A) (b := lit "int" ++ zeros (3 * j)) (c := '0' :: B) (x := 0) (y := 3 + 3 * j)
        (by rw [hname, List.append_assoc]; rfl) (ascii_append ascii_int (ascii_zeros _)) hA (by omega) (by omega)
      rw [Nat.add_zero, List.drop_zero, Nat.sub_zero] at this
      rw [this, ← hlen, List.take_length]
    have e1 := run_plain read name (',' :: rest) (lit "int" ++ zeros (3 * j)) pos st
      (plain_append plain_int (plain_replicate (by decide) _))
    obtain ⟨st', h1, h2⟩ := run_comma (r := read) (rest := rest) h hn hsl (by intro h; cases h) hr
    rw [ht, hlen]
    rw [hlen] at e1
    exact ⟨st', top, h1, by rw [e1, h2]⟩
  | d + 1, name, A, B, rest, pos, n, top, c, st, hname, hA, hn, h => by
    have g := good j d
    have hhb := g.headBytes
    have hint : (lit "int").length = 3 := rfl
    generalize hl : level j d = l at *
    have hlen : ((l.next j).text j).length = j + 1 + ((l.text j).length + 2) + 1 + (l.text j).length + 2 + (l.text j).length + 3 +
        (byteLen l.head - 2) + 1 + 3 * j := by
      rw [Level.text, List.length_append, length_next j l g, length_rep]
      show _ + j * 3 = _
      omega
    have hlev : level j (d + 1) = l.next j := by rw [level, hl]
    rw [hlev] at hname ⊢
    rw [hlen]
    have htext : (l.next j).text j ++ ',' :: rest = List.replicate (j + 1) '(' ++ ((List.replicate ((l.text j).length + 2) 'é' ++
        ('0' :: (l.mirror ++ ['0']))) ++ ('(' :: (l.text j ++ ',' :: (['a'] ++ ('(' :: (List.replicate (byteLen l.head - 2) 'a' ++
        (')' :: (rep j [',', 'a', ')'] ++ ',' :: rest)))))))) := by
      simp only [Level.text, Level.next, List.append_assoc, List.cons_append, List.nil_append]
    rw [htext]
    generalize hX : (l.text j).length = x at *
    generalize hF : byteLen l.head - 2 = f at *
    -- the parentheses
    obtain ⟨st1, a1, b1⟩ := run_opens read name ((List.replicate (x + 2) 'é' ++
        ('0' :: (l.mirror ++ ['0']))) ++ ('(' :: (l.text j ++ ',' :: (['a'] ++ ('(' :: (List.replicate f 'a' ++
        (')' :: (rep j [',', 'a', ')'] ++ ',' :: rest)))))))) j pos n top pos c st h (by omega)
    -- the letters
    have b2 := run_plain read name ('(' :: (l.text j ++ ',' :: (['a'] ++ ('(' :: (List.replicate f 'a' ++
        (')' :: (rep j [',', 'a', ')'] ++ ',' :: rest))))))) (List.replicate (x + 2) 'é' ++ ('0' :: (l.mirror ++ ['0'])))
        (pos + (j + 1)) st1 (plain_append (plain_replicate (by decide) _) (plain_cons (by decide) (plain_append g.mirrorPlain
          (plain_cons (by decide) (fun _ hc => by cases hc)))))
    have p2 : pos + (j + 1) + (List.replicate (x + 2) 'é' ++ ('0' :: (l.mirror ++ ['0']))).length = pos + (j + 5 + 2 * x) := by
      simp only [List.length_append, List.length_cons, List.length_replicate, List.length_nil, g.mirrorLength, hX]
      omega
    rw [p2] at b2
    obtain ⟨st3, a3, b3⟩ := run_open (r := read) (name := name) (rest := l.text j ++ ',' :: (['a'] ++ ('(' :: (List.replicate f 'a' ++
        (')' :: (rep j [',', 'a', ')'] ++ ',' :: rest)))))) (pos := pos + (j + 5 + 2 * x)) a1 (by omega)
    -- the level inside
    have hname3 : name = (A ++ (zeros j ++ lit "int" ++ zeros (x + (x + 2)) ++ ['0'])) ++ (l.mirror ++ '0' :: ('0' ::
        (lit "int" ++ zeros (f + 3 * j - 1)) ++ '0' :: B)) := by
      rw [hname]
      simp only [Level.next, List.append_assoc, List.cons_append, List.nil_append, hX, hF]
    have hA3 : byteLen (A ++ (zeros j ++ lit "int" ++ zeros (x + (x + 2)) ++ ['0'])) = pos + (j + 5 + 2 * x) + 1 := by
      rw [byteLen_append, hA, byteLen_ascii (ascii_append (b := ['0']) (ascii_append (ascii_append (ascii_zeros _) ascii_int) (ascii_zeros _))
        (ascii_zeros 1))]
      simp only [List.length_append, length_zeros, List.length_cons, List.length_nil, hint]
      omega
    obtain ⟨st4, top4, a4, b4⟩ := run_mirror j d name _ _ (['a'] ++ ('(' :: (List.replicate f 'a' ++
        (')' :: (rep j [',', 'a', ')'] ++ ',' :: rest))))) (pos + (j + 5 + 2 * x) + 1) _ _ c st3 (by rw [hl]; exact hname3) hA3
        (by omega) a3
    rw [hl, hX] at a4 b4
    have b5 := run_plain read name ('(' :: (List.replicate f 'a' ++ (')' :: (rep j [',', 'a', ')'] ++ ',' :: rest)))) ['a']
        (pos + (j + 5 + 2 * x) + 1 + x + 1) st4 (plain_cons (by decide) (fun _ hc => by cases hc))
    have p5 : pos + (j + 5 + 2 * x) + 1 + x + 1 + ['a'].length = pos + (j + 8 + 3 * x) := by
      rw [List.length_singleton]; omega
    rw [p5] at b5
    obtain ⟨st6, a6, b6⟩ := run_open (r := read) (name := name) (rest := List.replicate f 'a' ++
        (')' :: (rep j [',', 'a', ')'] ++ ',' :: rest))) (pos := pos + (j + 8 + 3 * x)) a4 (by omega)
    have b7 := run_plain read name (')' :: (rep j [',', 'a', ')'] ++ ',' :: rest)) (List.replicate f 'a')
        (pos + (j + 8 + 3 * x) + 1) st6 (plain_replicate (by decide) _)
    rw [List.length_replicate] at b7
    -- the types
    have hname8 : name = (A ++ (zeros j ++ lit "int" ++ zeros (x + (x + 2)) ++ ['0'] ++ l.mirror ++ ['0', '0'])) ++
        (lit "int" ++ zeros (f + 3 * j - 1)) ++ '0' :: B := by
      rw [hname3]
      simp only [List.append_assoc, List.cons_append, List.nil_append]
    have hA8 : byteLen (A ++ (zeros j ++ lit "int" ++ zeros (x + (x + 2)) ++ ['0'] ++ l.mirror ++ ['0', '0'])) =
        pos + (j + 8 + 3 * x) := by
      rw [byteLen_append, hA, byteLen_ascii (ascii_append (b := ['0', '0']) (ascii_append (ascii_append (b := ['0']) (ascii_append (ascii_append (ascii_zeros _)
        ascii_int) (ascii_zeros _)) (ascii_zeros 1)) g.mirrorAscii) (ascii_zeros 2))]
      simp only [List.length_append, length_zeros, List.length_cons, List.length_nil, g.mirrorLength, hX, hint]
      omega
    have hf : 1 ≤ f := by omega
    have hz : (lit "int" ++ zeros (f + 3 * j - 1)).length = f + 3 * j + 2 := by
      rw [List.length_append, length_zeros, hint]; omega
    have hsl : ∀ u v, u ≤ v → v ≤ f + 3 * j + 2 → strSlice name (pos + (j + 8 + 3 * x) + u) (pos + (j + 8 + 3 * x) + v) =
        .ok (((lit "int" ++ zeros (f + 3 * j - 1)).drop u).take (v - u)) := fun u v h1 h2 =>
      slice_ascii hname8 (ascii_append ascii_int (ascii_zeros _)) hA8 h1 (by rw [hz]; exact h2)
    have hn9 : n + (j + 1) + 1 + 2 * d + 1 = n + 2 * (d + 1) + (j + 1) := by omega
    rw [hn9] at a6
    obtain ⟨st9, a9, b9⟩ := run_closes (r := read) (name := name) (tail := ',' :: rest) (by simp [trailing]) j
      (pos + (j + 8 + 3 * x) + 1 + f) (n + 2 * (d + 1)) _ _ c (fun _ => 0) st6 a6 (by omega) (by omega)
      ⟨_, (Nat.add_assoc (pos + (j + 8 + 3 * x)) 1 f).symm ▸ hsl 1 (1 + f) (by omega) (by omega)⟩
      (fun u v h1 h2 h3 => ⟨_, by
        have := hsl (u - (pos + (j + 8 + 3 * x))) (v - (pos + (j + 8 + 3 * x))) (by omega) (by omega)
        rwa [Nat.add_sub_cancel' (by omega), Nat.add_sub_cancel' (by omega)] at this⟩)
      (fun i hi => by
        obtain ⟨t, ht, -⟩ := read_int (f + 3 * i - 1)
        refine ⟨_, t, ?_, ht, Nat.zero_le _⟩
        have := hsl 0 (f + 3 * i + 2) (by omega) (by omega)
        rw [Nat.add_zero, List.drop_zero, Nat.sub_zero, List.take_append, hint, List.take_of_length_le (by rw [hint]; omega),
          take_zeros (by omega)] at this
        have e1 : pos + (j + 8 + 3 * x) + 1 + f + 3 * i + 1 = pos + (j + 8 + 3 * x) + (f + 3 * i + 2) := by omega
        have e2 : f + 3 * i + 2 - 3 = f + 3 * i - 1 := by omega
        rw [e1, this, e2])
    have hlast : pos + (j + 8 + 3 * x) + 1 + f + 3 * j + 1 =
        pos + (j + 1 + (x + 2) + 1 + x + 2 + x + 3 + f + 1 + 3 * j) := by omega
    rw [hlast] at a9 b9
    have hempty : strSlice name (pos + (j + 1 + (x + 2) + 1 + x + 2 + x + 3 + f + 1 + 3 * j))
        (pos + (j + 1 + (x + 2) + 1 + x + 2 + x + 3 + f + 1 + 3 * j)) = .ok [] := by
      have := hsl (f + 3 * j + 2) (f + 3 * j + 2) (Nat.le_refl _) (Nat.le_refl _)
      have e1 : pos + (j + 8 + 3 * x) + (f + 3 * j + 2) = pos + (j + 1 + (x + 2) + 1 + x + 2 + x + 3 + f + 1 + 3 * j) := by omega
      rwa [e1, Nat.sub_self, List.take_zero] at this
    obtain ⟨st10, a10, b10⟩ := run_comma_empty (r := read) (rest := rest) a9 hempty
    refine ⟨st10, _, ⟨a10.nested, a10.top, a10.last, a10.room, Nat.le_trans (Nat.le_add_right _ _) a10.size⟩, ?_⟩
    rw [b1, b2, b3, b4, b5, b6, b7, b9, b10]

theorem sumTo_last : ∀ (m : Nat) (g : Nat → Nat), sumTo g (m + 1) = sumTo g m + g (m + 1)
  | 0, _ => rfl
  | m + 1, g => by rw [sumTo, sumTo_last m, ← Nat.add_assoc]; rfl

theorem sumTo_choose (d : Nat) : ∀ i, sumTo (fun i => (i + d).choose d) i = (i + (d + 1)).choose (d + 1)
  | 0 => by
    show (0 + d).choose d = _
    rw [Nat.zero_add, Nat.zero_add, Nat.choose_self, Nat.choose_self]
  | i + 1 => by
    have e : i + 1 + (d + 1) = (i + (d + 1)) + 1 := by omega
    have e' : i + 1 + d = i + (d + 1) := by omega
    rw [e, Nat.choose_succ_succ, ← sumTo_choose d i, ← e', sumTo_last, Nat.add_comm]

theorem getLast_close (i : Nat) (u : Str) : (u ++ [')'] ++ rep i [',', 'a', ')']).getLast? = some ')' := by
  cases i with
  | zero => rw [rep, List.append_nil, List.getLast?_concat]
  | succ i =>
    rw [rep_add [',', 'a', ')'] i 1]
    show (u ++ [')'] ++ (rep i _ ++ ([',', 'a'] ++ [')']))).getLast? = _
    rw [← List.append_assoc, ← List.append_assoc, List.getLast?_concat]

/-- the type read from a level holds many types -/
theorem read_level (j : Nat) : ∀ (d i : Nat), i ≤ j → ∃ t, read ((level j d).text i) = .ok t ∧ (i + d).choose d ≤ nodes t
  | 0, i, _ => by
    have hz : rep i (lit "000") = zeros (3 * i) := by
      clear * -
      induction i with
      | zero => rfl
      | succ m ih => rw [rep, ih, Nat.mul_succ, Nat.add_comm]; simp only [zeros, List.replicate_add]; rfl
    obtain ⟨t, h1, h2⟩ := read_int (3 * i)
    refine ⟨t, ?_, ?_⟩
    · rw [← h1, ← hz]; rfl
    · rw [Nat.choose_zero_right]; exact h2
  | d + 1, i, hi => by
    have g := good j d
    have hhb := g.headBytes
    have ih := read_level j d
    rw [level]
    generalize hl : level j d = l at *
    have htext : (l.next j).text i = List.replicate (j + 1) '(' ++ ((List.replicate ((l.text j).length + 2) 'é' ++
        ('0' :: (l.mirror ++ ['0']))) ++ ('(' :: (l.text j ++ ',' :: (['a'] ++ ('(' :: (List.replicate (byteLen l.head - 2) 'a' ++
        (')' :: (rep i [',', 'a', ')'] ++ [])))))))) := by
      simp only [Level.text, Level.next, List.append_assoc, List.cons_append, List.nil_append, List.append_nil]
    have hlast : ((l.next j).text i).getLast? = some ')' := by
      have e : (l.next j).text i = (List.replicate (j + 1) '(' ++ ((List.replicate ((l.text j).length + 2) 'é' ++
        ('0' :: (l.mirror ++ ['0']))) ++ ('(' :: (l.text j ++ ',' :: (['a'] ++ ('(' :: (List.replicate (byteLen l.head - 2) 'a')))))))
        ++ [')'] ++ rep i [',', 'a', ')'] := by
        rw [htext]
        simp only [List.append_assoc, List.cons_append, List.nil_append, List.append_nil]
      rw [e]
      exact getLast_close i _
    have hstart : startsWith (lit "(") ((l.next j).text i) = true := by
      rw [htext, List.replicate_succ]; rfl
    generalize hname : (l.next j).text i = name at *
    generalize hX : (l.text j).length = x at *
    generalize hF : byteLen l.head - 2 = f at *
    obtain ⟨st1, a1, b1⟩ := run_first read name ((List.replicate (x + 2) 'é' ++
        ('0' :: (l.mirror ++ ['0']))) ++ ('(' :: (l.text j ++ ',' :: (['a'] ++ ('(' :: (List.replicate f 'a' ++
        (')' :: (rep i [',', 'a', ')'] ++ [])))))))) j
    have b2 := run_plain read name ('(' :: (l.text j ++ ',' :: (['a'] ++ ('(' :: (List.replicate f 'a' ++
        (')' :: (rep i [',', 'a', ')'] ++ []))))))) (List.replicate (x + 2) 'é' ++ ('0' :: (l.mirror ++ ['0'])))
        (j + 1) st1 (plain_append (plain_replicate (by decide) _) (plain_cons (by decide) (plain_append g.mirrorPlain
          (plain_cons (by decide) (fun _ hc => by cases hc)))))
    have p2 : j + 1 + (List.replicate (x + 2) 'é' ++ ('0' :: (l.mirror ++ ['0']))).length = j + 5 + 2 * x := by
      simp only [List.length_append, List.length_cons, List.length_replicate, List.length_nil, g.mirrorLength, hX]
      omega
    rw [p2] at b2
    obtain ⟨st3, a3, b3⟩ := run_open (r := read) (name := name) (rest := l.text j ++ ',' :: (['a'] ++ ('(' :: (List.replicate f 'a' ++
        (')' :: (rep i [',', 'a', ')'] ++ [])))))) (pos := j + 5 + 2 * x) a1 (by omega)
    have hopen : ∀ n, byteLen (List.replicate n '(') = n := fun n => by
      rw [byteLen_ascii (fun c hc => by rw [List.eq_of_mem_replicate hc]; decide), List.length_replicate]
    have hwide : ∀ n, byteLen (List.replicate n 'é') = 2 * n := by
      intro n
      induction n with
      | zero => rfl
      | succ n ih =>
        have : (utf8Char 'é').length = 2 := by decide
        rw [List.replicate_succ, byteLen, ih, this]; omega
    have hname3 : name = (List.replicate (j + 1) '(' ++ List.replicate (x + 2) 'é' ++ ['0']) ++ (l.mirror ++ '0' :: ('(' :: (l.text j ++
        ',' :: (['a'] ++ ('(' :: (List.replicate f 'a' ++ (')' :: (rep i [',', 'a', ')'] ++ [])))))))) := by
      rw [htext]
      simp only [List.append_assoc, List.cons_append, List.nil_append]
    have hA3 : byteLen (List.replicate (j + 1) '(' ++ List.replicate (x + 2) 'é' ++ ['0']) = j + 5 + 2 * x + 1 := by
      have : byteLen ['0'] = 1 := by decide
      rw [byteLen_append, byteLen_append, hopen, hwide, this]
      omega
    obtain ⟨st4, top4, a4, b4⟩ := run_mirror j d name _ _ (['a'] ++ ('(' :: (List.replicate f 'a' ++
        (')' :: (rep i [',', 'a', ')'] ++ []))))) (j + 5 + 2 * x + 1) _ _ 0 st3 (by rw [hl]; exact hname3) hA3
        (by omega) a3
    rw [hl, hX] at a4 b4
    have b5 := run_plain read name ('(' :: (List.replicate f 'a' ++ (')' :: (rep i [',', 'a', ')'] ++ [])))) ['a']
        (j + 5 + 2 * x + 1 + x + 1) st4 (plain_cons (by decide) (fun _ hc => by cases hc))
    have p5 : j + 5 + 2 * x + 1 + x + 1 + ['a'].length = j + 8 + 3 * x := by
      rw [List.length_singleton]; omega
    rw [p5] at b5
    obtain ⟨st6, a6, b6⟩ := run_open (r := read) (name := name) (rest := List.replicate f 'a' ++
        (')' :: (rep i [',', 'a', ')'] ++ []))) (pos := j + 8 + 3 * x) a4 (by omega)
    have b7 := run_plain read name (')' :: (rep i [',', 'a', ')'] ++ [])) (List.replicate f 'a')
        (j + 8 + 3 * x + 1) st6 (plain_replicate (by decide) _)
    rw [List.length_replicate] at b7
    -- the level inside, by its bytes
    have hP : byteLen (List.replicate (j + 1) '(' ++ List.replicate (x + 2) 'é' ++ ['0'] ++ (l.mirror ++ ['0', '('])) = j + 8 + 3 * x := by
      have : byteLen ['0', '('] = 2 := by decide
      rw [byteLen_append, hA3, byteLen_append, byteLen_ascii g.mirrorAscii, g.mirrorLength, hX, this]
      omega
    have hname8 : ∃ rest, name = (List.replicate (j + 1) '(' ++ List.replicate (x + 2) 'é' ++ ['0'] ++ (l.mirror ++ ['0', '('])) ++
        (l.head ++ (rep j l.sep ++ rest)) := by
      refine ⟨',' :: (['a'] ++ ('(' :: (List.replicate f 'a' ++ (')' :: (rep i [',', 'a', ')'] ++ []))))), ?_⟩
      rw [hname3]
      simp only [Level.text, List.append_assoc, List.cons_append, List.nil_append]
    obtain ⟨rest, hname8⟩ := hname8
    generalize hPe : List.replicate (j + 1) '(' ++ List.replicate (x + 2) 'é' ++ ['0'] ++ (l.mirror ++ ['0', '(']) = P at *
    have hfirst : ∃ item, strSlice name (j + 8 + 3 * x + 1) (j + 8 + 3 * x + 1 + f) = .ok item := by
      obtain ⟨a, mid, b, e, ha, hb, hm⟩ := g.head
      refine ⟨mid, ?_⟩
      have hs := slice_mid (P ++ [a]) mid ([b] ++ (rep j l.sep ++ rest))
      have h1 : byteLen (P ++ [a]) = j + 8 + 3 * x + 1 := by
        rw [byteLen_append, hP, byteLen, utf8Char_ascii ha]; rfl
      have h2 : byteLen mid = f := by
        rw [← hF, e, byteLen, byteLen_append, byteLen, byteLen, utf8Char_ascii ha, utf8Char_ascii hb]
        omega
      rw [h1, h2] at hs
      rw [hname8, e, ← hs]
      simp only [List.append_assoc, List.cons_append, List.nil_append]
    have hhead : byteLen l.head = f + 2 := by omega
    have hsepA : ascii (rep j l.sep) := ascii_rep g.sepAscii j
    have hsepL : (rep j l.sep).length = 3 * j := by rw [length_rep, g.sepLength]; omega
    have hPh : byteLen (P ++ l.head) = j + 8 + 3 * x + (f + 2) := by rw [byteLen_append, hP, hhead]
    obtain ⟨n, hn⟩ : ∃ n, j + 1 + 1 + 2 * d + 1 = n + (i + 1) ∧ 2 ≤ n := ⟨j + 2 + 2 * d - i, by omega, by omega⟩
    rw [hn.1] at a6
    obtain ⟨st9, a9, b9⟩ := run_closes (r := read) (name := name) (tail := []) rfl i
      (j + 8 + 3 * x + 1 + f) n _ _ 0 (fun i => (i + d).choose d) st6 a6 hn.2 (by omega) hfirst
      (fun u v h1 h2 h3 => ⟨_, by
        have := slice_ascii (name := name) (a := P ++ l.head) (b := rep j l.sep) (c := rest)
          (x := u - (j + 8 + 3 * x + (f + 2))) (y := v - (j + 8 + 3 * x + (f + 2)))
          (by rw [hname8]; simp only [List.append_assoc]) hsepA hPh (by omega) (by rw [hsepL]; omega)
        rwa [Nat.add_sub_cancel' (by omega), Nat.add_sub_cancel' (by omega)] at this⟩)
      (fun i' hi' => by
        obtain ⟨t, h1, h2⟩ := ih i' (by omega)
        refine ⟨l.text i', t, ?_, h1, h2⟩
        have e : rep j l.sep = rep i' l.sep ++ rep (j - i') l.sep := by
          rw [← rep_add]; congr 1; omega
        have hs := slice_mid P (l.text i') (rep (j - i') l.sep ++ rest)
        have hb : byteLen (l.text i') = f + 2 + 3 * i' := by
          rw [Level.text, byteLen_append, hhead, byteLen_ascii (ascii_rep g.sepAscii i'), length_rep, g.sepLength]
          omega
        have e2 : j + 8 + 3 * x + 1 + f + 3 * i' + 1 = j + 8 + 3 * x + (f + 2 + 3 * i') := by omega
        rw [hP, hb] at hs
        rw [hname8, e, e2, ← hs]
        simp only [Level.text, List.append_assoc])
    refine ⟨.tuple st9.subtypes, ?_, ?_⟩
    · have hwalk : readLoop read name name 0 0
          { subtypes := [], subtuples := [], nested := 0, topOpen := 0, lastItem := 1 } = .ok st9 := by
        conv => lhs; arg 3; rw [htext]
        rw [b1, b2, b3, b4, b5, b6, b7, b9, readLoop]
      rw [read_eq, readStep, if_pos hlast, hstart, hwalk]
      rfl
    · have := a9.size
      rw [sumTo_choose, Nat.zero_add] at this
      rw [nodes]
      omega

end Ethabi.Deep

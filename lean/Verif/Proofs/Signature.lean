import Verif.Proofs.Text
/-!
Canonical type names can be parsed back unambiguously: a reference parser `pType` (unrelated to the crate's
`Reader`) inverts `write`, hence `write` and signatures are injective.
-/
namespace Ethabi

/-- characters that end an elementary type name -/
def stopChar (c : Char) : Bool := c == '[' || c == ',' || c == ')' || c == ':'

/-- the elementary type with the given name -/
def pBase (w : Str) : Option ParamType :=
  if w = lit "address" then some .address
  else if w = lit "bytes" then some .bytes
  else if w = lit "bool" then some .bool
  else if w = lit "string" then some .string
  else if w.take 3 = lit "int" then some (.int (Nat.ofDigitChars 10 (w.drop 3) 0))
  else if w.take 4 = lit "uint" then some (.uint (Nat.ofDigitChars 10 (w.drop 4) 0))
  else if w.take 5 = lit "bytes" then some (.fixedBytes (Nat.ofDigitChars 10 (w.drop 5) 0))
  else none

/-- array suffixes; `cur` holds the digits after an open bracket -/
def pSuffix (t : ParamType) : Option Str → Str → ParamType × Str
  | none, '[' :: cs => pSuffix t (some []) cs
  | none, cs => (t, cs)
  | some ds, ']' :: cs =>
      if ds = [] then pSuffix (.array t) none cs else pSuffix (.fixedArray t (Nat.ofDigitChars 10 ds 0)) none cs
  | some ds, c :: cs => pSuffix t (some (ds ++ [c])) cs
  | some _, [] => (t, [])

mutual
def pType : Nat → Str → Option (ParamType × Str)
  | 0, _ => none
  | _ + 1, '(' :: ')' :: cs => some (pSuffix (.tuple []) none cs)
  | n + 1, '(' :: cs => (pMembers n cs).map fun r => pSuffix (.tuple r.1) none r.2
  | _ + 1, cs =>
      (pBase (cs.takeWhile (!stopChar ·))).map fun b => pSuffix b none (cs.dropWhile (!stopChar ·))
def pMembers : Nat → Str → Option (List ParamType × Str)
  | 0, _ => none
  | n + 1, cs =>
      match pType n cs with
      | some (t, ',' :: r) => (pMembers n r).map fun p => (t :: p.1, p.2)
      | some (t, ')' :: r) => some ([t], r)
      | _ => none
end

theorem natText_ne_nil (n : Nat) : natText n ≠ [] := Nat.toDigits_ne_nil

theorem isDigit_natText {n : Nat} {c : Char} (h : c ∈ natText n) : c.isDigit = true :=
  Nat.isDigit_of_mem_toDigits (by decide) (by decide) h

theorem natText_notStop {n : Nat} {c : Char} (h : c ∈ natText n) : stopChar c = false := by
  have := isDigit_natText h
  simp only [stopChar, Bool.or_eq_false_iff, beq_eq_false_iff_ne, ne_eq]
  refine ⟨⟨⟨?_, ?_⟩, ?_⟩, ?_⟩ <;> (rintro rfl; simp at this)

theorem natText_ne {n : Nat} {c d : Char} (h : c ∈ natText n) (hd : d.isDigit = false) : c ≠ d := by
  rintro rfl
  rw [isDigit_natText h] at hd; cases hd

theorem ofDigitChars_natText (n : Nat) : Nat.ofDigitChars 10 (natText n) 0 = n := Nat.ofDigitChars_ten_toDigits

/-- what may follow a type -/
def Ends (rest : Str) : Prop := rest = [] ∨ ∃ c r, rest = c :: r ∧ stopChar c = true

theorem ends_cons {c : Char} {r : Str} (h : stopChar c = true) : Ends (c :: r) := Or.inr ⟨c, r, rfl, h⟩

theorem takeWhile_base {w rest : Str} (hw : ∀ c ∈ w, stopChar c = false) (hr : Ends rest) :
    (w ++ rest).takeWhile (!stopChar ·) = w ∧ (w ++ rest).dropWhile (!stopChar ·) = rest := by
  induction w with
  | nil =>
    rcases hr with rfl | ⟨c, r, rfl, hc⟩
    · simp
    · simp [hc]
  | cons c w ih =>
    have := ih (fun d hd => hw d (by simp [hd]))
    simp [hw c (by simp), this.1, this.2]

theorem pSuffix_open (t : ParamType) (cs : Str) : pSuffix t none ('[' :: cs) = pSuffix t (some []) cs := by
  simp [pSuffix]

theorem pSuffix_close (t : ParamType) (ds cs : Str) : pSuffix t (some ds) (']' :: cs) =
    if ds = [] then pSuffix (.array t) none cs else pSuffix (.fixedArray t (Nat.ofDigitChars 10 ds 0)) none cs := by
  simp [pSuffix]

theorem pSuffix_char (t : ParamType) (ds cs : Str) (c : Char) (h : c ≠ ']') :
    pSuffix t (some ds) (c :: cs) = pSuffix t (some (ds ++ [c])) cs := by
  conv => lhs; unfold pSuffix
  split
  · rename_i e _; simp at e
  · rename_i e _; simp at e
  · rename_i e1 e2; simp at e1 e2; exact absurd e2.1 h
  · rename_i e1 e2; simp at e1 e2; simp [← e1, ← e2.1, ← e2.2]
  · rename_i e; simp at e

theorem pSuffix_stop (t : ParamType) (r : Str) (h : r.head? ≠ some '[') : pSuffix t none r = (t, r) := by
  unfold pSuffix
  split
  · simp at h
  · rfl
  · rename_i e; simp at e
  · rename_i e; simp at e
  · rename_i e; simp at e

theorem pSuffix_digits (t : ParamType) (ds : Str) (hds : ∀ c ∈ ds, c ≠ ']') (acc rest : Str) :
    pSuffix t (some acc) (ds ++ ']' :: rest) = pSuffix t (some (acc ++ ds)) (']' :: rest) := by
  induction ds generalizing acc with
  | nil => simp
  | cons d ds ih =>
    have hd : d ≠ ']' := hds d (by simp)
    have := ih (fun c hc => hds c (by simp [hc])) (acc ++ [d])
    rw [List.cons_append, pSuffix_char _ _ _ _ hd, this]
    simp

/-- elementary names -/
theorem pType_base {n : Nat} {w rest : Str} {t : ParamType} (hw : ∀ c ∈ w, stopChar c = false)
    (hr : Ends rest) (hb : pBase w = some t) (h0 : w.head? ≠ some '(') (hne : w ≠ []) :
    pType (n + 1) (w ++ rest) = some (pSuffix t none rest) := by
  obtain ⟨h1, h2⟩ := takeWhile_base hw hr
  rw [pType]
  · rw [h1, h2, hb]; rfl
  · intro cs e
    cases w with
    | nil => exact hne rfl
    | cons c w => simp at e h0; exact h0 e.1
  · intro cs e
    cases w with
    | nil => exact hne rfl
    | cons c w => simp at e h0; exact h0 e.1

theorem pBase_num {p : Str} {n : Nat} {mk : Nat → ParamType}
    (hp : (p = lit "int" ∧ mk = .int) ∨ (p = lit "uint" ∧ mk = .uint) ∨ (p = lit "bytes" ∧ mk = .fixedBytes)) :
    pBase (p ++ natText n) = some (mk n) := by
  have hne := natText_ne_nil n
  have hof := ofDigitChars_natText n
  have hdig : ∀ c ∈ natText n, c.isDigit = true := fun c hc => isDigit_natText hc
  generalize natText n = ds at *
  rcases hp with ⟨rfl, rfl⟩ | ⟨rfl, rfl⟩ | ⟨rfl, rfl⟩
  · simp [pBase, lit, hof]
  · simp [pBase, lit, hof]
  · cases ds with
    | nil => exact absurd rfl hne
    | cons d ds => simp [pBase, lit, hof]

theorem base_notStop {p : Str} (hp : p.all (!stopChar ·) = true) (n : Nat) :
    ∀ c ∈ p ++ natText n, stopChar c = false := by
  intro c hc
  rcases List.mem_append.1 hc with h | h
  · simpa using List.all_eq_true.1 hp c h
  · exact natText_notStop h

/-- first character of a written type: never a closing parenthesis -/
theorem write_head : ∀ (t : ParamType), ∃ c r, write t = c :: r ∧ c ≠ ')'
  | .address => ⟨_, _, rfl, by decide⟩
  | .bytes => ⟨_, _, rfl, by decide⟩
  | .bool => ⟨_, _, rfl, by decide⟩
  | .string => ⟨_, _, rfl, by decide⟩
  | .int _ => ⟨_, _, rfl, by decide⟩
  | .uint _ => ⟨_, _, rfl, by decide⟩
  | .fixedBytes _ => ⟨_, _, rfl, by decide⟩
  | .array t => by
      obtain ⟨c, r, h, hc⟩ := write_head t
      exact ⟨c, r ++ lit "[]", by simp only [write] at h ⊢; simp [writeForAbi, h], hc⟩
  | .fixedArray t n => by
      obtain ⟨c, r, h, hc⟩ := write_head t
      exact ⟨c, r ++ lit "[" ++ natText n ++ lit "]", by simp only [write] at h ⊢; simp [writeForAbi, h], hc⟩
  | .tuple ts => ⟨'(', _, rfl, by decide⟩

theorem join_cons_cons (sep a b : Str) (l : List Str) : join sep (a :: b :: l) = a ++ sep ++ join sep (b :: l) := rfl

theorem write_tuple (ts : List ParamType) : write (.tuple ts) = '(' :: (join (lit ",") (ts.map write) ++ [')']) := by
  simp [write, writeForAbi, writeAll_eq_map, lit]; rfl

mutual
theorem pType_write : ∀ (t : ParamType) (n : Nat) (rest : Str), (write t).length ≤ n → Ends rest →
    pType n (write t ++ rest) = some (pSuffix t none rest)
  | .address, n + 1, rest, _, hr => pType_base (by decide) hr rfl (by decide) (by decide)
  | .bytes, n + 1, rest, _, hr => pType_base (by decide) hr rfl (by decide) (by decide)
  | .bool, n + 1, rest, _, hr => pType_base (by decide) hr rfl (by decide) (by decide)
  | .string, n + 1, rest, _, hr => pType_base (by decide) hr rfl (by decide) (by decide)
  | .int k, n + 1, rest, _, hr => by
      refine pType_base (w := lit "int" ++ natText k) (base_notStop (by decide) k) hr (pBase_num (Or.inl ⟨rfl, rfl⟩)) ?_ ?_
      · simp [lit]
      · simp [lit]
  | .uint k, n + 1, rest, _, hr => by
      refine pType_base (w := lit "uint" ++ natText k) (base_notStop (by decide) k) hr
        (pBase_num (Or.inr (Or.inl ⟨rfl, rfl⟩))) ?_ ?_
      · simp [lit]
      · simp [lit]
  | .fixedBytes k, n + 1, rest, _, hr => by
      refine pType_base (w := lit "bytes" ++ natText k) (base_notStop (by decide) k) hr
        (pBase_num (Or.inr (Or.inr ⟨rfl, rfl⟩))) ?_ ?_
      · simp [lit]
      · simp [lit]
  | .array t, n, rest, hn, hr => by
      have e : write (.array t) ++ rest = write t ++ ('[' :: ']' :: rest) := by simp [write, writeForAbi, lit]
      rw [e, pType_write t n _ (by simp only [write, writeForAbi, List.length_append] at hn ⊢; omega)
        (ends_cons (by decide))]
      simp [pSuffix]
  | .fixedArray t k, n, rest, hn, hr => by
      have e : write (.fixedArray t k) ++ rest = write t ++ ('[' :: (natText k ++ ']' :: rest)) := by
        simp [write, writeForAbi, lit]
      rw [e, pType_write t n _ (by simp only [write, writeForAbi, List.length_append] at hn ⊢; omega)
        (ends_cons (by decide)), pSuffix_open, pSuffix_digits _ _ (fun c hc => natText_ne hc (by decide)),
        pSuffix_close, List.nil_append, if_neg (natText_ne_nil k), ofDigitChars_natText]
  | .tuple ts, n + 1, rest, hn, hr => by
      rw [write_tuple] at hn ⊢
      cases ts with
      | nil => simp [join, pType]
      | cons t ts =>
        obtain ⟨c, r, hc, hne⟩ := write_head t
        have hm := pMembers_write t ts n rest (by simp at hn ⊢; omega)
        have hstart : ∃ r', join (lit ",") ((t :: ts).map write) = c :: r' := by
          cases ts with
          | nil => exact ⟨r, by simp [join, hc]⟩
          | cons u us => exact ⟨_, by rw [List.map_cons, List.map_cons, join_cons_cons, hc]; rfl⟩
        obtain ⟨r', hr'⟩ := hstart
        rw [List.cons_append, List.append_assoc, List.singleton_append]
        rw [hr'] at hm ⊢
        rw [List.cons_append] at hm ⊢
        rw [pType, hm]
        · rfl
        · intro cs e
          simp at e
          exact hne e.1
  | .address, 0, rest, h, _ => by simp [write, writeForAbi, lit] at h
  | .bytes, 0, rest, h, _ => by simp [write, writeForAbi, lit] at h
  | .bool, 0, rest, h, _ => by simp [write, writeForAbi, lit] at h
  | .string, 0, rest, h, _ => by simp [write, writeForAbi, lit] at h
  | .int _, 0, rest, h, _ => by simp [write, writeForAbi, lit] at h
  | .uint _, 0, rest, h, _ => by simp [write, writeForAbi, lit] at h
  | .fixedBytes _, 0, rest, h, _ => by simp [write, writeForAbi, lit] at h
  | .tuple _, 0, rest, h, _ => by rw [write_tuple] at h; simp at h
theorem pMembers_write : ∀ (t : ParamType) (ts : List ParamType) (n : Nat) (rest : Str),
    (join (lit ",") ((t :: ts).map write)).length < n →
    pMembers n (join (lit ",") ((t :: ts).map write) ++ ')' :: rest) = some (t :: ts, rest)
  | t, [], n + 1, rest, hn => by
      simp only [List.map, join] at hn ⊢
      rw [pMembers, pType_write t n _ (by omega) (ends_cons (by decide))]
      simp [pSuffix]
  | t, u :: us, n + 1, rest, hn => by
      rw [List.map_cons, List.map_cons, join_cons_cons] at hn ⊢
      have hl : (join (lit ",") (write u :: us.map write)).length < n := by
        simp [lit] at hn ⊢; omega
      have ih := pMembers_write u us n rest hl
      rw [List.map_cons] at ih
      rw [List.append_assoc, List.append_assoc]
      show pMembers (n + 1) (write t ++ (',' :: (join (lit ",") (write u :: us.map write) ++ ')' :: rest))) = _
      rw [pMembers, pType_write t n _ (by simp at hn; omega) (ends_cons (by decide))]
      rw [pSuffix_stop _ _ (by simp)]
      simp only [ih]; rfl
end

theorem write_append_inj {t u : ParamType} {r s : Str} (hr : Ends r) (hs : Ends s)
    (hr' : r.head? ≠ some '[') (hs' : s.head? ≠ some '[') (h : write t ++ r = write u ++ s) : t = u ∧ r = s := by
  have h1 := pType_write t ((write t).length + (write u).length) r (by omega) hr
  have h2 := pType_write u ((write t).length + (write u).length) s (by omega) hs
  rw [h, h2] at h1
  rw [pSuffix_stop _ _ hr', pSuffix_stop _ _ hs'] at h1
  simp at h1
  exact ⟨h1.1.symm, h1.2.symm⟩

/-- distinct types have distinct canonical names -/
theorem write_inj {t u : ParamType} (h : write t = write u) : t = u :=
  (write_append_inj (r := []) (s := []) (Or.inl rfl) (Or.inl rfl) (by simp) (by simp) (by simp [h])).1

theorem append_paren_inj {a b x y : Str} (ha : '(' ∉ a) (hb : '(' ∉ b) (h : a ++ '(' :: x = b ++ '(' :: y) :
    a = b ∧ x = y := by
  induction a generalizing b with
  | nil =>
    cases b with
    | nil => simpa using h
    | cons c b => simp at h; simp [← h.1] at hb
  | cons c a ih =>
    cases b with
    | nil => simp at h; simp [h.1] at ha
    | cons d b =>
      simp only [List.cons_append, List.cons.injEq] at h
      obtain ⟨rfl, h⟩ := h
      have := ih (fun hc => ha (by simp [hc])) (fun hc => hb (by simp [hc])) h
      exact ⟨by rw [this.1], this.2⟩

theorem named_inj {a b : Str} {ts us : List ParamType} {r s : Str} (ha : '(' ∉ a) (hb : '(' ∉ b) (hr : Ends r)
    (hs : Ends s) (hr' : r.head? ≠ some '[') (hs' : s.head? ≠ some '[')
    (h : a ++ write (.tuple ts) ++ r = b ++ write (.tuple us) ++ s) : a = b ∧ ts = us ∧ r = s := by
  rw [List.append_assoc, List.append_assoc] at h
  have h0 := h
  rw [write_tuple, write_tuple, List.cons_append, List.cons_append] at h0
  obtain ⟨rfl, -⟩ := append_paren_inj ha hb h0
  obtain ⟨h1, h2⟩ := write_append_inj hr hs hr' hs' (List.append_cancel_left h)
  exact ⟨rfl, by simpa using h1, h2⟩

theorem join_eq_nil_iff (ts : List ParamType) : join (lit ",") (ts.map write) = [] ↔ ts = [] := by
  cases ts with
  | nil => simp [join]
  | cons t ts =>
    obtain ⟨c, r, hc, -⟩ := write_head t
    cases ts with
    | nil => simp [join, hc]
    | cons u us => simp [join_cons_cons, hc]

theorem signatureText_tuple (name : Str) (ts : List ParamType) : signatureText name ts = name ++ write (.tuple ts) := by
  simp [signatureText, write_tuple, lit]

end Ethabi

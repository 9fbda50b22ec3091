import Verif.Spec.Printed
import Verif.Model.Cli
import Verif.Proofs.Hex
import Verif.Proofs.DisplayNumbers
/-!
# Printed values determine the values
-/
namespace Ethabi.Printed
open Spec

/-- a character that ends a value inside a list, a tuple or a line -/
def stop (c : Char) : Bool := c = ',' || c = ']' || c = ')' || c = '\n'

/-- what may follow a value -/
def Stop (r : Str) : Prop := ∀ c ∈ r.head?, stop c = true

/-- text without the characters that end a value -/
def Plain (s : Str) : Prop := ∀ c ∈ s, stop c = false

theorem plain_cut {u v r r' : Str} (hu : Plain u) (hv : Plain v) (hr : Stop r) (hr' : Stop r') (h : u ++ r = v ++ r') :
    u = v ∧ r = r' := by
  induction u generalizing v with
  | nil =>
    cases v with
    | nil => exact ⟨rfl, h⟩
    | cons c v =>
      have hc := hv c List.mem_cons_self
      rw [List.nil_append] at h
      have := hr c (by rw [h]; rfl)
      rw [hc] at this; cases this
  | cons c u ih =>
    cases v with
    | nil =>
      have hc := hu c List.mem_cons_self
      rw [List.nil_append] at h
      have := hr' c (by rw [← h]; rfl)
      rw [hc] at this; cases this
    | cons d v =>
      simp only [List.cons_append, List.cons.injEq] at h
      have := ih (fun c hc => hu c (List.mem_cons_of_mem _ hc)) (fun c hc => hv c (List.mem_cons_of_mem _ hc)) h.2
      exact ⟨by rw [h.1, this.1], this.2⟩

theorem plain_hexDigits : ∀ c ∈ hexDigits, stop c = false := by decide

theorem plain_hexEncode (b : Bytes) : Plain (hexEncode b) := fun c hc => plain_hexDigits c (hexEncode_digits b c hc)

theorem hexEncode_inj {a b : Bytes} (h : hexEncode a = hexEncode b) : a = b := by
  have := hexDecode_hexEncode a
  rw [h, hexDecode_hexEncode b] at this
  exact (Res.ok.inj this).symm

theorem hexNat_inj {a b : Nat} (h : hexNat a = hexNat b) : a = b := by
  have := hexadecimal_text a
  rw [h, hexadecimal_text b] at this
  exact (Option.some.inj this).symm

theorem plain_hexNat (n : Nat) : Plain (hexNat n) := by
  have key : ∀ s : Str, ∀ k, hexadecimal s = some k → Plain s := by
    intro s
    induction s with
    | nil => intro _ _ c hc; simp at hc
    | cons d s ih =>
      intro k hk c hc
      simp only [hexadecimal, numeral] at hk
      split at hk
      · rename_i e1 e2
        rcases List.mem_cons.1 hc with rfl | hc
        · cases hs : stop c with
          | false => rfl
          | true =>
            simp only [stop, Bool.or_eq_true, decide_eq_true_eq] at hs
            have key : ∀ z ∈ [',', ']', ')', '\n'], hexDigitAny z = none := by decide
            have := key c (by simpa [or_assoc] using hs)
            rw [this] at e1; cases e1
        · exact ih _ e2 c hc
      · simp at hk
  exact key _ _ (hexadecimal_text n)

theorem hexNat_ne_nil (n : Nat) : hexNat n ≠ [] := Nat.toDigits_ne_nil

theorem plain_bool (b : Bool) : Plain (Token.bool b).display := by
  cases b <;> (intro c hc; revert hc; revert c; decide)

/-- a value printed as nothing at all -/
def blank (t : Token) : Bool := t == .bytes [] || t == .fixedBytes []

theorem hexEncode_eq_nil {b : Bytes} (h : hexEncode b = []) : b = [] := hexEncode_inj h

/-- the first character does not end a value -/
theorem display_head (a : Token) (p : ParamType) (hp : stringFree p = true) (ha : hasType a p = true) :
    (a.display = [] → blank a = true) ∧ ∀ c ∈ a.display.head?, stop c = false := by
  have plain : ∀ s : Str, Plain s → ∀ c ∈ s.head?, stop c = false := fun s hs c hc => hs c (List.mem_of_mem_head? hc)
  cases a with
  | bool b => exact ⟨by cases b <;> (intro h; simp [Token.display] at h), plain _ (plain_bool b)⟩
  | string s => cases p <;> simp [hasType, stringFree] at ha hp
  | address b =>
    refine ⟨fun h => ?_, plain _ (plain_hexEncode b.1)⟩
    have e : b.1 = [] := hexEncode_eq_nil h
    have := b.2
    simp [e] at this
  | bytes b =>
    refine ⟨fun h => ?_, plain _ (plain_hexEncode b)⟩
    rw [hexEncode_eq_nil h]; decide
  | fixedBytes b =>
    refine ⟨fun h => ?_, plain _ (plain_hexEncode b)⟩
    rw [hexEncode_eq_nil h]; decide
  | uint i => exact ⟨fun h => absurd h (hexNat_ne_nil _), plain _ (plain_hexNat _)⟩
  | int i => exact ⟨fun h => absurd h (hexNat_ne_nil _), plain _ (plain_hexNat _)⟩
  | array ts => exact ⟨by simp [Token.display], by intro c hc; cases hc; decide⟩
  | fixedArray ts => exact ⟨by simp [Token.display], by intro c hc; cases hc; decide⟩
  | tuple ts => exact ⟨by simp [Token.display], by intro c hc; cases hc; decide⟩

/-- the claim for one type: what is printed and the text that follows can be told apart -/
def Cut (p : ParamType) : Prop := ∀ a b r r', hasType a p = true → hasType b p = true → Stop r → Stop r' →
  a.display ++ r = b.display ++ r' → blur a = blur b ∧ r = r'

/-- the texts of a list with commas between them -/
def shown (ts : List Token) : Str := join (lit ",") (Token.displayAll ts)

theorem shown_one (a : Token) : shown [a] = a.display := rfl
theorem shown_cons (a b : Token) (ts : List Token) : shown (a :: b :: ts) = a.display ++ ',' :: shown (b :: ts) := by
  show a.display ++ lit "," ++ shown (b :: ts) = _
  rw [List.append_assoc]; rfl

theorem stop_cons {c : Char} {r : Str} (h : stop c = true) : Stop (c :: r) := by
  intro d hd
  simp only [List.head?_cons, Option.mem_def, Option.some.injEq] at hd
  exact hd ▸ h

/-- nonempty lists of values of one type, up to a closing character -/
theorem cut_elements {p : ParamType} (H : Cut p) (z : Char) (hz : stop z = true) (hzc : z ≠ ',') :
    ∀ (as bs : List Token) (a b : Token) (r r' : Str), allHaveType (a :: as) p = true → allHaveType (b :: bs) p = true →
      shown (a :: as) ++ z :: r = shown (b :: bs) ++ z :: r' → blurAll (a :: as) = blurAll (b :: bs) ∧ r = r' := by
  intro as
  induction as with
  | nil =>
    intro bs a b r r' ha hb h
    simp only [allHaveType, Bool.and_eq_true] at ha hb
    cases bs with
    | nil =>
      rw [shown_one, shown_one] at h
      have := H a b _ _ ha.1 hb.1 (stop_cons hz) (stop_cons hz) h
      simp only [List.cons.injEq, true_and] at this
      exact ⟨by simp [blurAll, this.1], this.2⟩
    | cons b' bs =>
      rw [shown_one, shown_cons, List.append_assoc] at h
      have := H a b _ _ ha.1 hb.1 (stop_cons hz) (stop_cons (by decide)) h
      simp only [List.cons_append, List.cons.injEq] at this
      exact absurd this.2.1 hzc
  | cons a' as ih =>
    intro bs a b r r' ha hb h
    rw [allHaveType, Bool.and_eq_true] at ha hb
    cases bs with
    | nil =>
      rw [shown_one, shown_cons, List.append_assoc] at h
      have := H a b _ _ ha.1 hb.1 (stop_cons (by decide)) (stop_cons hz) h
      simp only [List.cons_append, List.cons.injEq] at this
      exact absurd this.2.1.symm hzc
    | cons b' bs =>
      rw [shown_cons, shown_cons, List.append_assoc, List.append_assoc] at h
      have h1 := H a b _ _ ha.1 hb.1 (stop_cons (by decide)) (stop_cons (by decide)) h
      simp only [List.cons_append, List.cons.injEq, true_and] at h1
      have h2 := ih bs a' b' r r' ha.2 hb.2 h1.2
      exact ⟨by rw [blurAll, h1.1, h2.1]; rfl, h2.2⟩

/-- against the empty list -/
theorem cut_empty {p : ParamType} (hp : stringFree p = true) (z : Char) (hz : stop z = true) (hzc : z ≠ ',') (b : Token)
    (bs : List Token) (r r' : Str) (hb : allHaveType (b :: bs) p = true) (h : z :: r = shown (b :: bs) ++ z :: r') :
    bs = [] ∧ blank b = true ∧ r = r' := by
  simp only [allHaveType, Bool.and_eq_true] at hb
  obtain ⟨h0, h1⟩ := display_head b p hp hb.1
  have hd : b.display = [] := by
    cases e : b.display with
    | nil => rfl
    | cons c t =>
      have hc := h1 c (by rw [e]; rfl)
      have : z = c := by
        cases bs with
        | nil => rw [shown_one, e, List.cons_append] at h; exact (List.cons.inj h).1
        | cons b' bs => rw [shown_cons, e] at h; exact (List.cons.inj h).1
      rw [← this, hz] at hc; cases hc
  cases bs with
  | nil =>
    rw [shown_one, hd] at h
    exact ⟨rfl, h0 hd, (List.cons.inj h).2⟩
  | cons b' bs =>
    rw [shown_cons, hd] at h
    exact absurd (List.cons.inj h).1 hzc

theorem oneEmpty_one {b : Token} (h : blank b = true) : oneEmpty [b] = true := by
  simp only [blank, Bool.or_eq_true, beq_iff_eq] at h
  rcases h with rfl | rfl <;> decide

theorem cut_array {p : ParamType} (hp : stringFree p = true) (H : Cut p) : Cut (.array p) := by
  intro a b r r' ha hb _ _ h
  cases a <;> simp only [hasType, Bool.false_eq_true] at ha
  cases b <;> simp only [hasType, Bool.false_eq_true] at hb
  rename_i as bs
  have e : ∀ ts (q : Str), (Token.array ts).display ++ q = '[' :: (shown ts ++ ']' :: q) := by
    intro ts q
    show lit "[" ++ shown ts ++ lit "]" ++ q = _
    rw [List.append_assoc, List.append_assoc]; rfl
  rw [e, e, List.cons.injEq] at h
  have hz : stop ']' = true := by decide
  cases as with
  | nil =>
    cases bs with
    | nil => exact ⟨rfl, (List.cons.inj h.2).2⟩
    | cons b bs =>
      obtain ⟨rfl, h1, h2⟩ := cut_empty hp ']' hz (by decide) b bs r r' hb h.2
      refine ⟨?_, h2⟩
      rw [blur, blur, oneEmpty_one h1, if_pos rfl]; rfl
  | cons a as =>
    cases bs with
    | nil =>
      obtain ⟨rfl, h1, h2⟩ := cut_empty hp ']' hz (by decide) a as r' r ha h.2.symm
      refine ⟨?_, h2.symm⟩
      rw [blur, blur, oneEmpty_one h1, if_pos rfl]; rfl
    | cons b bs =>
      have h1 := cut_elements H ']' hz (by decide) as bs a b r r' ha hb h.2
      refine ⟨?_, h1.2⟩
      have : oneEmpty (a :: as) = oneEmpty (b :: bs) := by
        have len : as.length = bs.length := by
          have : ∀ ts, (blurAll ts).length = ts.length := by
            intro ts
            induction ts with
            | nil => rfl
            | cons t ts ih => simp [blurAll, ih]
          have e := congrArg List.length h1.1
          rw [this, this] at e
          exact Nat.succ.inj e
        cases as with
        | nil =>
          cases bs with
          | nil =>
            have e : blur a = blur b := by simpa [blurAll] using h1.1
            have key : ∀ t : Token, oneEmpty [t] = (blur t == .bytes [] || blur t == .fixedBytes []) := by
              intro t
              have e1 : ∀ u v : Token, ([u] == [v]) = (u == v) := fun u v => by simp
              rw [oneEmpty, e1, e1]
              have no : ∀ u : Token, u ≠ .bytes [] → u ≠ .fixedBytes [] → (u == .bytes [] || u == .fixedBytes []) = false :=
                fun u h1 h2 => by rw [beq_eq_false_iff_ne.2 h1, beq_eq_false_iff_ne.2 h2]; rfl
              cases t with
              | array ts =>
                rw [no (.array ts) (by simp) (by simp), blur]
                split <;> rw [no _ (by simp) (by simp)]
              | fixedArray ts => rw [no (.fixedArray ts) (by simp) (by simp), blur, no _ (by simp) (by simp)]
              | tuple ts => rw [no (.tuple ts) (by simp) (by simp), blur, no _ (by simp) (by simp)]
              | _ => rfl
            rw [key, key, e]
          | cons b' bs => simp at len
        | cons a' as =>
          cases bs with
          | nil => simp at len
          | cons b' bs => simp [oneEmpty]
      rw [blur, blur, this, h1.1]

theorem length_zero_eq {α : Type} {l : List α} (h : l.length = 0) : l = [] := List.length_eq_zero_iff.1 h

theorem cut_fixedArray {p : ParamType} (k : Nat) (H : Cut p) : Cut (.fixedArray p k) := by
  intro a b r r' ha hb _ _ h
  cases a <;> simp only [hasType, Bool.false_eq_true, Bool.and_eq_true, beq_iff_eq] at ha
  cases b <;> simp only [hasType, Bool.false_eq_true, Bool.and_eq_true, beq_iff_eq] at hb
  rename_i as bs
  have e : ∀ ts (q : Str), (Token.fixedArray ts).display ++ q = '[' :: (shown ts ++ ']' :: q) := by
    intro ts q
    show lit "[" ++ shown ts ++ lit "]" ++ q = _
    rw [List.append_assoc, List.append_assoc]; rfl
  rw [e, e, List.cons.injEq] at h
  have len : as.length = bs.length := by rw [ha.1, hb.1]
  cases as with
  | nil =>
    have : bs = [] := length_zero_eq len.symm
    subst this
    exact ⟨rfl, (List.cons.inj h.2).2⟩
  | cons a as =>
    cases bs with
    | nil => simp at len
    | cons b bs =>
      have h1 := cut_elements H ']' (by decide) (by decide) as bs a b r r' ha.2 hb.2 h.2
      exact ⟨by rw [blur, blur, h1.1], h1.2⟩

theorem cut_elementary (p : ParamType) (h : ∀ a, hasType a p = true → Plain a.display)
    (hi : ∀ a b, hasType a p = true → hasType b p = true → a.display = b.display → a = b) : Cut p := by
  intro a b r r' ha hb hr hr' e
  have := plain_cut (h a ha) (h b hb) hr hr' e
  exact ⟨by rw [hi a b ha hb this.1], this.2⟩

theorem cut_bool : Cut .bool := by
  refine cut_elementary _ ?_ ?_
  · intro a ha
    cases a <;> simp only [hasType, Bool.false_eq_true] at ha
    exact plain_bool _
  · intro a b ha hb h
    cases a <;> simp only [hasType, Bool.false_eq_true] at ha
    cases b <;> simp only [hasType, Bool.false_eq_true] at hb
    rename_i x y
    revert h
    cases x <;> cases y <;> decide

theorem cut_address : Cut .address := by
  refine cut_elementary _ ?_ ?_
  · intro a ha
    cases a <;> simp only [hasType, Bool.false_eq_true] at ha
    exact plain_hexEncode _
  · intro a b ha hb h
    cases a <;> simp only [hasType, Bool.false_eq_true] at ha
    cases b <;> simp only [hasType, Bool.false_eq_true] at hb
    rw [Subtype.ext (hexEncode_inj h)]

theorem cut_bytes : Cut .bytes := by
  refine cut_elementary _ ?_ ?_
  · intro a ha
    cases a <;> simp only [hasType, Bool.false_eq_true] at ha
    exact plain_hexEncode _
  · intro a b ha hb h
    cases a <;> simp only [hasType, Bool.false_eq_true] at ha
    cases b <;> simp only [hasType, Bool.false_eq_true] at hb
    rw [hexEncode_inj h]

theorem cut_fixedBytes (n : Nat) : Cut (.fixedBytes n) := by
  refine cut_elementary _ ?_ ?_
  · intro a ha
    cases a <;> simp only [hasType, Bool.false_eq_true] at ha
    exact plain_hexEncode _
  · intro a b ha hb h
    cases a <;> simp only [hasType, Bool.false_eq_true] at ha
    cases b <;> simp only [hasType, Bool.false_eq_true] at hb
    rw [hexEncode_inj h]

theorem cut_uint (n : Nat) : Cut (.uint n) := by
  refine cut_elementary _ ?_ ?_
  · intro a ha
    cases a <;> simp only [hasType, Bool.false_eq_true] at ha
    exact plain_hexNat _
  · intro a b ha hb h
    cases a <;> simp only [hasType, Bool.false_eq_true] at ha
    cases b <;> simp only [hasType, Bool.false_eq_true] at hb
    rw [BitVec.eq_of_toNat_eq (hexNat_inj h)]

theorem cut_int (n : Nat) : Cut (.int n) := by
  refine cut_elementary _ ?_ ?_
  · intro a ha
    cases a <;> simp only [hasType, Bool.false_eq_true] at ha
    exact plain_hexNat _
  · intro a b ha hb h
    cases a <;> simp only [hasType, Bool.false_eq_true] at ha
    cases b <;> simp only [hasType, Bool.false_eq_true] at hb
    rw [BitVec.eq_of_toNat_eq (hexNat_inj h)]

/-- members of a tuple, up to the closing parenthesis -/
def CutAll (ps : List ParamType) : Prop := ∀ as bs r r', haveTypes as ps = true → haveTypes bs ps = true →
  shown as ++ ')' :: r = shown bs ++ ')' :: r' → blurAll as = blurAll bs ∧ r = r'

theorem cutAll_cons {p : ParamType} {ps : List ParamType} (H : Cut p) (HS : CutAll ps) : CutAll (p :: ps) := by
  intro as bs r r' ha hb h
  cases as with
  | nil => simp [haveTypes] at ha
  | cons a as =>
    cases bs with
    | nil => simp [haveTypes] at hb
    | cons b bs =>
      rw [haveTypes, Bool.and_eq_true] at ha hb
      have hz : ∀ {q : Str}, Stop (')' :: q) := stop_cons (by decide)
      have hc : ∀ {q : Str}, Stop (',' :: q) := stop_cons (by decide)
      cases as with
      | nil =>
        cases bs with
        | nil =>
          have := H a b _ _ ha.1 hb.1 hz hz h
          exact ⟨by rw [blurAll, this.1]; rfl, (List.cons.inj this.2).2⟩
        | cons b' bs =>
          rw [shown_one, shown_cons, List.append_assoc] at h
          have := H a b _ _ ha.1 hb.1 hz hc h
          exact absurd (List.cons.inj this.2).1 (by decide)
      | cons a' as =>
        cases bs with
        | nil =>
          rw [shown_one, shown_cons, List.append_assoc] at h
          have := H a b _ _ ha.1 hb.1 hc hz h
          exact absurd (List.cons.inj this.2).1 (by decide)
        | cons b' bs =>
          rw [shown_cons, shown_cons, List.append_assoc, List.append_assoc] at h
          have h1 := H a b _ _ ha.1 hb.1 hc hc h
          simp only [List.cons.injEq, true_and] at h1
          have h2 := HS _ _ _ _ ha.2 hb.2 h1.2
          exact ⟨by rw [blurAll, h1.1, h2.1]; rfl, h2.2⟩

theorem cut_tuple {ps : List ParamType} (HS : CutAll ps) : Cut (.tuple ps) := by
  intro a b r r' ha hb _ _ h
  cases a <;> simp only [hasType, Bool.false_eq_true] at ha
  cases b <;> simp only [hasType, Bool.false_eq_true] at hb
  rename_i as bs
  have e : ∀ ts (q : Str), (Token.tuple ts).display ++ q = '(' :: (shown ts ++ ')' :: q) := by
    intro ts q
    show lit "(" ++ shown ts ++ lit ")" ++ q = _
    rw [List.append_assoc, List.append_assoc]; rfl
  rw [e, e, List.cons.injEq] at h
  have := HS as bs r r' ha hb h.2
  exact ⟨by rw [blur, blur, this.1], this.2⟩

mutual
theorem cut : (p : ParamType) → stringFree p = true → Cut p
  | .address, _ => cut_address
  | .bytes, _ => cut_bytes
  | .int n, _ => cut_int n
  | .uint n, _ => cut_uint n
  | .bool, _ => cut_bool
  | .string, h => by simp [stringFree] at h
  | .array p, h => cut_array h (cut p h)
  | .fixedBytes n, _ => cut_fixedBytes n
  | .fixedArray p k, h => cut_fixedArray k (cut p h)
  | .tuple ps, h => cut_tuple (cutAll ps h)
theorem cutAll : (ps : List ParamType) → stringFreeAll ps = true → CutAll ps
  | [], _ => by
      intro as bs r r' ha hb h
      cases as <;> simp only [haveTypes, Bool.false_eq_true] at ha
      cases bs <;> simp only [haveTypes, Bool.false_eq_true] at hb
      exact ⟨rfl, (List.cons.inj h).2⟩
  | p :: ps, h => by
      simp only [stringFreeAll, Bool.and_eq_true] at h
      exact cutAll_cons (cut p h.1) (cutAll ps h.2)
end

/-! ## Blurring -/

mutual
theorem display_blur : (a : Token) → (blur a).display = a.display
  | .array ts => by
      rw [blur]
      split
      · rename_i h
        simp only [oneEmpty, Bool.or_eq_true, beq_iff_eq] at h
        rcases h with rfl | rfl <;> rfl
      · rw [Token.display, Token.display, displayAll_blur ts]
  | .fixedArray ts => by rw [blur, Token.display, Token.display, displayAll_blur ts]
  | .tuple ts => by rw [blur, Token.display, Token.display, displayAll_blur ts]
  | .address _ | .bytes _ | .fixedBytes _ | .int _ | .uint _ | .bool _ | .string _ => rfl
theorem displayAll_blur : (ts : List Token) → Token.displayAll (blurAll ts) = Token.displayAll ts
  | [] => rfl
  | t :: ts => by rw [blurAll, Token.displayAll, Token.displayAll, display_blur t, displayAll_blur ts]
end

mutual
theorem blur_sharp : (p : ParamType) → sharp p = true → ∀ a, hasType a p = true → blur a = a
  | .address, _, a, ha | .bytes, _, a, ha | .int _, _, a, ha | .uint _, _, a, ha | .bool, _, a, ha | .string, _, a, ha
  | .fixedBytes _, _, a, ha => by
      cases a <;> simp only [hasType, Bool.false_eq_true] at ha <;> rfl
  | .array p, h, a, ha => by
      cases a <;> simp only [hasType, Bool.false_eq_true] at ha
      rename_i ts
      have hs : sharp p = true := by
        revert h
        rw [sharp.eq_def]
        split <;> simp_all
      have h1 : oneEmpty ts = false := by
        cases e : oneEmpty ts with
        | false => rfl
        | true =>
          simp only [oneEmpty, Bool.or_eq_true, beq_iff_eq] at e
          rcases e with rfl | rfl
          · cases p <;> simp [allHaveType, hasType] at ha
            simp [sharp] at h
          · cases p <;> simp [allHaveType, hasType] at ha
            subst ha
            simp [sharp] at h
      rw [blur, h1, if_neg (by decide), blurAll_elements p ts (fun t ht => blur_sharp p hs t ht) ha]
  | .fixedArray p _, h, a, ha => by
      cases a <;> simp only [hasType, Bool.false_eq_true, Bool.and_eq_true] at ha
      rename_i ts
      rw [blur, blurAll_elements p ts (fun t ht => blur_sharp p h t ht) ha.2]
  | .tuple ps, h, a, ha => by
      cases a <;> simp only [hasType, Bool.false_eq_true] at ha
      rw [blur, blurAll_sharp ps h _ ha]
theorem blurAll_elements (p : ParamType) (ts : List Token) (H : ∀ t, hasType t p = true → blur t = t)
    (h : allHaveType ts p = true) : blurAll ts = ts := by
  induction ts with
  | nil => rfl
  | cons t ts ih =>
    rw [allHaveType, Bool.and_eq_true] at h
    rw [blurAll, H t h.1, ih h.2]
theorem blurAll_sharp : (ps : List ParamType) → sharpAll ps = true → ∀ ts, haveTypes ts ps = true → blurAll ts = ts
  | [], _, ts, h => by cases ts <;> simp [haveTypes] at h; rfl
  | p :: ps, hs, ts, h => by
      rw [sharpAll, Bool.and_eq_true] at hs
      cases ts with
      | nil => rfl
      | cons t ts =>
        rw [haveTypes, Bool.and_eq_true] at h
        rw [blurAll, blur_sharp p hs.1 t h.1, blurAll_sharp ps hs.2 ts h.2]
end

/-! ## The lines of the command line tool -/

theorem lines_cut : (ps : List ParamType) → stringFreeAll ps = true → ∀ as bs, haveTypes as ps = true → haveTypes bs ps = true →
    join (lit "\n") (typedLines ps as) = join (lit "\n") (typedLines ps bs) → blurAll as = blurAll bs
  | [], _, as, bs, ha, hb, _ => by
      cases as <;> simp only [haveTypes, Bool.false_eq_true] at ha
      cases bs <;> simp only [haveTypes, Bool.false_eq_true] at hb
      rfl
  | [p], hp, as, bs, ha, hb, h => by
      simp only [stringFreeAll, Bool.and_true] at hp
      match as, bs with
      | [a], [b] =>
        simp only [haveTypes, Bool.and_true] at ha hb
        simp only [typedLines, join, List.append_assoc, List.append_cancel_left_eq] at h
        have := cut p hp a b [] [] ha hb (by simp [Stop]) (by simp [Stop]) (by simpa using h)
        rw [blurAll, this.1]; rfl
      | [], _ | _ :: _ :: _, _ => simp [haveTypes] at ha
      | [_], [] | [_], _ :: _ :: _ => simp [haveTypes] at hb
  | p :: q :: ps, hp, as, bs, ha, hb, h => by
      rw [stringFreeAll, Bool.and_eq_true] at hp
      match as, bs with
      | a :: a' :: as, b :: b' :: bs =>
        rw [haveTypes, Bool.and_eq_true] at ha hb
        have e : ∀ x y zs, join (lit "\n") (typedLines (p :: q :: ps) (x :: y :: zs)) =
            write p ++ (lit " " ++ (x.display ++ '\n' :: join (lit "\n") (typedLines (q :: ps) (y :: zs)))) := by
          intro x y zs
          show write p ++ lit " " ++ x.display ++ lit "\n" ++ join (lit "\n") (typedLines (q :: ps) (y :: zs)) = _
          rw [List.append_assoc, List.append_assoc, List.append_assoc]; rfl
        rw [e, e, List.append_cancel_left_eq, List.append_cancel_left_eq] at h
        have h1 := cut p hp.1 a b _ _ ha.1 hb.1 (stop_cons (by decide)) (stop_cons (by decide)) h
        have h2 := lines_cut (q :: ps) hp.2 _ _ ha.2 hb.2 (List.cons.inj h1.2).2
        rw [blurAll, h1.1, h2]; rfl
      | [], _ | [_], _ => simp [haveTypes] at ha
      | _ :: _ :: _, [] | _ :: _ :: _, [_] => simp [haveTypes] at hb

end Ethabi.Printed

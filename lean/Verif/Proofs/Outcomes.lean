import Verif.Proofs.TypeCheck
import Verif.Spec.Outcomes
/-! The outcome of `Token::type_check` for all tokens and types. -/
namespace Ethabi
open Spec

/-- elements of an array -/
def SurplusIn (toks : List Token) (t : ParamType) : Prop :=
  ∃ a x b, toks = a ++ x :: b ∧ shortOfAll a t = true ∧ Surplus x t

/-- a member of a tuple -/
def SurplusMember (toks : List Token) (ts : List ParamType) : Prop :=
  ∃ a x b ps p qs, toks = a ++ x :: b ∧ ts = ps ++ p :: qs ∧ a.length = ps.length ∧ shortOfs a ps = true ∧ Surplus x p

/-- more members than types -/
def TooMany (toks : List Token) (ts : List ParamType) : Prop :=
  ∃ a x b, toks = a ++ x :: b ∧ a.length = ts.length ∧ shortOfs a ts = true

theorem surplusIn_nil (t : ParamType) : ¬ SurplusIn [] t := by
  rintro ⟨a, x, b, h, _⟩; simp at h

theorem surplusIn_cons (x : Token) (xs : List Token) (t : ParamType) :
    SurplusIn (x :: xs) t ↔ Surplus x t ∨ (shortOf x t = true ∧ SurplusIn xs t) := by
  constructor
  · rintro ⟨a, y, b, h, ha, hs⟩
    cases a with
    | nil => simp only [List.nil_append, List.cons.injEq] at h; exact Or.inl (h.1 ▸ hs)
    | cons z a =>
      simp only [List.cons_append, List.cons.injEq] at h
      simp only [shortOfAll, Bool.and_eq_true] at ha
      exact Or.inr ⟨h.1 ▸ ha.1, a, y, b, h.2, ha.2, hs⟩
  · rintro (h | ⟨h, a, y, b, e, ha, hs⟩)
    · exact ⟨[], x, xs, rfl, rfl, h⟩
    · exact ⟨x :: a, y, b, by rw [e]; rfl, by simp [shortOfAll, h, ha], hs⟩

theorem surplusMember_nil (ts : List ParamType) : ¬ SurplusMember [] ts := by
  rintro ⟨a, x, b, _, _, _, h, _⟩; simp at h

theorem surplusMember_nil' (toks : List Token) : ¬ SurplusMember toks [] := by
  rintro ⟨a, x, b, ps, p, qs, _, h, _⟩; simp at h

theorem surplusMember_cons (x : Token) (xs : List Token) (t : ParamType) (ts : List ParamType) :
    SurplusMember (x :: xs) (t :: ts) ↔ Surplus x t ∨ (shortOf x t = true ∧ SurplusMember xs ts) := by
  constructor
  · rintro ⟨a, y, b, ps, p, qs, h, h', hl, ha, hs⟩
    cases a with
    | nil =>
      cases ps with
      | nil =>
        simp only [List.nil_append, List.cons.injEq] at h h'
        exact Or.inl (h.1 ▸ h'.1 ▸ hs)
      | cons _ _ => simp at hl
    | cons z a =>
      cases ps with
      | nil => simp at hl
      | cons q ps =>
        simp only [List.cons_append, List.cons.injEq] at h h'
        simp only [shortOfs, Bool.and_eq_true] at ha
        exact Or.inr ⟨h.1 ▸ h'.1 ▸ ha.1, a, y, b, ps, p, qs, h.2, h'.2, by simpa using hl, ha.2, hs⟩
  · rintro (h | ⟨h, a, y, b, ps, p, qs, e, e', hl, ha, hs⟩)
    · exact ⟨[], x, xs, [], t, ts, rfl, rfl, rfl, rfl, h⟩
    · exact ⟨x :: a, y, b, t :: ps, p, qs, by rw [e]; rfl, by rw [e']; rfl, by simp [hl], by simp [shortOfs, h, ha], hs⟩

theorem tooMany_nil (ts : List ParamType) : ¬ TooMany [] ts := by
  rintro ⟨a, x, b, h, _⟩; simp at h

theorem tooMany_nil' (x : Token) (xs : List Token) : TooMany (x :: xs) [] := ⟨[], x, xs, rfl, rfl, rfl⟩

theorem tooMany_cons (x : Token) (xs : List Token) (t : ParamType) (ts : List ParamType) :
    TooMany (x :: xs) (t :: ts) ↔ shortOf x t = true ∧ TooMany xs ts := by
  constructor
  · rintro ⟨a, y, b, h, hl, ha⟩
    cases a with
    | nil => simp at hl
    | cons z a =>
      simp only [List.cons_append, List.cons.injEq] at h
      simp only [shortOfs, Bool.and_eq_true] at ha
      exact ⟨h.1 ▸ ha.1, a, y, b, h.2, by simpa using hl, ha.2⟩
  · rintro ⟨h, a, y, b, e, hl, ha⟩
    exact ⟨x :: a, y, b, by rw [e]; rfl, by simp [hl], by simp [shortOfs, h, ha]⟩

/-- what is proved of each check: `v` says whether the values pass, `S` whether there is a surplus -/
def Outcome (r : Res Bool) (v : Bool) (S : Prop) : Prop :=
  (r = .ok v ∧ ¬ S) ∨ (r = .panic ∧ v = false ∧ S)

theorem outcome_ok {v : Bool} {S : Prop} (h : ¬ S) : Outcome (.ok v) v S := Or.inl ⟨rfl, h⟩

theorem outcome_seq {r s : Res Bool} {v w : Bool} {S T : Prop} (h1 : Outcome r v S) (h2 : Outcome s w T) :
    Outcome (r >>= fun b => if b then s else .ok false) (v && w) (S ∨ (v = true ∧ T)) := by
  rcases h1 with ⟨hr, hs⟩ | ⟨hr, hv, hs⟩
  · subst hr
    cases v
    · refine Or.inl ⟨rfl, ?_⟩
      rintro (h | ⟨h, _⟩)
      · exact hs h
      · cases h
    · simp only [Res.ok_bind, if_true, Bool.true_and]
      rcases h2 with ⟨h, ht⟩ | ⟨h, hw, ht⟩
      · refine Or.inl ⟨h, ?_⟩
        rintro (h' | ⟨_, h'⟩)
        · exact hs h'
        · exact ht h'
      · exact Or.inr ⟨h, hw, Or.inr ⟨trivial, ht⟩⟩
  · subst hr hv
    exact Or.inr ⟨rfl, rfl, Or.inl hs⟩

theorem outcome_congr {r : Res Bool} {v w : Bool} {S T : Prop} (h : Outcome r v S) (hv : v = w) (hs : S ↔ T) :
    Outcome r w T := by
  subst hv
  rcases h with ⟨h, h'⟩ | ⟨h, h', h''⟩
  · exact Or.inl ⟨h, fun t => h' (hs.2 t)⟩
  · exact Or.inr ⟨h, h', hs.1 h''⟩

theorem surplus_array (ts : List Token) (t : ParamType) : Surplus (.array ts) (.array t) ↔ SurplusIn ts t := by
  constructor
  · intro h; cases h with | array ha hs => exact ⟨_, _, _, rfl, ha, hs⟩
  · rintro ⟨a, x, b, rfl, ha, hs⟩; exact .array ha hs

theorem surplus_fixedArray (ts : List Token) (t : ParamType) (n : Nat) :
    Surplus (.fixedArray ts) (.fixedArray t n) ↔ ts.length = n ∧ SurplusIn ts t := by
  constructor
  · intro h; cases h with | fixedArray hn ha hs => exact ⟨hn, _, _, _, rfl, ha, hs⟩
  · rintro ⟨hn, a, x, b, rfl, ha, hs⟩; exact .fixedArray hn ha hs

theorem surplus_tuple (ts : List Token) (ps : List ParamType) :
    Surplus (.tuple ts) (.tuple ps) ↔ SurplusMember ts ps ∨ TooMany ts ps := by
  constructor
  · intro h
    cases h with
    | member hl ha hs => exact Or.inl ⟨_, _, _, _, _, _, rfl, rfl, hl, ha, hs⟩
    | tooMany hl ha => exact Or.inr ⟨_, _, _, rfl, hl, ha⟩
  · rintro (⟨a, x, b, ps, p, qs, rfl, rfl, hl, ha, hs⟩ | ⟨a, x, b, rfl, hl, ha⟩)
    · exact .member hl ha hs
    · exact .tooMany hl ha

mutual
theorem typeCheck_outcome : ∀ (tok : Token) (t : ParamType), Outcome (Token.typeCheck tok t) (shortOf tok t) (Surplus tok t)
  | .address _, t => by
      cases t <;> exact outcome_ok (by intro h; cases h)
  | .bytes _, t => by
      cases t <;> exact outcome_ok (by intro h; cases h)
  | .int _, t => by
      cases t <;> exact outcome_ok (by intro h; cases h)
  | .uint _, t => by
      cases t <;> exact outcome_ok (by intro h; cases h)
  | .bool _, t => by
      cases t <;> exact outcome_ok (by intro h; cases h)
  | .string _, t => by
      cases t <;> exact outcome_ok (by intro h; cases h)
  | .fixedBytes _, t => by
      cases t <;> exact outcome_ok (by intro h; cases h)
  | .array ts, t => by
      cases t with
      | array q => exact outcome_congr (allCheck_outcome ts q) rfl (surplus_array ts q).symm
      | _ => exact outcome_ok (by intro h; cases h)
  | .fixedArray ts, t => by
      cases t with
      | fixedArray q n =>
          simp only [Token.typeCheck, shortOf]
          by_cases hn : n = ts.length
          · subst hn
            simp only [BEq.rfl, if_true, Bool.true_and]
            refine outcome_congr (allCheck_outcome ts q) rfl ?_
            rw [surplus_fixedArray]; simp
          · have h1 : (n == ts.length) = false := by simpa using hn
            have h2 : (ts.length == n) = false := by simpa using (Ne.symm hn)
            rw [h1, h2]
            refine outcome_ok ?_
            rw [surplus_fixedArray]
            exact fun h => hn h.1.symm
      | _ => exact outcome_ok (by intro h; cases h)
  | .tuple ts, t => by
      cases t with
      | tuple qs => exact outcome_congr (tupleCheck_outcome ts qs) rfl (surplus_tuple ts qs).symm
      | _ => exact outcome_ok (by intro h; cases h)
theorem allCheck_outcome : ∀ (toks : List Token) (t : ParamType),
    Outcome (Token.allCheck toks t) (shortOfAll toks t) (SurplusIn toks t)
  | [], t => outcome_ok (surplusIn_nil t)
  | tok :: toks, t => by
      have := outcome_seq (typeCheck_outcome tok t) (allCheck_outcome toks t)
      exact outcome_congr this rfl (surplusIn_cons tok toks t).symm
theorem tupleCheck_outcome : ∀ (toks : List Token) (ts : List ParamType),
    Outcome (Token.tupleCheck toks ts) (shortOfs toks ts) (SurplusMember toks ts ∨ TooMany toks ts)
  | [], ts => outcome_ok (by
      rintro (h | h)
      · exact surplusMember_nil ts h
      · exact tooMany_nil ts h)
  | tok :: toks, [] => Or.inr ⟨rfl, rfl, Or.inr (tooMany_nil' tok toks)⟩
  | tok :: toks, t :: ts => by
      have := outcome_seq (typeCheck_outcome tok t) (tupleCheck_outcome toks ts)
      refine outcome_congr this rfl ?_
      rw [surplusMember_cons, tooMany_cons]
      constructor
      · rintro (h | ⟨h, h' | h'⟩)
        · exact Or.inl (Or.inl h)
        · exact Or.inl (Or.inr ⟨h, h'⟩)
        · exact Or.inr ⟨h, h'⟩
      · rintro ((h | ⟨h, h'⟩) | ⟨h, h'⟩)
        · exact Or.inl h
        · exact Or.inr ⟨h, Or.inl h'⟩
        · exact Or.inr ⟨h, Or.inr h'⟩
end

theorem zipCheck_outcome : ∀ (ts : List ParamType) (toks : List Token), toks.length = ts.length →
    Outcome (Token.zipCheck ts toks) (shortOfs toks ts) (SurplusMember toks ts)
  | [], [], _ => outcome_ok (surplusMember_nil [])
  | [], _ :: _, h => by simp at h
  | _ :: _, [], h => by simp at h
  | t :: ts, tok :: toks, h => by
      have := outcome_seq (typeCheck_outcome tok t) (zipCheck_outcome ts toks (by simpa using h))
      exact outcome_congr this rfl (surplusMember_cons tok toks t ts).symm

theorem typesCheck_outcome (toks : List Token) (ts : List ParamType) :
    Outcome (Token.typesCheck toks ts) (decide (toks.length = ts.length) && shortOfs toks ts) (SurplusArgs toks ts) := by
  simp only [Token.typesCheck]
  by_cases h : toks.length = ts.length
  · rw [if_pos (by simp [h])]
    refine outcome_congr (zipCheck_outcome ts toks h) (by simp [h]) ?_
    simp [SurplusArgs, SurplusMember, h]
  · rw [if_neg (by simp; omega)]
    refine Or.inl ⟨by simp [h], fun hs => h hs.1⟩

end Ethabi

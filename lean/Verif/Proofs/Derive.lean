import Verif.Model.Derive
import Verif.Spec.Derive
import Verif.Spec.Event
import Verif.Proofs.TypeCheck
/-!
# Typed values and tokens
-/
namespace Ethabi
open Spec

theorem hasTypeAll_map {α : Type} (f : α → Token) (t : ParamType) (h : ∀ a, hasType (f a) t = true) :
    ∀ l : List α, allHaveType (l.map f) t = true
  | [] => rfl
  | a :: l => by
      rw [List.map_cons, allHaveType, h a, hasTypeAll_map f t h l]; rfl

theorem hasType_toToken : ∀ (t : ParamType) (v : Rust t), hasType (toToken t v) t = true
  | .address, _ => rfl
  | .bytes, _ => rfl
  | .int _, _ => rfl
  | .uint _, _ => rfl
  | .bool, _ => rfl
  | .string, _ => rfl
  | .fixedBytes n, v => by rw [toToken, hasType]; simp [v.2]
  | .array t, v => by
      rw [toToken, hasType]; exact hasTypeAll_map _ t (fun a => hasType_toToken t a) v
  | .fixedArray t n, v => by
      rw [toToken, hasType, hasTypeAll_map _ t (fun a => hasType_toToken t a)]
      simp [v.2]
  | .tuple _, v => nomatch v

theorem haveTypes_toTokens : ∀ (ts : List ParamType) (as : RustArgs ts), haveTypes (toTokens ts as) ts = true
  | [], _ => rfl
  | t :: ts, (a, as) => by rw [toTokens, haveTypes, hasType_toToken, haveTypes_toTokens ts as]; rfl

theorem collectAll_map {α β : Type} (f : α → Res β) (g : β → α) (h : ∀ b, f (g b) = .ok b) :
    ∀ l : List β, collectAll f (l.map g) = .ok l
  | [] => rfl
  | b :: l => by rw [List.map_cons, collectAll, h b, Res.ok_bind, collectAll_map f g h l]; rfl

theorem fromToken_toToken : ∀ (t : ParamType), generated t = true → ∀ (v : Rust t), fromToken t (toToken t v) = .ok v
  | .address, _, _ => rfl
  | .bytes, _, _ => rfl
  | .int _, _, _ => rfl
  | .uint _, _, _ => rfl
  | .bool, _, _ => rfl
  | .string, _, _ => rfl
  | .fixedBytes n, _, v => dif_pos v.2
  | .array t, h, v => collectAll_map (fromToken t) (toToken t) (fun a => fromToken_toToken t h a) v
  | .fixedArray _ _, h, _ => by cases h
  | .tuple _, h, _ => by cases h

theorem fromTokens_toTokens : ∀ (ts : List ParamType), (∀ t ∈ ts, generated t = true) → ∀ (as : RustArgs ts),
    fromTokens ts (toTokens ts as) = .ok as
  | [], _, _ => rfl
  | t :: ts, h, (a, as) => by
      rw [toTokens, fromTokens, fromToken_toToken t (h t List.mem_cons_self), Res.ok_bind,
        fromTokens_toTokens ts (fun x hx => h x (List.mem_cons_of_mem _ hx))]
      rfl

theorem collectAll_of {α β : Type} (f : α → Res β) (g : β → α) : ∀ l : List α, (∀ a ∈ l, ∃ b, f a = .ok b ∧ g b = a) →
    ∃ bs, collectAll f l = .ok bs ∧ bs.map g = l
  | [], _ => ⟨[], rfl, rfl⟩
  | a :: l, h => by
      obtain ⟨b, h1, h2⟩ := h a List.mem_cons_self
      obtain ⟨bs, h3, h4⟩ := collectAll_of f g l fun x hx => h x (List.mem_cons_of_mem _ hx)
      refine ⟨b :: bs, ?_, by rw [List.map_cons, h2, h4]⟩
      rw [collectAll, h1, Res.ok_bind, h3]; rfl

theorem allHaveType_mem : ∀ (l : List Token) (t : ParamType), allHaveType l t = true → ∀ a ∈ l, hasType a t = true
  | [], _, _, _, h => by cases h
  | x :: l, t, h, a, ha => by
      rw [allHaveType, Bool.and_eq_true] at h
      rcases List.mem_cons.1 ha with e | e
      · rw [e]; exact h.1
      · exact allHaveType_mem l t h.2 a e

theorem hasType_cases {tok : Token} {t : ParamType} (h : hasType tok t = true) :
    match t with
    | .address => ∃ a, tok = .address a
    | .bytes => ∃ b, tok = .bytes b
    | .int _ => ∃ i, tok = .int i
    | .uint _ => ∃ i, tok = .uint i
    | .bool => ∃ b, tok = .bool b
    | .string => ∃ s, tok = .string s
    | .fixedBytes n => ∃ b, tok = .fixedBytes b ∧ b.length = n
    | .array t => ∃ l, tok = .array l ∧ allHaveType l t = true
    | .fixedArray t n => ∃ l, tok = .fixedArray l ∧ l.length = n ∧ allHaveType l t = true
    | .tuple ts => ∃ l, tok = .tuple l ∧ haveTypes l ts = true := by
  cases t <;> cases tok <;> simp [hasType] at h ⊢ <;> exact h

theorem fromToken_of_hasType : ∀ (t : ParamType), generated t = true → ∀ tok, hasType tok t = true →
    ∃ v, fromToken t tok = .ok v ∧ toToken t v = tok
  | .address, _, tok, h => by obtain ⟨a, e⟩ := hasType_cases h; subst e; exact ⟨a, rfl, rfl⟩
  | .bytes, _, tok, h => by obtain ⟨a, e⟩ := hasType_cases h; subst e; exact ⟨a, rfl, rfl⟩
  | .int _, _, tok, h => by obtain ⟨a, e⟩ := hasType_cases h; subst e; exact ⟨a, rfl, rfl⟩
  | .uint _, _, tok, h => by obtain ⟨a, e⟩ := hasType_cases h; subst e; exact ⟨a, rfl, rfl⟩
  | .bool, _, tok, h => by obtain ⟨a, e⟩ := hasType_cases h; subst e; exact ⟨a, rfl, rfl⟩
  | .string, _, tok, h => by obtain ⟨a, e⟩ := hasType_cases h; subst e; exact ⟨a, rfl, rfl⟩
  | .fixedBytes n, _, tok, h => by
      obtain ⟨b, e, hb⟩ := hasType_cases h; subst e
      exact ⟨⟨b, hb⟩, dif_pos hb, rfl⟩
  | .array t, hg, tok, h => by
      obtain ⟨l, e, hl⟩ := hasType_cases h; subst e
      obtain ⟨bs, h1, h2⟩ := collectAll_of (fromToken t) (toToken t) l
        (fun a ha => fromToken_of_hasType t hg a (allHaveType_mem l t hl a ha))
      exact ⟨bs, h1, congrArg Token.array h2⟩
  | .fixedArray _ _, h, _, _ => by cases h
  | .tuple _, h, _, _ => by cases h

theorem fromTokens_of_haveTypes : ∀ (ts : List ParamType), (∀ t ∈ ts, generated t = true) → ∀ toks,
    haveTypes toks ts = true → ∃ as, fromTokens ts toks = .ok as ∧ toTokens ts as = toks
  | [], _, toks, h => by
      cases toks with
      | nil => exact ⟨(), rfl, rfl⟩
      | cons _ _ => cases h
  | t :: ts, hg, toks, h => by
      cases toks with
      | nil => cases h
      | cons tok toks =>
        rw [haveTypes, Bool.and_eq_true] at h
        obtain ⟨v, h1, h2⟩ := fromToken_of_hasType t (hg t List.mem_cons_self) tok h.1
        obtain ⟨as, h3, h4⟩ := fromTokens_of_haveTypes ts (fun x hx => hg x (List.mem_cons_of_mem _ hx)) toks h.2
        refine ⟨(v, as), ?_, by rw [toTokens, h2, h4]⟩
        rw [fromTokens, h1, Res.ok_bind, h3]; rfl

/-- not an error -/
def NoErr {α : Type} (x : Res α) : Prop := ∀ e, x ≠ .err e

theorem noErr_bind {α β : Type} {x : Res α} {f : α → Res β} (h1 : NoErr x) (h2 : ∀ a, NoErr (f a)) : NoErr (Res.bind x f) := by
  cases x with
  | ok a => exact h2 a
  | err e => exact absurd rfl (h1 e)
  | panic => intro e; simp [Res.bind]

theorem noErr_ok {α : Type} (a : α) : NoErr (Res.ok a) := fun _ => by simp

theorem noErr_expectSome {α : Type} (o : Option α) : NoErr (expectSome o) := by
  cases o <;> intro e <;> simp [expectSome]

theorem noErr_copy (n : Nat) (b : Bytes) : NoErr (copyFromSlice n b) := by
  unfold copyFromSlice; split <;> intro e <;> simp

/-- conversions never return an error -/
theorem noErr_collectAll {α β : Type} (f : α → Res β) (hf : ∀ a, NoErr (f a)) : ∀ (l : List α), NoErr (collectAll f l)
  | [] => noErr_ok _
  | a :: l => noErr_bind (hf a) fun _ => noErr_bind (noErr_collectAll f hf l) fun _ => noErr_ok _

theorem fromToken_noErr : ∀ (t : ParamType) (tok : Token), NoErr (fromToken t tok)
  | .address, tok => noErr_expectSome _
  | .bytes, tok => noErr_expectSome _
  | .int _, tok => noErr_expectSome _
  | .uint _, tok => noErr_expectSome _
  | .bool, tok => noErr_expectSome _
  | .string, tok => noErr_expectSome _
  | .fixedBytes n, tok => noErr_bind (noErr_expectSome _) fun _ => noErr_copy _ _
  | .array t, tok => noErr_bind (noErr_expectSome _) fun _ => noErr_collectAll _ (fun a => fromToken_noErr t a) _
  | .fixedArray _ _, tok => fun e => by simp [fromToken]
  | .tuple _, tok => fun e => by simp [fromToken]

theorem fromTokens_noErr : ∀ (ts : List ParamType) (toks : List Token), NoErr (fromTokens ts toks)
  | [], _ => noErr_ok _
  | _ :: _, [] => fun e => by simp [fromTokens]
  | t :: ts, tok :: toks => noErr_bind (fromToken_noErr t tok) fun _ => noErr_bind (fromTokens_noErr ts toks) fun _ => noErr_ok _

/-- a token accepted for a type of the Rust side is not a `FixedBytes` token unless the type is `bytesN` -/
theorem fromToken_fixedBytes {t : ParamType} (h : valueType t = false) (b : Bytes) (v : Rust t) :
    fromToken t (.fixedBytes b) ≠ .ok v := by
  have hp : fromToken t (.fixedBytes b) = .panic := by cases t <;> first | rfl | cases h
  rw [hp]; simp

theorem fromTokens_get : ∀ (ts : List ParamType) (toks : List Token) (as : RustArgs ts), fromTokens ts toks = .ok as →
    ∀ (i : Nat) t tok, ts[i]? = some t → toks[i]? = some tok → ∃ v, fromToken t tok = .ok v
  | [], _, _, _, _, _, _, h, _ => by cases h
  | _ :: _, [], _, h, _, _, _, _, _ => by cases h
  | t :: ts, tok :: toks, as, h, i, t', tok', h1, h2 => by
      rw [fromTokens] at h
      simp only [Res.bind_eq_ok] at h
      obtain ⟨v, h3, as', h4, -⟩ := h
      cases i with
      | zero =>
        rw [List.getElem?_cons_zero, Option.some.injEq] at h1 h2
        subst h1 h2
        exact ⟨v, h3⟩
      | succ i =>
        rw [List.getElem?_cons_succ] at h1 h2
        exact fromTokens_get ts toks as' h4 i t' tok' h1 h2

/-- the values put back in declaration order have the types under which they were read -/
theorem interleave_typed : ∀ (ps : List EventParam) (tt dt : List Token),
    haveTypes tt ((ps.filter (·.indexed)).map fun p => topicType p.kind) = true →
    haveTypes dt ((ps.filter (!·.indexed)).map (·.kind)) = true →
    haveTypes (interleave (ps.map (·.indexed)) tt dt) (ps.map fun p => if p.indexed then topicType p.kind else p.kind) = true
  | [], _, _, _, _ => rfl
  | p :: ps, tt, dt, h1, h2 => by
      cases hp : p.indexed with
      | true =>
        rw [List.filter_cons_of_pos (by simp [hp])] at h1
        rw [List.filter_cons_of_neg (by simp [hp])] at h2
        cases tt with
        | nil => cases h1
        | cons t tt =>
          rw [List.map_cons, haveTypes, Bool.and_eq_true] at h1
          simp only [List.map_cons, hp, interleave, haveTypes, if_true, h1.1, Bool.true_and]
          exact interleave_typed ps tt dt h1.2 h2
      | false =>
        rw [List.filter_cons_of_neg (by simp [hp])] at h1
        rw [List.filter_cons_of_pos (by simp [hp])] at h2
        cases dt with
        | nil => cases h2
        | cons t dt =>
          rw [List.map_cons, haveTypes, Bool.and_eq_true] at h2
          simp only [List.map_cons, hp, interleave, haveTypes, Bool.false_eq_true, if_false, h2.1, Bool.true_and]
          exact interleave_typed ps tt dt h1 h2.2

theorem haveTypes_get : ∀ (ts : List ParamType) (toks : List Token), haveTypes toks ts = true →
    ∀ (i : Nat) t, ts[i]? = some t → ∃ tok, toks[i]? = some tok ∧ hasType tok t = true
  | [], _, _, _, _, h => by cases h
  | _ :: _, [], h, _, _, _ => by cases h
  | t :: ts, tok :: toks, h, i, t', h1 => by
      rw [haveTypes, Bool.and_eq_true] at h
      cases i with
      | zero =>
        rw [List.getElem?_cons_zero, Option.some.injEq] at h1
        exact ⟨tok, rfl, h1 ▸ h.1⟩
      | succ i =>
        rw [List.getElem?_cons_succ] at h1 ⊢
        exact haveTypes_get ts toks h.2 i t' h1

end Ethabi

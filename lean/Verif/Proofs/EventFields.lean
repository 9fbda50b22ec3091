import Verif.Spec.EventFields
import Verif.Spec.Derive
import Verif.Props.LogsExact
import Verif.Props.Logs
import Verif.Props.Codec
/-! # Fields of generated events -/
namespace Ethabi.EventFields
open Spec Props

theorem allHaveType_iff (t : ParamType) : ∀ toks : List Token, allHaveType toks t = true ↔ ∀ x ∈ toks, hasType x t = true
  | [] => by simp [allHaveType]
  | x :: toks => by simp [allHaveType, allHaveType_iff t toks]

theorem spaced_mem {p : Nat → Token → Prop} {w off : Nat} {toks : List Token} (h : spaced p w off toks) {tok : Token}
    (ht : tok ∈ toks) : ∃ o, p o tok := by
  obtain ⟨i, hi, rfl⟩ := List.mem_iff_getElem.1 ht
  exact ⟨_, h i _ (List.getElem?_eq_getElem hi)⟩

mutual
theorem reads_hasType : ∀ (t : ParamType) (data : Bytes) (off : Nat) (tok : Token), reads t data off tok → hasType tok t = true
  | .address, _, _, _, h => by obtain ⟨_, _, _, _, rfl⟩ := h; rfl
  | .int _, _, _, _, h => by obtain ⟨_, _, rfl⟩ := h; rfl
  | .uint _, _, _, _, h => by obtain ⟨_, _, rfl⟩ := h; rfl
  | .bool, _, _, _, h => by obtain ⟨_, _, _, rfl⟩ := h; rfl
  | .fixedBytes n, data, off, _, h => by
    obtain ⟨h, rfl⟩ := h
    simp only [hasType, List.length_take, List.length_drop, beq_iff_eq]
    omega
  | .bytes, _, _, _, h => by obtain ⟨_, _, _, _, rfl⟩ := h; rfl
  | .string, _, _, _, h => by obtain ⟨_, _, _, _, rfl⟩ := h; rfl
  | .array t, _, _, _, h => by
    obtain ⟨o, toks, _, _, h, rfl⟩ := h
    rw [hasType, allHaveType_iff]
    intro x hx
    obtain ⟨o, h⟩ := spaced_mem h hx
    exact reads_hasType t _ o x h
  | .fixedArray t k, _, _, _, h => by
    simp only [reads] at h
    split at h
    · obtain ⟨o, toks, _, _, hl, h, rfl⟩ := h
      rw [hasType, Bool.and_eq_true, beq_iff_eq, allHaveType_iff]
      refine ⟨hl, fun x hx => ?_⟩
      obtain ⟨o, h⟩ := spaced_mem h hx
      exact reads_hasType t _ o x h
    · obtain ⟨toks, hl, h, rfl⟩ := h
      rw [hasType, Bool.and_eq_true, beq_iff_eq, allHaveType_iff]
      refine ⟨hl, fun x hx => ?_⟩
      obtain ⟨o, h⟩ := spaced_mem h hx
      exact reads_hasType t _ o x h
  | .tuple ts, _, _, _, h => by
    simp only [reads] at h
    split at h
    · obtain ⟨o, toks, _, _, h, rfl⟩ := h
      exact readsAll_haveTypes ts _ _ toks h
    · obtain ⟨toks, h, rfl⟩ := h
      exact readsAll_haveTypes ts _ _ toks h
theorem readsAll_haveTypes : ∀ (ts : List ParamType) (data : Bytes) (off : Nat) (toks : List Token), readsAll ts data off toks →
    haveTypes toks ts = true
  | [], _, _, _, h => by cases h; rfl
  | t :: ts, _, _, _, h => by
    obtain ⟨tok, rest, h1, h2, rfl⟩ := h
    rw [haveTypes, reads_hasType t _ _ _ h1, readsAll_haveTypes ts _ _ _ h2]; rfl
end

theorem no_overruns : ∀ (t : ParamType), generated t = true → ∀ data off, ¬ overruns t data off
  | .array t, h, _, _, ho => by
    obtain ⟨_, _, _, _, toks, _, _, h'⟩ := ho
    exact no_overruns t h _ _ h'
  | .fixedArray _ _, h, _, _, _ => by cases h
  | .tuple _, h, _, _, _ => by cases h
  | .address, _, _, _, h => h
  | .int _, _, _, _, h => h
  | .uint _, _, _, _, h => h
  | .bool, _, _, _, h => h
  | .fixedBytes _, _, _, _, h => h
  | .bytes, _, _, _, h => h
  | .string, _, _, _, h => h

theorem no_overrunsAny : ∀ (ts : List ParamType), (∀ t ∈ ts, generated t = true) → ∀ data off, ¬ overrunsAny ts data off
  | [], _, _, _, h => h
  | t :: ts, hg, data, off, h => by
    rcases h with h | ⟨_, _, h⟩
    · exact no_overruns t (hg t (by simp)) _ _ h
    · exact no_overrunsAny ts (fun x hx => hg x (by simp [hx])) _ _ h

theorem generated_narrow : ∀ t, generated t = true → narrow t = true
  | .array t, h => generated_narrow t h
  | .fixedArray _ _, h => by cases h
  | .tuple _, h => by cases h
  | .address, _ => rfl
  | .int _, _ => rfl
  | .uint _, _ => rfl
  | .bool, _ => rfl
  | .fixedBytes _, h => h
  | .bytes, _ => rfl
  | .string, _ => rfl

theorem sameRust_hasType : ∀ (t u : ParamType) (tok : Token), sameRust t u = true → hasType tok u = true → hasType tok t = true
  | .array t, u, tok, h, h' => by
    cases u <;> simp only [sameRust, Bool.false_eq_true] at h
    cases tok <;> simp only [hasType, Bool.false_eq_true] at h' ⊢
    rw [allHaveType_iff] at h' ⊢
    exact fun x hx => sameRust_hasType t _ x h (h' x hx)
  | .fixedBytes n, u, tok, h, h' => by
    cases u <;> simp only [sameRust, Bool.false_eq_true] at h
    cases tok <;> simp_all [hasType]
  | .fixedArray _ _, _, _, h, _ => by simp [sameRust] at h
  | .tuple _, _, _, h, _ => by simp [sameRust] at h
  | .address, u, tok, h, h' => by cases u <;> cases tok <;> simp_all [sameRust, hasType]
  | .int _, u, tok, h, h' => by cases u <;> cases tok <;> simp_all [sameRust, hasType]
  | .uint _, u, tok, h, h' => by cases u <;> cases tok <;> simp_all [sameRust, hasType]
  | .bool, u, tok, h, h' => by cases u <;> cases tok <;> simp_all [sameRust, hasType]
  | .bytes, u, tok, h, h' => by cases u <;> cases tok <;> simp_all [sameRust, hasType]
  | .string, u, tok, h, h' => by cases u <;> cases tok <;> simp_all [sameRust, hasType]

/-- for a value without empty arrays also the converse -/
theorem sameRust_of_someValue : ∀ (t u : ParamType), generated u = true → hasType (someValue u) t = true → sameRust t u = true
  | t, .array u, hg, h => by
    cases t <;> simp only [someValue, hasType, Bool.false_eq_true] at h
    simp only [allHaveType, Bool.and_true] at h
    exact sameRust_of_someValue _ u hg h
  | t, .fixedBytes n, _, h => by
    cases t <;> simp [someValue, hasType, sameRust] at h ⊢
    exact h.symm
  | _, .fixedArray _ _, hg, _ => by cases hg
  | _, .tuple _, hg, _ => by cases hg
  | t, .address, _, h => by cases t <;> simp_all [someValue, hasType, sameRust]
  | t, .int _, _, h => by cases t <;> simp_all [someValue, hasType, sameRust]
  | t, .uint _, _, h => by cases t <;> simp_all [someValue, hasType, sameRust]
  | t, .bool, _, h => by cases t <;> simp_all [someValue, hasType, sameRust]
  | t, .bytes, _, h => by cases t <;> simp_all [someValue, hasType, sameRust]
  | t, .string, _, h => by cases t <;> simp_all [someValue, hasType, sameRust]

/-- and for every value of a value type -/
theorem sameRust_of_value (t u : ParamType) (tok : Token) (hv : valueType u = true) (h : hasType tok u = true)
    (h' : hasType tok t = true) : sameRust t u = true := by
  cases u <;> simp only [valueType, Bool.false_eq_true] at hv <;> cases tok <;> simp only [hasType, Bool.false_eq_true] at h <;>
    cases t <;> simp_all [hasType, sameRust]

theorem someValue_hasType : ∀ (t : ParamType), generated t = true → hasType (someValue t) t = true
  | .array t, h => by simp [someValue, hasType, allHaveType, someValue_hasType t h]
  | .fixedArray _ _, h => by cases h
  | .tuple _, h => by cases h
  | .address, _ => rfl
  | .int _, _ => rfl
  | .uint _, _ => rfl
  | .bool, _ => rfl
  | .fixedBytes _, _ => by simp [someValue, hasType]
  | .bytes, _ => rfl
  | .string, _ => rfl

theorem haveTypes_iff : ∀ (toks : List Token) (ts : List ParamType),
    haveTypes toks ts = true ↔ List.Forall₂ (fun x t => hasType x t = true) toks ts
  | [], [] => by simp [haveTypes]
  | [], _ :: _ => by simp only [haveTypes, Bool.false_eq_true, false_iff]; exact nofun
  | _ :: _, [] => by simp only [haveTypes, Bool.false_eq_true, false_iff]; exact nofun
  | x :: toks, t :: ts => by simp [haveTypes, haveTypes_iff toks ts]

theorem lastNamed_of_mem {α : Type} : ∀ {l : List (Str × α)} {n : Str} {v : α}, (n, v) ∈ l → ∃ w, lastNamed l n w
  | a :: l, n, v, h => by
    by_cases hr : ∃ w, (n, w) ∈ l
    · obtain ⟨w, hw⟩ := hr
      obtain ⟨x, b, c, rfl, hx⟩ := lastNamed_of_mem hw
      exact ⟨x, a :: b, c, rfl, hx⟩
    · rcases List.mem_cons.1 h with rfl | h
      · refine ⟨v, [], l, rfl, fun p hp hpn => hr ⟨p.2, ?_⟩⟩
        rw [← hpn]; exact hp
      · exact absurd ⟨v, h⟩ hr

theorem logParams_of_names (l : List (Str × Token)) : ∀ names : List Str, (∀ n ∈ names, ∃ v, lastNamed l n v) →
    ∃ xs : List LogParam, List.Forall₂ (fun n p => p.name = n ∧ lastNamed l n p.value) names xs
  | [], _ => ⟨[], .nil⟩
  | n :: names, h => by
    obtain ⟨v, hv⟩ := h n (by simp)
    obtain ⟨xs, hxs⟩ := logParams_of_names l names fun m hm => h m (by simp [hm])
    exact ⟨⟨n, v⟩ :: xs, .cons ⟨rfl, hv⟩ hxs⟩

/-- lists of named things that correspond one by one -/
theorem lastNamed_transfer {α β : Type} {R : α → β → Prop} {l : List (Str × α)} {k : List (Str × β)}
    (h : List.Forall₂ (fun a b => a.1 = b.1 ∧ R a.2 b.2) l k) {n : Str} {v : α} (hv : lastNamed l n v) :
    ∃ u, lastNamed k n u ∧ R v u := by
  obtain ⟨before, after, rfl, ha⟩ := hv
  induction before generalizing k with
  | nil =>
    cases h with
    | @cons _ b _ k h1 h2 =>
      refine ⟨b.2, ⟨[], k, by rw [show n = b.1 from h1.1]; rfl, ?_⟩, h1.2⟩
      intro x hx
      clear h1
      induction h2 with
      | nil => cases hx
      | cons h3 h4 ih =>
        rcases List.mem_cons.1 hx with rfl | hx
        · rw [← h3.1]; exact ha _ (by simp)
        · exact ih (fun p hp => ha p (by simp [hp])) hx
  | cons a before ih =>
    cases h with
    | @cons _ b _ k h1 h2 =>
      obtain ⟨u, ⟨before', after', rfl, h⟩, hr⟩ := ih h2
      exact ⟨u, ⟨b :: before', after', rfl, h⟩, hr⟩

theorem lastNamed_unique {α : Type} {l : List (Str × α)} {n : Str} {v w : α} (hv : lastNamed l n v) (hw : lastNamed l n w) :
    v = w := by
  induction l with
  | nil => obtain ⟨b, _, h, _⟩ := hv; cases b <;> cases h
  | cons a l ih =>
    obtain ⟨b, c, h1, h2⟩ := hv
    obtain ⟨b', c', h3, h4⟩ := hw
    cases b with
    | nil =>
      cases h1
      cases b' with
      | nil => cases h3; rfl
      | cons _ b' =>
        cases h3
        exact absurd rfl (h2 (n, w) (by simp))
    | cons _ b =>
      have h5 := (List.cons.inj h1).2
      cases b' with
      | nil =>
        have h6 := (List.cons.inj h3).2
        exact absurd rfl (h4 (n, v) (by rw [← h6, h5]; simp))
      | cons _ b' => exact ih ⟨b, c, h5, h2⟩ ⟨b', c', (List.cons.inj h3).2, h4⟩

theorem zip_forall₂ {α β : Type} {R : α → β → Prop} {γ : Type} (name : γ → Str) (f : γ → β) : ∀ (ps : List γ) (vs : List α),
    List.Forall₂ R vs (ps.map f) →
    List.Forall₂ (fun a b => a.1 = b.1 ∧ R a.2 b.2) ((ps.map name).zip vs) (ps.map fun p => (name p, f p))
  | [], _, h => by cases h; exact .nil
  | p :: ps, v :: vs, h => by
    cases h with
    | cons h1 h2 => exact .cons ⟨rfl, h1⟩ (zip_forall₂ name f ps vs h2)

theorem forall₂_append {α β : Type} {R : α → β → Prop} : ∀ {a : List α} {b : List β} {c : List α} {d : List β},
    List.Forall₂ R a b → List.Forall₂ R c d → List.Forall₂ R (a ++ c) (b ++ d)
  | _, _, _, _, .nil, h => h
  | _, _, _, _, .cons h1 h2, h => .cons h1 (forall₂_append h2 h)

/-- what is reported next to what is read -/
theorem named_readOrder {R : Token → ParamType → Prop} (e : Event) (tt dt : List Token)
    (ht : List.Forall₂ R tt (((e.inputs.filter (·.indexed)).map (·.kind)).map topicType))
    (hd : List.Forall₂ R dt ((e.inputs.filter (!·.indexed)).map (·.kind))) :
    List.Forall₂ (fun a b => a.1 = b.1 ∧ R a.2 b.2) (namedValues e tt dt) (readOrder e) := by
  rw [List.map_map] at ht
  exact forall₂_append (zip_forall₂ _ _ _ _ ht) (zip_forall₂ _ _ _ _ hd)

theorem word_zero : word 0 = List.replicate 32 0 := by decide +kernel

/-- zeros hold a value of every value type -/
theorem zeros_hold (t : ParamType) (hs : solidity t = true) (m off : Nat) (h : off + 32 ≤ m) :
    (∃ tok, reads (topicType t) (List.replicate m 0) off tok) ∧ headWidth (topicType t) = 32 := by
  have hz : ((List.replicate m (0 : UInt8)).drop off).take 32 = word 0 := by
    rw [List.drop_replicate, List.take_replicate, word_zero]
    congr 1; omega
  cases t with
  | address =>
    refine ⟨⟨_, List.replicate 12 0, ⟨List.replicate 20 0, by simp⟩, by simp, ?_, rfl⟩, rfl⟩
    rw [hz, word_zero]; rfl
  | int n => exact ⟨⟨_, 0, ⟨by decide, hz⟩, rfl⟩, rfl⟩
  | uint n => exact ⟨⟨_, 0, ⟨by decide, hz⟩, rfl⟩, rfl⟩
  | bool => exact ⟨⟨_, 0, by decide, ⟨by decide, hz⟩, rfl⟩, rfl⟩
  | fixedBytes n =>
    have hn : 1 ≤ n ∧ n ≤ 32 := by simpa [solidity] using hs
    exact ⟨⟨_, by simp; omega, rfl⟩, rfl⟩
  | bytes => exact ⟨⟨_, by simp; omega, rfl⟩, rfl⟩
  | string => exact ⟨⟨_, by simp; omega, rfl⟩, rfl⟩
  | array _ => exact ⟨⟨_, by simp; omega, rfl⟩, rfl⟩
  | fixedArray _ _ => exact ⟨⟨_, by simp; omega, rfl⟩, rfl⟩
  | tuple _ => exact ⟨⟨_, by simp; omega, rfl⟩, rfl⟩

theorem zeros_hold_all : ∀ (ts : List ParamType), (∀ t ∈ ts, solidity t = true) → ∀ m off, off + 32 * ts.length ≤ m →
    ∃ tt, readsAll (ts.map topicType) (List.replicate m 0) off tt
  | [], _, _, _, _ => ⟨[], rfl⟩
  | t :: ts, hs, m, off, h => by
    rw [List.length_cons] at h
    obtain ⟨⟨tok, h1⟩, h2⟩ := zeros_hold t (hs t (by simp)) m off (by omega)
    obtain ⟨tt, h3⟩ := zeros_hold_all ts (fun x hx => hs x (by simp [hx])) m (off + 32) (by omega)
    exact ⟨tok :: tt, tok, tt, h1, by rw [h2]; exact h3, rfl⟩

end Ethabi.EventFields

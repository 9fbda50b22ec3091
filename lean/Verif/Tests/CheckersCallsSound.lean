import Verif.Tests.CheckersCalls
import Verif.Tests.CheckersSound
import Verif.Props.Calls
import Verif.Props.Json
import Verif.Props.Logs
import Verif.Props.Filters
/-! The checkers of `Tests/CheckersCalls.lean` are instances of the property theorems (tests). -/
namespace Ethabi.Checkers
open Ethabi.Spec Ethabi.Props

theorem guard {a b : Bool} (h : a = true → b = true) : (!a || b) = true := by
  cases a <;> simp_all

theorem c15_true (pe pd : Profile) (ts : List ParamType) (toks : List Token) : c15 pe pd ts toks = true := by
  unfold c15
  refine guard fun h => ?_
  simp only [Bool.and_eq_true, decide_eq_true_eq] at h
  obtain ⟨⟨⟨⟨⟨a, b⟩, c⟩, d⟩, e⟩, f⟩ := h
  obtain ⟨x, bs, y, z⟩ := C15_short_fixed_bytes pe pd ts toks a b c d e (.inl f)
  simp only [x, y, z, decide_true, Bool.and_self]

theorem c18_true (hash : Bytes → Word) (pe pd : Profile) (f : Function) (toks : List Token) : c18 hash pe pd f toks = true := by
  unfold c18
  refine guard fun h => ?_
  obtain ⟨a, b, c⟩ := fits_iff h
  obtain ⟨sel, args, x, y, z, w⟩ := C18_function_round_trip_solidity hash pe pd f toks a b c
  rw [y]
  simp only [List.drop_left' x, z.symm, w, decide_true, Bool.and_self]

theorem c20_true (hash : Bytes → Word) (p : Profile) (f : Function) (c : Constructor) (code : Bytes) (toks : List Token) :
    c20 hash p f c code toks = true := by
  unfold c20
  obtain ⟨a, b⟩ := C20_ill_typed_rejected_partial hash p f c code toks
  obtain ⟨x, y⟩ := C20_wrong_count_rejected hash p f c code toks
  simp only [Bool.and_eq_true, Bool.or_eq_true, Bool.not_eq_true', decide_eq_true_eq]
  refine ⟨⟨⟨?_, ?_⟩, ?_⟩, ?_⟩
  · by_cases h : toks.length = f.inputs.length
    · exact .inl h
    · exact .inr (x h)
  · by_cases h : toks.length = c.inputs.length
    · exact .inl h
    · exact .inr (y h)
  · cases h : arityMatchZip toks (f.inputs.map (·.kind)) with
    | false => simp
    | true =>
      cases h' : valuesOf toks (f.inputs.map (·.kind)) with
      | true => simp
      | false => exact .inr (a h h')
  · cases h : arityMatchZip toks (c.inputs.map (·.kind)) with
    | false => simp
    | true =>
      cases h' : valuesOf toks (c.inputs.map (·.kind)) with
      | true => simp
      | false => exact .inr (b h h')

theorem c21_true (pe pd : Profile) (c : Constructor) (code : Bytes) (toks : List Token) : c21 pe pd c code toks = true := by
  unfold c21
  refine guard fun h => ?_
  simp only [Bool.and_eq_true] at h
  obtain ⟨⟨⟨a, b⟩, d⟩, e⟩ := h
  obtain ⟨a, _, a'⟩ := fits_iff a
  obtain ⟨bs, x, y, z⟩ := C21_constructor pe pd c code toks a b d a' (.inl e)
  rw [x]
  simp only [z, decide_true, Bool.and_true]
  exact decide_eq_true y

theorem operations_ok : ∀ (js : List Json) (ops : List Operation), operations js = some ops →
    List.Forall₂ (fun j op => deOperation j = .ok op) js ops
  | [], ops, h => by cases h; exact .nil
  | j :: js, ops, h => by
    unfold operations at h
    split at h
    · rename_i op ops' h1 h2
      cases h
      exact .cons h1 (operations_ok js ops' h2)
    · cases h

theorem c30_true (js : List Json) (n : Str) : c30 js n = true := by
  unfold c30
  split
  · rfl
  · rename_i ops h
    obtain ⟨c, e, h1, h2, h3, h4⟩ := C30_lookup js ops (operations_ok js ops h)
    obtain ⟨c', e', h5, h6, _⟩ := C30_constructor_flags js ops (operations_ok js ops h)
    rw [e] at e'; cases e'
    rw [e]
    simp only [Bool.and_eq_true, beq_iff_eq]
    refine ⟨⟨⟨⟨⟨decide_eq_true (h1 n), decide_eq_true (h2 n)⟩, decide_eq_true (h3 n)⟩, decide_eq_true (h4 n)⟩, ?_⟩, ?_⟩
    · rw [Bool.eq_iff_iff, decide_eq_true_eq]; exact h5
    · rw [Bool.eq_iff_iff, decide_eq_true_eq]; exact h6

theorem c31_true (js : List Json) (n : Str) : c31 js n = true := by
  unfold c31
  split
  · rfl
  · rename_i ops h
    obtain ⟨c, e, h1⟩ := C31_iterators js ops (operations_ok js ops h)
    obtain ⟨a, b, d, f⟩ := h1 _ _ (List.reverse_perm c.functions) (List.reverse_perm c.events)
    rw [e]
    simp only [Bool.and_eq_true, decide_eq_true_eq]
    exact ⟨⟨⟨a, b⟩, d n⟩, f n⟩

theorem c32_true (s : Str) : c32 s = true := by
  refine decide_eq_true (C32_unique s _ _ (C32_sanitize s).1 ?_)
  refine ⟨s.dropWhile (· != '('), List.takeWhile_append_dropWhile.symm, ?_, ?_⟩
  · intro h
    have := List.all_takeWhile (p := fun c : Char => c != '(') (l := s)
    rw [List.all_eq_true] at this
    simpa using this _ h
  · cases h : s.dropWhile (· != '(') with
    | nil => exact .inl rfl
    | cons a l =>
      have := List.head?_dropWhile_not (fun c : Char => c != '(') s
      rw [h] at this
      refine .inr ⟨l, ?_⟩
      simp at this
      rw [this]

theorem c32l_true (j : Json) : c32l j = true := by
  unfold c32l
  split
  · rename_i c h
    obtain ⟨a, b⟩ := C32_loaded j c h
    rw [Bool.and_eq_true, List.all_eq_true, List.all_eq_true]
    exact ⟨fun f hf => by simpa using a f hf, fun e he => by simpa using b e he⟩
  · rfl

theorem toWords_ok : ∀ (bs : List Bytes) (ws : List Word), toWords bs = some ws → ws.map (·.1) = bs
  | [], ws, h => by cases h; rfl
  | b :: bs, ws, h => by
    unfold toWords at h
    split at h
    · cases h' : toWords bs with
      | none => rw [h'] at h; cases h
      | some l => rw [h'] at h; cases h; rw [List.map_cons, toWords_ok bs l h']
    · cases h

theorem c33_true (hash : Bytes → Word) (p : Profile) (name : Str) (anonymous : Bool) (ps : List Emitted) :
    c33 hash p name anonymous ps = true := by
  unfold c33
  dsimp only
  split
  · rfl
  · rename_i ws hw
    refine guard fun h => ?_
    simp only [Bool.and_eq_true, List.all_eq_true, decide_eq_true_eq] at h
    obtain ⟨⟨⟨a, b⟩, c⟩, d⟩ := h
    exact decide_eq_true (C33_parse_emitted hash p _ ps ⟨ws, emitData ps⟩ rfl a (fun q hq => (b q hq).1) (fun q hq => (b q hq).2)
      (toWords_ok _ _ hw) rfl c d)

theorem c35_true (hash : Bytes → Word) (p : Profile) (e : Event) (log : RawLog) : c35 hash p e log = true := by
  unfold c35
  split
  · rename_i l h
    exact decide_eq_true (C35_declaration_order hash p e log l h)
  · rfl

theorem shape_rel {α β : Type} {R : α → β → Prop} {a : Topic α} {b : Topic β} (h : TopicRel R a b) : shape b = shape a := by
  cases h with
  | any => rfl
  | this => rfl
  | oneOf h => simp only [shape, h.length_eq]

theorem c37_true (hash : Bytes → Word) (p : Profile) (e : Event) (raw : RawTopicFilter) : c37 hash p e raw = true := by
  unfold c37
  split
  · rename_i f h
    obtain ⟨a, b⟩ := C37_slots hash p e raw f h
    cases ha : e.anonymous with
    | true =>
      obtain ⟨x, y, z, w⟩ := b ha
      simp only [x, shape_rel y, shape_rel z, shape_rel w, if_true, beq_self_eq_true, Bool.and_true]; rfl
    | false =>
      obtain ⟨⟨v, x, x'⟩, y, z, w⟩ := a ha
      simp only [x, x', shape_rel y, shape_rel z, shape_rel w, beq_self_eq_true, Bool.and_true, decide_true, Bool.false_eq_true, if_false]
  · rfl

theorem wrongTopic_iff (topic : Topic Token) (kind : Option ParamType) : wrongTopic topic kind = true ↔ WrongTopic topic kind := by
  unfold wrongTopic WrongTopic
  cases topic <;> cases kind <;> simp [shape, tokens, tokensOf]

theorem c38_true (hash : Bytes → Word) (e : Event) (raw : RawTopicFilter) : c38 hash e raw = true := by
  unfold c38
  dsimp only
  refine guard fun h => ?_
  rw [List.all_eq_true] at h
  obtain ⟨a, b⟩ := C38_rejects_exactly_tuple_free hash e raw h
  split
  · rename_i hw
    refine decide_eq_true (a ?_)
    simpa only [Bool.or_eq_true, wrongTopic_iff, or_assoc, indexedKinds] using hw
  · rename_i hw
    obtain ⟨f, hf⟩ := b (by
      intro x; apply hw
      simpa only [Bool.or_eq_true, wrongTopic_iff, or_assoc, indexedKinds] using x)
    rw [hf]

theorem topicOk_iff (t : Topic Word) (b : Option Bytes) : topicOk t b = true ↔ topicMatches t b := by
  cases t <;> simp [topicOk, topicMatches]

theorem valueOk_iff (t : Topic Token) (b : Option Emitted) : valueOk t b = true ↔ valueMatches (fun t p => p.value = t) t b := by
  cases t <;> cases b <;> simp [valueOk, valueMatches]

theorem c39_true (hash : Bytes → Word) (p : Profile) (name : Str) (anonymous : Bool) (ps : List Emitted) (raw : RawTopicFilter) :
    c39 hash p name anonymous ps raw = true := by
  unfold c39
  dsimp only
  split
  · rename_i f hf
    refine guard fun h => ?_
    simp only [Bool.and_eq_true, List.all_eq_true, Bool.or_eq_true, Bool.not_eq_true'] at h
    obtain ⟨⟨⟨a, b⟩, c⟩, d⟩ := h
    have ht : ∀ (topic : Topic Token) (q : Option Emitted), typedTopic topic q = true → ∀ p, q = some p → ∀ t ∈ tokensOf topic, hasType t p.kind = true := by
      intro topic q hq p hp t ht
      have : tokens topic = tokensOf topic := by cases topic <;> rfl
      rw [← this] at ht
      subst hp
      simp only [typedTopic, List.all_eq_true] at hq
      exact hq t ht
    have := C39_matches hash p _ ps raw f rfl (fun q hq hi => by
        rcases a q hq with x | ⟨⟨x, y⟩, z⟩
        · rw [hi] at x; cases x
        · exact ⟨x, y, z⟩)
      (fun i topic q h1 h2 => by
        match i, h1 with
        | 0, h1 => cases h1; exact ht _ _ b q h2
        | 1, h1 => cases h1; exact ht _ _ c q h2
        | 2, h1 => cases h1; exact ht _ _ d q h2) hf
    rw [beq_iff_eq, Bool.eq_iff_iff]
    simp only [Bool.and_eq_true, topicOk_iff, valueOk_iff]
    simpa only [filterMatches, rawMatches, and_assoc] using this
  · rfl

theorem c41_true (t : Topic Nat) (i a : Nat) : c41 t i a = true := by
  unfold c41
  obtain ⟨h1, h2⟩ := C41_index t i
  obtain ⟨h3, h4, _⟩ := C41_map (· + 1) id t
  simp only [Bool.and_eq_true, beq_iff_eq, decide_eq_true_eq, decide_eq_decide]
  refine ⟨⟨⟨⟨h1 a, h2⟩, ?_⟩, h4⟩, shape_rel h3⟩
  rw [Bool.eq_iff_iff, decide_eq_true_eq]; exact C41_is_any t

end Ethabi.Checkers

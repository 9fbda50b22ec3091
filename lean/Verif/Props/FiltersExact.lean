import Verif.Props.Filters
import Verif.Proofs.FilterExact
/-! # Property C40: exactly what `filter` hashes, and exactly where that is right -/
namespace Ethabi.Props
open Spec FilterExact

/-- **C40, what is hashed.** In every slot of every filter, for every indexed parameter of a codable type: a token of the
parameter's type becomes its ABI encoding as a one-element argument list if that is one word, and its hash otherwise. -/
theorem C40_what_is_hashed (hash : Bytes → Word) (prof : Profile) (e : Event) (raw : RawTopicFilter)
    (f : TopicFilter) (i : Nat) (kind : ParamType) (topic : Topic Token) (tw : Topic Word)
    (hf : e.filter hash prof raw = .ok f) (hk : (indexedKinds e)[i]? = some kind)
    (hi : [raw.topic0, raw.topic1, raw.topic2][i]? = some topic) (hw : (paramSlots e.anonymous f)[i]? = some tw)
    (hc : codable kind = true)
    (ht : ∀ tok ∈ tokensOf topic, hasType tok kind = true ∧ countsFit tok = true ∧ (encodeArgs [tok] [kind]).length < 2 ^ 32) :
    TopicRel (fun tok w => w.1 = if (encodeArgs [tok] [kind]).length = 32 then encodeArgs [tok] [kind]
      else (hash (encodeArgs [tok] [kind])).1) topic tw := by
  have hfi : (fun p : EventParam => p.indexed) = fun p => p.indexed == true := by funext p; cases p.indexed <;> rfl
  unfold indexedKinds at hk
  rw [hfi] at hk
  obtain ⟨t0, t1, t2, c0, c1, c2, rfl⟩ := filter_ok hf
  have hslots : paramSlots e.anonymous (if e.anonymous then (⟨t0, t1, t2, .any⟩ : TopicFilter)
      else ⟨.this (e.signature hash), t0, t1, t2⟩) = [t0, t1, t2] := by
    cases e.anonymous <;> rfl
  rw [hslots] at hw
  have hconv : convertTopic hash prof topic (some kind) = .ok tw := by
    match i with
    | 0 => cases hi; cases hw; rw [hk] at c0; exact c0
    | 1 => cases hi; cases hw; rw [hk] at c1; exact c1
    | 2 => cases hi; cases hw; rw [hk] at c2; exact c2
    | _ + 3 => cases hi
  have key : ∀ tok ∈ tokensOf topic, ∀ w, (∃ k, some kind = some k ∧ convertToken hash prof tok k = .ok w) →
      w.1 = if (encodeArgs [tok] [kind]).length = 32 then encodeArgs [tok] [kind] else (hash (encodeArgs [tok] [kind])).1 := by
    rintro tok htok w ⟨k, hkk, hct⟩
    cases hkk
    obtain ⟨-, b, hb, hwb⟩ := convertToken_ok hct
    obtain ⟨hty, hcf, hlt⟩ := ht tok htok
    have hb' := encode_eq_spec prof [tok] [kind] (by simp [haveTypes, hty]) (by simp [codableAll, hc])
      (by simp [countsFitAll, hcf]) hlt
    rw [hb] at hb'
    cases hb'
    exact hwb
  cases convertTopic_rel hconv with
  | any => exact .any
  | this h => exact .this (key _ (by simp [tokensOf]) _ h)
  | oneOf h => exact .oneOf (forall₂_imp_mem h key)

/-- **C40, exactly where it holds.** For a value of any codable type, `filter` computes the Solidity topic (whatever the hash
function) if and only if the type is a value type or a static type that does not take exactly one word. -/
theorem C40_exactly (prof : Profile) (kind : ParamType) (tok : Token) (hc : codable kind = true)
    (ht : hasType tok kind = true) (hn : countsFit tok = true) (hb : (encodeArgs [tok] [kind]).length < 2 ^ 32) :
    (∀ hash : Bytes → Word, ∃ w : Word, (oneParamEvent kind).filter hash prof { topic0 := .this tok } =
        .ok { topic0 := .this w } ∧ w.1 = topicOf hash tok kind) ↔
      (valueType kind = true ∨ (dynamic kind = false ∧ staticSize kind ≠ 32)) := by
  rw [← right_iff tok kind ht hc]
  have he := encode_eq_spec prof [tok] [kind] (by simp [haveTypes, ht]) (by simp [codableAll, hc])
    (by simp [countsFitAll, hn]) hb
  refine forall_congr' fun hash => ?_
  have htc : Token.typeCheck tok kind = .ok true := by
    have h := hasType_valueOf _ _ ht
    rw [typeCheck_eq _ _ (valueOf_arity _ _ h), h]
  obtain ⟨w, hw1, hw2⟩ : ∃ w : Word, convertToken hash prof tok kind = .ok w ∧
      w.1 = if (encodeArgs [tok] [kind]).length = 32 then encodeArgs [tok] [kind] else (hash (encodeArgs [tok] [kind])).1 := by
    by_cases hl : (encodeArgs [tok] [kind]).length = 32
    · refine ⟨⟨encodeArgs [tok] [kind], hl⟩, ?_, by rw [if_pos hl]⟩
      rw [convertToken, htc, Res.ok_bind]
      simp only [Bool.not_true, Bool.false_eq_true, if_false, he, Res.ok_bind]
      rw [dif_pos hl]
    · refine ⟨hash (encodeArgs [tok] [kind]), ?_, by rw [if_neg hl]⟩
      rw [convertToken, htc, Res.ok_bind]
      simp only [Bool.not_true, Bool.false_eq_true, if_false, he, Res.ok_bind]
      rw [dif_neg hl]
  have hfl : (oneParamEvent kind).filter hash prof { topic0 := .this tok } = .ok { topic0 := .this w } := by
    show (do
      let t0 ← convertTopic hash prof (.this tok) (some kind)
      let t1 ← convertTopic hash prof .any none
      let t2 ← convertTopic hash prof .any none
      Res.ok (⟨t0, t1, t2, .any⟩ : TopicFilter)) = _
    simp only [convertTopic, hw1, Res.ok_bind]
  rw [← hw2]
  constructor
  · rintro ⟨v, h1, h2⟩
    rw [hfl] at h1
    cases h1
    exact h2
  · intro h
    exact ⟨w, hfl, h⟩

/-- a static struct of two words, and types of each other kind -/
example : (dynamic (.tuple [.bool, .address]) = false ∧ staticSize (.tuple [.bool, .address]) ≠ 32) ∧
    valueType (.fixedBytes 4) = true ∧ dynamic .string = true ∧ staticSize (.fixedArray .bool 1) = 32 := by decide

end Ethabi.Props

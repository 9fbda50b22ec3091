import Verif.Props.Filters
import Verif.Props.JsonText
import Verif.Spec.FilterText
/-!
# C101: topic filters as JSON texts
-/
namespace Ethabi.Props
open Ethabi Ethabi.Spec Ethabi.JsonText Ethabi.JsonGrammar

private theorem digit_eq : ∀ n < 16, Ethabi.hexDigit n = hexDigits.getD n '0' := by decide

private theorem plain_digit : ∀ n < 16, writeChar (hexDigits.getD n '0') = [hexDigits.getD n '0'] := by decide

private theorem byte_small (b : UInt8) : b.toNat / 16 < 16 ∧ b.toNat % 16 < 16 := by
  have := b.toNat_lt
  omega

private theorem write_hash (h : Word) : JsonText.write (.str (hashText h)) = quotedHash h := by
  have e : ∀ bs : Bytes, (hexEncode bs).flatMap writeChar =
      bs.flatMap fun b => [hexDigits.getD (b.toNat / 16) '0', hexDigits.getD (b.toNat % 16) '0'] := by
    intro bs
    induction bs with
    | nil => rfl
    | cons b bs ih =>
      obtain ⟨h1, h2⟩ := byte_small b
      rw [hexEncode, List.flatMap_cons, List.flatMap_append, ← hexEncode, ih, List.flatMap_cons, hexByte, digit_eq _ h1, digit_eq _ h2,
        List.flatMap_cons, List.flatMap_cons, List.flatMap_nil, plain_digit _ h1, plain_digit _ h2]
      rfl
  rw [JsonText.write, writeStr, hashText, List.flatMap_append, e]
  rfl

private theorem write_list (xs : List Json) : JsonText.write (.arr xs) = listText '[' ']' (xs.map JsonText.write) := by
  have e : ∀ xs : List Json, writeItems xs = [','].intercalate (xs.map JsonText.write) := by
    intro xs
    induction xs with
    | nil => rfl
    | cons x xs ih =>
      cases xs with
      | nil => simp [writeItems, List.intercalate]
      | cons y ys =>
        rw [writeItems, ih]
        simp [List.intercalate]
  rw [JsonText.write, e, listText]

private theorem write_slot (t : Topic Word) : JsonText.write (serTopic t) = slotText t := by
  cases t with
  | any => rw [serTopic, JsonText.write]; rfl
  | this h => exact write_hash h
  | oneOf l =>
    rw [serTopic, write_list, slotText, List.map_map]
    congr 1
    exact List.map_congr_left fun h _ => write_hash h

/-- **C101.** The text that `serde_json::to_string` writes for a filter: the four slots in order, without white space, each of them
`null`, a hash in quotation marks, or a list of such hashes. -/
theorem C101_text (f : TopicFilter) : JsonText.write (serTopicFilter f) = filterText f := by
  rw [serTopicFilter, write_list, filterText]
  simp only [List.map_cons, List.map_nil, write_slot]

private theorem numbers_topic {P : Int → Prop} (t : Topic Word) : NumbersAre P (serTopic t) ∧ nest (serTopic t) ≤ 1 := by
  cases t with
  | any => simp [serTopic, NumbersAre, nest]
  | this h => simp [serTopic, NumbersAre, nest]
  | oneOf l =>
    rw [serTopic, NumbersAre, nest]
    have : ∀ l : List Word, NumbersAreItems P (l.map fun h => Json.str (hashText h)) ∧ nestItems (l.map fun h => Json.str (hashText h)) = 0 := by
      intro l
      induction l with
      | nil => simp [NumbersAreItems, nestItems]
      | cons h l ih => simp [NumbersAreItems, nestItems, NumbersAre, nest, ih]
    exact ⟨(this l).1, by rw [(this l).2]⟩

/-- **C101.** The text is JSON, whatever numbers the parser accepts, and from its value the filter can be read back. -/
theorem C101_reads (fits : Str → Bool) (f : TopicFilter) : (parse fits (filterText f)).bind readTopicFilter = some f := by
  have h : ∀ t, NumbersAre (fun n => fits (writeInt n) = true) (serTopic t) ∧ nest (serTopic t) ≤ 1 := fun t => numbers_topic t
  rw [← C101_text, C99_written fits _ (by simp [serTopicFilter, NumbersAre, NumbersAreItems, (h _).1]), if_pos, Option.bind_some, C42_faithful]
  have h0 := (h f.topic0).2
  have h1 := (h f.topic1).2
  have h2 := (h f.topic2).2
  have h3 := (h f.topic3).2
  simp only [serTopicFilter, nest, nestItems]
  omega

/-- **C101.** Hence filters with the same text are equal: "any", a hash, and lists of hashes, the empty one and those with one hash
included, are all told apart. -/
theorem C101_injective (f g : TopicFilter) (h : JsonText.write (serTopicFilter f) = JsonText.write (serTopicFilter g)) : f = g := by
  have hf := C101_reads (fun _ => true) f
  rw [← C101_text, h, C101_text, C101_reads] at hf
  exact (Option.some.inj hf).symm

/-- **C101.** The text is ASCII without white space. -/
theorem C101_plain (f : TopicFilter) : ∀ c ∈ filterText f, c ∈ "0123456789abcdefx\"[],nul".toList := by
  have mem_list : ∀ (ps : List Str) (S : Str), '[' ∈ S → ']' ∈ S → ',' ∈ S → (∀ p ∈ ps, ∀ c ∈ p, c ∈ S) →
      ∀ c ∈ listText '[' ']' ps, c ∈ S := by
    intro ps S h1 h2 h3 hp c hc
    have e : ∀ ps : List Str, (∀ p ∈ ps, ∀ c ∈ p, c ∈ S) → ∀ c ∈ [','].intercalate ps, c ∈ S := by
      intro ps
      induction ps with
      | nil => intro _ c hc; simp [List.intercalate] at hc
      | cons p ps ih =>
        intro hp c hc
        cases ps with
        | nil =>
          simp [List.intercalate] at hc
          exact hp p (by simp) c hc
        | cons q qs =>
          have : [','].intercalate (p :: q :: qs) = p ++ ',' :: [','].intercalate (q :: qs) := by simp [List.intercalate]
          rw [this, List.mem_append, List.mem_cons] at hc
          rcases hc with hc | rfl | hc
          · exact hp p (by simp) c hc
          · exact h3
          · exact ih (fun r hr => hp r (by simp [hr])) c hc
    rw [listText, List.mem_cons, List.mem_append, List.mem_singleton] at hc
    rcases hc with rfl | hc | rfl
    · exact h1
    · exact e ps hp c hc
    · exact h2
  have hd : ∀ n < 16, hexDigits.getD n '0' ∈ "0123456789abcdefx\"[],nul".toList := by decide
  have hash : ∀ h : Word, ∀ c ∈ quotedHash h, c ∈ "0123456789abcdefx\"[],nul".toList := by
    intro h c hc
    rw [quotedHash, List.mem_append, List.mem_cons, List.mem_cons, List.mem_cons, List.mem_flatMap, List.mem_singleton] at hc
    rcases hc with (rfl | rfl | rfl | ⟨b, -, hc⟩) | rfl
    · decide
    · decide
    · decide
    · simp only [List.mem_cons, List.not_mem_nil, or_false] at hc
      rcases hc with rfl | rfl
      · exact hd _ (byte_small b).1
      · exact hd _ (byte_small b).2
    · decide
  refine mem_list _ _ (by decide) (by decide) (by decide) ?_
  intro p hp
  obtain ⟨t, -, rfl⟩ := List.mem_map.1 hp
  cases t with
  | any => decide
  | this h => exact hash h
  | oneOf l =>
    refine mem_list _ _ (by decide) (by decide) (by decide) ?_
    intro p hp
    obtain ⟨h, -, rfl⟩ := List.mem_map.1 hp
    exact hash h

/-- the filter of the test in filter.rs -/
example : JsonText.write (serTopicFilter ⟨.this (constHash []), .any, .oneOf [constHash [], constHash []], .oneOf []⟩) =
    lit ("[\"0x" ++ String.ofList (hexEncode (constHash []).1) ++ "\",null,[\"0x" ++ String.ofList (hexEncode (constHash []).1) ++ "\",\"0x" ++
      String.ofList (hexEncode (constHash []).1) ++ "\"],[]]") := by decide +kernel

end Ethabi.Props

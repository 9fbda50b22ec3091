import Verif.Tests.CheckersText
import Verif.Props.Signatures
import Verif.Props.Reader
import Verif.Props.ReaderSuffix
import Verif.Props.Json
import Verif.Props.Logs
import Verif.Props.Filters
import Verif.Props.Tokenizer
/-! The checkers of `Tests/CheckersText.lean` are instances of the property theorems (tests). -/
namespace Ethabi.Checkers
open Ethabi.Spec Ethabi.Props

theorem c23_true (f : Function) : c23 f = true := decide_eq_true (C23_suffix f)

theorem c24_true (t : ParamType) : c24 t = true := by
  unfold c24
  cases h : t.usizeOk with
  | false => rfl
  | true =>
    have e := C24_exactly t h
    cases r : readable t with
    | false =>
      have : ¬ read (write t) = .ok t := fun x => by rw [e.1 x] at r; cases r
      simp only [this, decide_false, Bool.not_true, Bool.false_or]; rfl
    | true => simp only [e.2 r, decide_true, Bool.not_true, Bool.false_or]; rfl

theorem c25_true (t : ParamType) : c25 t = true := by
  unfold c25
  rw [decide_eq_true (C25_text t), Bool.true_and]
  cases h : t.usizeOk with
  | false => rfl
  | true =>
    obtain ⟨e, a, b, c⟩ := C25_abi_type_string t h
    subst b
    simp only [a, c, decide_true, Bool.not_true, Bool.false_or, Bool.and_self]

theorem c27_true (s : Str) (k : Nat) : c27 s k = true := by
  unfold c27
  cases h : s.all (fun c => decide (c.toNat < 128)) with
  | false => rfl
  | true =>
    by_cases hk : k < 2 ^ 64
    · obtain ⟨a, b⟩ := C27_array_suffix s h k hk
      rw [Bool.or_eq_true]
      refine .inr ?_
      rw [Bool.and_eq_true]
      exact ⟨decide_eq_true a, decide_eq_true b⟩
    · simp only [hk, decide_false, Bool.and_false, Bool.not_false, Bool.true_or]

theorem c27u_true (s : Str) (n k : Nat) : c27u s n k = true := by
  unfold c27u
  by_cases h : ((s.take n).flatMap String.utf8EncodeChar).length = s.length
  · by_cases hk : k < 2 ^ 64
    · obtain ⟨a, b⟩ := (C27_any_text s k hk).1 (s.take n) (s.drop n) (List.take_append_drop n s).symm h
      rw [Bool.or_eq_true]
      refine .inr ?_
      rw [Bool.and_eq_true]
      exact ⟨decide_eq_true a, decide_eq_true b⟩
    · simp only [hk, decide_false, Bool.and_false, Bool.not_false, Bool.true_or]
  · simp only [h, decide_false, Bool.false_and, Bool.not_false, Bool.true_or]

theorem c28_true (mode : Mode) (p : Param) : c28 mode p = true := by
  unfold c28
  cases h : p.kind.usizeOk with
  | false => rfl
  | true => rw [decide_eq_true (C28_param mode p h)]; rfl

theorem c28e_true (mode : Mode) (p : EventParam) : c28e mode p = true := by
  unfold c28e
  cases h : p.kind.usizeOk with
  | false => rfl
  | true => rw [decide_eq_true (C28_event_param mode p h)]; rfl

theorem c28t_true (mode : Mode) (p : TupleParam) : c28t mode p = true := by
  unfold c28t
  cases h : p.kind.usizeOk with
  | false => rfl
  | true => rw [decide_eq_true (C28_tuple_param mode p h)]; rfl

theorem c34_true (hash : Bytes → Word) (p : Profile) (e : Event) (log : RawLog) : c34 hash p e log = true := by
  unfold c34
  rw [Bool.and_eq_true]
  constructor
  · cases ha : e.anonymous with
    | true => rfl
    | false =>
      by_cases h : (log.topics.map (·.1)).head? = some (eventTopic hash e.name (e.inputs.map (·.kind)))
      · rw [decide_eq_true h]; rfl
      · rw [C34_wrong_signature hash p e log ha h]
        exact Bool.or_true _
  · cases h : e.parseLog hash p log with
    | ok l => rw [decide_eq_true (C34_topic_count hash p e log l h)]; rfl
    | err _ => rfl
    | panic => rfl

theorem c42_true (f : TopicFilter) : c42 f = true := decide_eq_true (C42_faithful f)

theorem c43_true (m : Tokenizer) (t : Token) (p : ParamType) : c43 m t p = true := by
  unfold c43
  cases h : arrayShown t p with
  | false => rfl
  | true => rw [decide_eq_true (C43_round_trip m t p h)]; rfl

theorem c43s_true (m : Tokenizer) (s : Str) : c43s m s = true := decide_eq_true (C43_string m s)

theorem c44_true (bits : Nat) (s : Str) : c44 bits s = true := by
  unfold c44
  cases h : isFullHex s with
  | true => rfl
  | false => exact decide_eq_true (C44_decimal bits s h)

theorem c45_true (bits : Nat) (s : Str) : c45 bits s = true := by
  unfold c45
  cases h : isFullHex s with
  | true => rfl
  | false => exact decide_eq_true (C45_decimal bits s h)

end Ethabi.Checkers

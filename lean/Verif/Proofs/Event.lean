import Verif.Model.Event
import Verif.Spec.Event
import Verif.Proofs.Codec
import Verif.Proofs.Text
/-! Parsing of logs. -/
namespace Ethabi
open Spec

/-! ### number of decoded tokens -/

theorem decodeParams_length (prof : Profile) (ts : List ParamType) : ∀ (data : Bytes) (off : Nat) (toks : List Token) (o : Nat),
    decodeParams prof ts data off = .ok (toks, o) → toks.length = ts.length := by
  induction ts with
  | nil => intro data off toks o h; simp only [decodeParams, Res.ok.injEq, Prod.mk.injEq] at h; rw [← h.1]; rfl
  | cons t ts ih =>
    intro data off toks o h
    simp only [decodeParams, Res.bind_eq_ok, Prod.exists, Res.ok.injEq, Prod.mk.injEq] at h
    obtain ⟨tok, o1, -, toks', o2, h2, rfl, -⟩ := h
    simp [ih _ _ _ _ h2]

theorem decode_length {prof : Profile} {ts : List ParamType} {data : Bytes} {toks : List Token}
    (h : decode prof ts data = .ok toks) : toks.length = ts.length := by
  obtain ⟨-, o, h1⟩ := decode_eq_ok h
  exact decodeParams_length prof ts data 0 toks o h1

/-! ### the name map -/

theorem lookup_mem_keys {l : List (Str × Token)} {k : Str} (h : k ∈ l.map (·.1)) : ∃ v, l.lookup k = some v := by
  induction l with
  | nil => cases h
  | cons e l ih =>
    obtain ⟨k', v⟩ := e
    by_cases hk : k = k'
    · exact ⟨v, by rw [List.lookup_cons, hk]; simp⟩
    · have : k ∈ l.map (·.1) := by
        rcases List.mem_cons.1 h with h | h
        · exact absurd h hk
        · exact h
      obtain ⟨w, hw⟩ := ih this
      exact ⟨w, by rw [List.lookup_cons, beq_false_of_ne hk]; exact hw⟩

theorem lookup_of_mem {l : List (Str × Token)} {k : Str} {v : Token} (hn : (l.map (·.1)).Nodup) (h : (k, v) ∈ l) :
    l.lookup k = some v := by
  induction l with
  | nil => cases h
  | cons e l ih =>
    obtain ⟨k', v'⟩ := e
    simp only [List.map_cons, List.nodup_cons] at hn
    rcases List.mem_cons.1 h with h' | h'
    · cases h'; simp [List.lookup_cons]
    · have : k ≠ k' := by
        rintro rfl
        exact hn.1 (List.mem_map_of_mem (f := fun e : Str × Token => e.1) h')
      rw [List.lookup_cons, beq_false_of_ne this]; exact ih hn.2 h'

theorem mapIndex_noPanic {l : List (Str × Token)} {k : Str} (h : k ∈ l.map (·.1)) : ∃ v, mapIndex l k = .ok v := by
  have : k ∈ l.reverse.map (·.1) := by rw [List.map_reverse, List.mem_reverse]; exact h
  obtain ⟨v, hv⟩ := lookup_mem_keys this
  exact ⟨v, by rw [mapIndex, hv]⟩

theorem mapIndex_of_mem {l : List (Str × Token)} {k : Str} {v : Token} (hn : (l.map (·.1)).Nodup) (h : (k, v) ∈ l) :
    mapIndex l k = .ok v := by
  rw [mapIndex, lookup_of_mem (by rw [List.map_reverse]; exact List.pairwise_reverse.2 (hn.imp fun h => Ne.symm h)) (List.mem_reverse.2 h)]

theorem logParams_names {pairs : List (Str × Token)} {ns : List Str} {ps : List LogParam}
    (h : logParams pairs ns = .ok ps) : ps.map (·.name) = ns := by
  induction ns generalizing ps with
  | nil => simp only [logParams, Res.ok.injEq] at h; rw [← h]; rfl
  | cons n ns ih =>
    simp only [logParams, Res.bind_eq_ok, Res.ok.injEq] at h
    obtain ⟨v, -, ps', h2, rfl⟩ := h
    simp [ih h2]

theorem logParams_noPanic {pairs : List (Str × Token)} {ns : List Str} (h : ∀ n ∈ ns, n ∈ pairs.map (·.1)) :
    ∃ ps, logParams pairs ns = .ok ps := by
  induction ns with
  | nil => exact ⟨[], rfl⟩
  | cons n ns ih =>
    obtain ⟨v, hv⟩ := mapIndex_noPanic (h n (by simp))
    obtain ⟨ps, hp⟩ := ih (fun m hm => h m (List.mem_cons_of_mem _ hm))
    exact ⟨_, by rw [logParams, hv, hp]; rfl⟩

theorem logParams_eq {pairs : List (Str × Token)} {l : List (Str × Token)} (h : ∀ e ∈ l, mapIndex pairs e.1 = .ok e.2) :
    logParams pairs (l.map (·.1)) = .ok (l.map fun e => { name := e.1, value := e.2 }) := by
  induction l with
  | nil => rfl
  | cons e l ih =>
    rw [List.map_cons, logParams, h e (by simp), ih (fun e he => h e (List.mem_cons_of_mem _ he))]
    rfl

/-! ### positions -/

theorem tb_ft : (true == false) = false := rfl
theorem tb_tf : (false == true) = false := rfl

/-- values by position: the next topic value for an indexed parameter, the next data value for another -/
def positional : List EventParam → List Token → List Token → List Token
  | [], _, _ => []
  | p :: ps, tt, dt =>
      if p.indexed then match tt with
        | t :: tt => t :: positional ps tt dt
        | [] => []
      else match dt with
        | d :: dt => d :: positional ps tt dt
        | [] => []

/-- the entries of the name map -/
def namedPairs (ps : List EventParam) (tt dt : List Token) : List (Str × Token) :=
  ((ps.filter (·.indexed == true)).map (·.name)).zip tt ++ ((ps.filter (·.indexed == false)).map (·.name)).zip dt

theorem namedPairs_keys (ps : List EventParam) (tt dt : List Token)
    (ht : tt.length = (ps.filter (·.indexed == true)).length) (hd : dt.length = (ps.filter (·.indexed == false)).length) :
    (namedPairs ps tt dt).map (·.1) =
      (ps.filter (·.indexed == true)).map (·.name) ++ (ps.filter (·.indexed == false)).map (·.name) := by
  unfold namedPairs
  rw [List.map_append, List.map_fst_zip (by simp [ht]), List.map_fst_zip (by simp [hd])]

theorem filter_perm (ps : List EventParam) :
    (ps.filter (·.indexed == true) ++ ps.filter (·.indexed == false)).Perm ps := by
  have := List.filter_append_perm (fun p : EventParam => p.indexed == true) ps
  have e : (fun p : EventParam => !(p.indexed == true)) = fun p => p.indexed == false := by
    funext p; cases p.indexed <;> rfl
  rwa [e] at this

theorem names_perm (ps : List EventParam) :
    ((ps.filter (·.indexed == true)).map (·.name) ++ (ps.filter (·.indexed == false)).map (·.name)).Perm (ps.map (·.name)) := by
  rw [← List.map_append]; exact (filter_perm ps).map _

theorem length_positional (ps : List EventParam) : ∀ (tt dt : List Token),
    tt.length = (ps.filter (·.indexed == true)).length → dt.length = (ps.filter (·.indexed == false)).length →
    (positional ps tt dt).length = ps.length := by
  induction ps with
  | nil => intro tt dt _ _; rfl
  | cons p ps ih =>
    intro tt dt ht hd
    cases hi : p.indexed with
    | true =>
      simp only [List.filter_cons, hi, beq_self_eq_true, if_true, List.length_cons] at ht
      simp only [List.filter_cons, hi, tb_ft, Bool.false_eq_true, if_false] at hd
      cases tt with
      | nil => cases ht
      | cons t tt => simp only [positional, hi, if_true, List.length_cons, ih tt dt (by simpa using ht) hd]
    | false =>
      simp only [List.filter_cons, hi, tb_tf, Bool.false_eq_true, if_false] at ht
      simp only [List.filter_cons, hi, beq_self_eq_true, if_true, List.length_cons] at hd
      cases dt with
      | nil => cases hd
      | cons t dt => simp only [positional, hi, Bool.false_eq_true, if_false, List.length_cons, ih tt dt ht (by simpa using hd)]

theorem positional_mem (ps : List EventParam) : ∀ (tt dt : List Token),
    ∀ e ∈ (ps.map (·.name)).zip (positional ps tt dt), e ∈ namedPairs ps tt dt := by
  induction ps with
  | nil => intro tt dt e he; cases he
  | cons p ps ih =>
    intro tt dt e he
    cases hi : p.indexed with
    | true =>
      cases tt with
      | nil => simp [positional, hi] at he
      | cons t tt =>
        simp only [positional, hi, if_true, List.map_cons, List.zip_cons_cons, List.mem_cons] at he
        simp only [namedPairs, List.filter_cons, hi, beq_self_eq_true, if_true, tb_ft, Bool.false_eq_true, if_false,
          List.map_cons, List.zip_cons_cons, List.cons_append, List.mem_cons]
        rcases he with he | he
        · exact Or.inl he
        · exact Or.inr (ih tt dt e he)
    | false =>
      cases dt with
      | nil => simp [positional, hi] at he
      | cons t dt =>
        simp only [positional, hi, Bool.false_eq_true, if_false, List.map_cons, List.zip_cons_cons, List.mem_cons] at he
        simp only [namedPairs, List.filter_cons, hi, beq_self_eq_true, if_true, tb_tf, Bool.false_eq_true, if_false,
          List.map_cons, List.zip_cons_cons, List.mem_append, List.mem_cons]
        rcases he with he | he
        · exact Or.inr (Or.inl he)
        · rcases List.mem_append.1 (ih tt dt e he) with h | h
          · exact Or.inl h
          · exact Or.inr (Or.inr h)

/-- with distinct names, the entry of each name is the value at its position -/
theorem logParams_positional (ps : List EventParam) (tt dt : List Token) (hn : (ps.map (·.name)).Nodup)
    (ht : tt.length = (ps.filter (·.indexed == true)).length) (hd : dt.length = (ps.filter (·.indexed == false)).length) :
    logParams (namedPairs ps tt dt) (ps.map (·.name)) =
      .ok (((ps.map (·.name)).zip (positional ps tt dt)).map fun e => { name := e.1, value := e.2 }) := by
  have hk : ((namedPairs ps tt dt).map (·.1)).Nodup := by
    rw [namedPairs_keys ps tt dt ht hd]
    exact (names_perm ps).nodup_iff.2 hn
  have := logParams_eq (pairs := namedPairs ps tt dt) (l := (ps.map (·.name)).zip (positional ps tt dt))
    (fun e he => mapIndex_of_mem hk (positional_mem ps tt dt e he))
  rwa [List.map_fst_zip (by simp [length_positional ps tt dt ht hd])] at this

theorem parseLog_eq (hash : Bytes → Word) (prof : Profile) (e : Event) (log : RawLog) :
    e.parseLog hash prof log = (do
      let toSkip ← e.checkSignature hash log.topics
      let tt ← decode prof ((e.inputs.filter (·.indexed == true)).map fun p => convertTopicParamType p.kind)
        ((log.topics.drop toSkip).flatMap (·.1))
      if tt.length ≠ log.topics.length - toSkip then .err .invalidData
      else do
        let dt ← decode prof ((e.inputs.filter (·.indexed == false)).map (·.kind)) log.data
        let params ← logParams (namedPairs e.inputs tt dt) (e.inputs.map (·.name))
        .ok { params := params }) := rfl

/-- with distinct names: everything by position -/
theorem parseLog_distinct (hash : Bytes → Word) (prof : Profile) (e : Event) (log : RawLog)
    (hn : (e.inputs.map (·.name)).Nodup) :
    e.parseLog hash prof log = (do
      let toSkip ← e.checkSignature hash log.topics
      let tt ← decode prof ((e.inputs.filter (·.indexed == true)).map fun p => convertTopicParamType p.kind)
        ((log.topics.drop toSkip).flatMap (·.1))
      if tt.length ≠ log.topics.length - toSkip then .err .invalidData
      else do
        let dt ← decode prof ((e.inputs.filter (·.indexed == false)).map (·.kind)) log.data
        .ok { params := ((e.inputs.map (·.name)).zip (positional e.inputs tt dt)).map fun e => { name := e.1, value := e.2 } }) := by
  rw [parseLog_eq]
  cases e.checkSignature hash log.topics with
  | ok k =>
    simp only [Res.ok_bind]
    cases ht : decode prof ((e.inputs.filter (·.indexed == true)).map fun p => convertTopicParamType p.kind)
        ((log.topics.drop k).flatMap (·.1)) with
    | ok tt =>
      simp only [Res.ok_bind]
      split
      · rfl
      · cases hd : decode prof ((e.inputs.filter (·.indexed == false)).map (·.kind)) log.data with
        | ok dt =>
          simp only [Res.ok_bind]
          rw [logParams_positional e.inputs tt dt hn (by simpa using decode_length ht) (by simpa using decode_length hd)]
          rfl
        | err _ => rfl
        | panic => rfl
    | err _ => rfl
    | panic => rfl
  | err _ => rfl
  | panic => rfl

/-! ### emitted logs -/

theorem length_enc_value (tok : Token) (t : ParamType) (hv : valueType t = true) (ht : hasType tok t = true)
    (hc : codable t = true) : (enc tok t).length = 32 := by
  have := staticSize_enc tok t ht hc (by cases t <;> simp_all [valueType, dynamic])
  rw [this]; cases t <;> simp_all [valueType, staticSize]

/-- the topic of a value, read back with the converted type -/
theorem topic_token (hash : Bytes → Word) (tok : Token) (t : ParamType) (ht : hasType tok t = true)
    (hc : valueType t = true → codable t = true) :
    let v := if valueType t then tok else Token.fixedBytes (topicOf hash tok t)
    hasType v (convertTopicParamType t) = true ∧ codable (convertTopicParamType t) = true ∧
      countsFit v = true ∧ dynamic (convertTopicParamType t) = false ∧
      enc v (convertTopicParamType t) = topicOf hash tok t ∧ (topicOf hash tok t).length = 32 := by
  have e1 : ∀ w : Word, padRight w.1 = w.1 := by intro w; simp [padRight, w.2]
  cases hv : valueType t with
  | true =>
    have hl := length_enc_value tok t hv ht (hc hv)
    have hcv : convertTopicParamType t = t := by cases t <;> simp_all [valueType, convertTopicParamType]
    have hd : dynamic t = false := by cases t <;> simp_all [valueType, dynamic]
    have hcf : countsFit tok = true := by cases t <;> cases tok <;> simp_all [valueType, hasType, countsFit]
    simp only [if_true, hcv, topicOf, hv]
    exact ⟨ht, hc hv, hcf, hd, trivial, hl⟩
  | false =>
    have hcv : convertTopicParamType t = .fixedBytes 32 := by cases t <;> simp_all [valueType, convertTopicParamType]
    simp only [hcv, topicOf, hv, Bool.false_eq_true, if_false]
    refine ⟨?_, by decide, rfl, rfl, ?_, ?_⟩
    · simpa [hasType] using (hash (topicPreimage tok t)).2
    · simpa [enc] using e1 _
    · exact (hash (topicPreimage tok t)).2

end Ethabi

import Verif.Proofs.Errors
import Verif.Proofs.RefusedText
import Verif.Proofs.LoadErrors
import Verif.Spec.EmptyLog
import Verif.Props.LogsExact
import Verif.Props.TokenText
import Verif.Props.Sizes
/-!
# C93: which error is returned

C20, C30, C38 and C74 give the errors of `encode_input`, the lookups, `filter` and `decode`; here are those of the tokenizers,
the reader of types, `parse_log` and loading.
-/
namespace Ethabi.Props
open Spec Logs

/-- **C93**, tokenizers: every text that is refused is refused for the reason that `Spec/Errors.lean` gives. -/
theorem C93_tokenizers (m : Tokenizer) (p : ParamType) (s : Str) (e : Err) : tokenize m p s = .err e ↔ fails m p s e :=
  Errors.tokenize_err m p s e

/-- **C93**, types without tuples: `ParseInt` for the last suffix that holds something that is no number, or if the name
in front of the suffixes is `int`, `uint` or `bytes` with something that is no number; `InvalidName` with that name
otherwise. -/
theorem C93_type_texts (s : Str) (ha : s.all (fun c => decide (c.toNat < 128)) = true) (hp : ')' ∉ s) (e : Err) :
    read s = .err e ↔ Refused s e := by
  have ha' : ascii s := by
    intro c hc
    have := List.all_eq_true.1 ha c hc
    simpa using this
  exact ⟨RefusedText.read_refused _ s e rfl ha' hp, fun h => RefusedText.refused_read h ha'⟩

/-- **C93**, all type texts: the name in `InvalidName` is a part of the text. -/
theorem C93_name_in_text (s n : Str) (h : read s = .err (.invalidName n)) : n <:+: s := RefusedText.within_read s n h

private theorem topicType_zero (t : ParamType) (h : topicType t = .fixedBytes 0) : t = .fixedBytes 0 := by
  cases t <;> simp [topicType, valueType] at h ⊢
  exact h

private theorem topicType_array (t u : ParamType) : topicType t ≠ .fixedArray u 0 := by
  cases t <;> simp [topicType, valueType]

/-- **C93**, logs: the error is that for empty data exactly if there is nothing to read, and `InvalidData` in all other
cases in which neither a value is returned nor the decoder overruns. -/
theorem C93_logs (hash : Bytes → Word) (prof : Profile) (e : Event) (log : RawLog) (err : Err)
    (hn : ∀ p ∈ e.inputs, narrow p.kind = true) (ht : log.topics.length < 2 ^ 58) (hd : log.data.length < 2 ^ 63) :
    let kinds := e.inputs.map (·.kind)
    let topics := log.topics.map (·.1)
    let ts := (e.inputs.filter (·.indexed)).map (·.kind)
    let ds := (e.inputs.filter (!·.indexed)).map (·.kind)
    let nothing := nothingToRead hash e.name kinds e.anonymous topics log.data ts ds
    e.parseLog hash prof log = .err err ↔
      (nothing ∧ err = .invalidName emptyDataMsg) ∨
      (¬ nothing ∧ err = .invalidData ∧ ∀ tt, topicsHold hash e.name kinds e.anonymous topics ts tt →
        (∀ dt, ¬ dataHold log.data ds dt) ∧ ¬ overrunsAny ds log.data 0) := by
  intro kinds topics ts ds nothing
  have hnd : narrowAll ((e.inputs.filter (!·.indexed)).map (·.kind)) = true := by
    rw [narrowAll_iff]
    intro t ht
    obtain ⟨p, hp, rfl⟩ := List.mem_map.1 ht
    exact hn p (List.mem_filter.1 hp).1
  have hda : ∀ x, decode prof ((e.inputs.filter (·.indexed == false)).map (·.kind)) log.data = x ↔ decode prof ds log.data = x := by
    intro x
    show _ ↔ decode prof ((e.inputs.filter (!·.indexed)).map (·.kind)) log.data = x
    rw [filter_false]
  have hdata := fun dt => C74_decodes_exactly prof ds log.data dt hnd hd
  have herr := fun x => C74_errors_exactly prof ds log.data x hnd hd
  have hpan := C06_panics_exactly prof ds log.data hnd hd
  rw [parseLog_eq]
  rcases checkSignature_cases hash e log.topics with ⟨hs, hk, -⟩ | ⟨hs, hk⟩
  · rw [hk, Res.ok_bind]
    have htop := fun tt => topics_iff hash prof e log.topics tt hn ht hs
    have hct : ((e.inputs.filter (·.indexed == true)).map fun p => convertTopicParamType p.kind) = ts.map topicType := by
      show _ = ((e.inputs.filter (·.indexed)).map (·.kind)).map topicType
      rw [filter_true, List.map_map]
      apply List.map_congr_left
      intro p _; exact convertTopicParamType_eq _
    have hnt : narrowAll (ts.map topicType) = true := by
      rw [narrowAll_iff]
      intro t ht
      obtain ⟨u, hu, rfl⟩ := List.mem_map.1 ht
      obtain ⟨p, hp, rfl⟩ := List.mem_map.1 hu
      exact narrow_topicType (hn p (List.mem_filter.1 hp).1)
    have hflat : ((log.topics.drop (skipped e)).flatMap (·.1)).length < 2 ^ 63 := by
      rw [length_flat, List.length_drop]; omega
    have harg : (log.topics.drop (skipped e)).map (·.1) = argumentTopics e.anonymous topics := by
      show _ = argumentTopics e.anonymous (log.topics.map (·.1))
      unfold argumentTopics skipped
      cases e.anonymous <;> simp
    have hempty : (log.topics.drop (skipped e)).flatMap (·.1) = [] ↔ argumentTopics e.anonymous topics = [] := by
      rw [← harg, List.map_eq_nil_iff]
      constructor
      · intro h
        have := congrArg List.length h
        rw [length_flat] at this
        exact List.eq_nil_of_length_eq_zero (by simpa using this)
      · intro h; rw [h]; rfl
    have hzero : ¬ zeroTypes (ts.map topicType) ↔ ∃ t ∈ ts, t ≠ .fixedBytes 0 := by
      unfold zeroTypes
      simp only [List.mem_map, forall_exists_index, and_imp, forall_apply_eq_imp_iff₂, not_forall]
      constructor
      · rintro ⟨t, ht, h⟩
        exact ⟨t, ht, fun h' => h (Or.inl (by rw [h']; rfl))⟩
      · rintro ⟨t, ht, h⟩
        refine ⟨t, ht, ?_⟩
        rintro (h' | ⟨u, h'⟩)
        · exact h (topicType_zero t h')
        · exact topicType_array t u h'
    have hterr := fun x => C74_errors_exactly prof _ _ x hnt hflat
    have hnothing : nothing ↔ ((argumentTopics e.anonymous topics = [] ∧ ∃ t ∈ ts, t ≠ .fixedBytes 0) ∨
        ((∃ tt, topicsHold hash e.name kinds e.anonymous topics ts tt) ∧ log.data = [] ∧ ¬ zeroTypes ds)) :=
      and_iff_right hs
    rw [Errors.bind_eq_err]
    cases hdec : decode prof ((e.inputs.filter (·.indexed == true)).map fun p => convertTopicParamType p.kind)
        ((log.topics.drop (skipped e)).flatMap (·.1)) with
    | panic =>
      exfalso
      rw [hct] at hdec
      exact no_overrunAny _ _ 0 ((C06_panics_exactly prof _ _ hnt hflat).1 hdec)
    | err x =>
      have hno : ¬ ∃ tt, topicsHold hash e.name kinds e.anonymous topics ts tt := by
        rintro ⟨tt, h⟩
        rw [((htop tt).2 h).1] at hdec; cases hdec
      rw [hct, hterr, hempty, hzero] at hdec
      rw [hnothing]
      simp only [hno, false_and, or_false, Res.err.injEq, reduceCtorEq, false_and, exists_const]
      constructor
      · rintro rfl
        rcases hdec with ⟨h1, h2, h3⟩ | ⟨h1, h2, -⟩
        · exact Or.inl ⟨⟨h1, h2⟩, h3⟩
        · refine Or.inr ⟨?_, h2, fun tt h => absurd ⟨tt, h⟩ hno⟩
          rintro ⟨h3, h4⟩
          rw [ne_eq, hempty] at h1
          exact h1.elim (fun h => h h3) (fun h => absurd h (hzero.2 h4))
      · rintro (⟨⟨h1, h2⟩, rfl⟩ | ⟨h1, rfl, -⟩)
        · rcases hdec with ⟨-, -, h3⟩ | ⟨h3, -, -⟩
          · exact h3
          · rw [ne_eq, hempty] at h3
            exact (h3.elim (fun h => h h1) (fun h => absurd h (hzero.2 h2))).elim
        · rcases hdec with ⟨h2, h3, -⟩ | ⟨-, h3, -⟩
          · exact absurd ⟨h2, h3⟩ h1
          · exact h3
    | ok tt =>
      have hnt' : ¬ (argumentTopics e.anonymous topics = [] ∧ ∃ t ∈ ts, t ≠ .fixedBytes 0) := by
        rintro ⟨h1, h2⟩
        rw [hct, (hterr (.invalidName emptyDataMsg)).2 (Or.inl ⟨hempty.2 h1, hzero.2 h2, rfl⟩)] at hdec
        cases hdec
      simp only [reduceCtorEq, false_or, Res.ok.injEq, exists_eq_left']
      by_cases hlen : tt.length = log.topics.length - skipped e
      · have hh := (htop tt).1 ⟨hdec, hlen⟩
        have hu : ∀ tt', topicsHold hash e.name kinds e.anonymous topics ts tt' → tt' = tt := by
          intro tt' h
          have := ((htop tt').2 h).1
          rw [hdec] at this
          exact (Res.ok.inj this).symm
        rw [hnothing]
        simp only [hnt', false_or]
        have hex : ∃ tt, topicsHold hash e.name kinds e.anonymous topics ts tt := ⟨tt, hh⟩
        rw [if_neg (by simp [hlen]), Errors.bind_eq_err, hda, herr]
        simp only [hex, true_and]
        have hparams : ¬ ∃ a, decode prof ((e.inputs.filter (·.indexed == false)).map (·.kind)) log.data = .ok a ∧
            (do let params ← logParams (namedPairs e.inputs tt a) (e.inputs.map (·.name))
                .ok { params := params } : Res Log) = .err err := by
          rintro ⟨a, ha, h⟩
          obtain ⟨ps, hps⟩ := namedPairs_noPanic e.inputs tt a (by simpa using decode_length hdec) (by simpa using decode_length ha)
          rw [hps] at h; cases h
        rw [or_iff_left hparams]
        have hd1 : (log.data ≠ [] ∨ zeroTypes ds) ↔ ¬ (log.data = [] ∧ ¬ zeroTypes ds) := by
          rw [not_and_or, not_not]
        rw [← and_assoc, hd1]
        refine or_congr Iff.rfl (and_congr_right fun h0 => and_congr_right fun _ => ?_)
        constructor
        · rintro ⟨h1, h2⟩ tt' _
          exact ⟨fun dt h => h1 dt h.2, h2⟩
        · intro h
          obtain ⟨h1, h2⟩ := h tt hh
          exact ⟨fun dt h => h1 dt ⟨hd1.2 h0, h⟩, h2⟩
      · have hno : ¬ ∃ tt, topicsHold hash e.name kinds e.anonymous topics ts tt := by
          rintro ⟨tt', h⟩
          obtain ⟨h1, h2⟩ := (htop tt').2 h
          rw [hdec] at h1
          cases h1
          exact hlen h2
        rw [hnothing, if_pos hlen]
        simp only [hnt', hno, false_and, or_false, not_false_iff, true_and, false_or, Res.err.injEq]
        constructor
        · rintro rfl; exact ⟨rfl, fun tt h => absurd ⟨tt, h⟩ hno⟩
        · rintro ⟨rfl, -⟩; rfl
  · rw [hk]
    have h0 : ¬ nothing := fun h => hs h.1
    simp only [h0, false_and, not_false_iff, true_and, false_or]
    constructor
    · intro h
      cases h
      exact ⟨rfl, fun tt h => absurd h.1 hs⟩
    · rintro ⟨rfl, -⟩; rfl

/-- **C93**, loading: every error is a serialization error. -/
theorem C93_loading (j : Json) (e : Err) :
    (deContract j = .err e → e = .serdeJson) ∧ (∀ mode, deParam mode j = .err e → e = .serdeJson) ∧
    (∀ mode, deEventParam mode j = .err e → e = .serdeJson) ∧ (∀ mode, deTupleParam mode j = .err e → e = .serdeJson) :=
  ⟨LoadErrors.contract j e, fun m => LoadErrors.param m j e, fun m => LoadErrors.eventParam m j e,
    fun m => LoadErrors.tupleParam m j e⟩

/-- one text for each error: odd digits, a wrong length, an unknown word, a number out of range, a second part that is
refused, brackets that do not match, a part too many -/
example :
    fails .strict .bytes (lit "abc") .hex ∧ fails .strict (.uint 8) (lit "0a") .invalidData ∧
    fails .lenient .bool (lit "yes") .invalidData ∧ fails .lenient (.uint 8) (lit "-1") .other ∧
    fails .strict (.array .address) (lit "[0000000000000000000000000000000000000000,zz]") .hex ∧
    fails .lenient (.array .bool) (lit "[1]]]") .invalidData ∧ fails .lenient (.tuple [.bool]) (lit "(1,1)") .invalidData := by
  refine ⟨?_, ?_, ?_, ?_, ?_, ?_, ?_⟩ <;> (rw [← C93_tokenizers]; decide +kernel)

/-- … and for type texts -/
example : Refused (lit "bool[x][]") .parseInt ∧ Refused (lit "uint8x") .parseInt ∧
    Refused (lit "boool[2]") (.invalidName (lit "boool")) := by
  have h : ∀ s e, (s.all (fun c => decide (c.toNat < 128)) = true ∧ ')' ∉ s) ∧ read s = .err e → Refused s e :=
    fun s e h => (C93_type_texts s h.1.1 h.1.2 e).1 h.2
  exact ⟨h _ _ (by decide +kernel), h _ _ (by decide +kernel), h _ _ (by decide +kernel)⟩

/-- a log without topics and one without data have nothing to read; one with half a word has -/
example :
    let e : Event := { name := lit "E", inputs := [⟨lit "a", .bool, true⟩, ⟨lit "b", .bool, false⟩], anonymous := true }
    (∀ p ∈ e.inputs, narrow p.kind = true) ∧
    e.parseLog constHash .debug { topics := [], data := word 1 } = .err (.invalidName emptyDataMsg) ∧
    e.parseLog constHash .debug { topics := [⟨word 1, by decide⟩], data := [] } = .err (.invalidName emptyDataMsg) ∧
    e.parseLog constHash .debug { topics := [⟨word 1, by decide⟩], data := [0, 1] } = .err .invalidData := by
  decide +kernel

/-- a document that is no list of entries is a serialization error -/
example : deContract (.obj []) = .err .serdeJson := by decide +kernel

end Ethabi.Props

import Verif.Proofs.EventEmit
/-!
# Properties of log parsing: C33-C36
-/
namespace Ethabi.Props
open Spec

/-! ## C33 emitted logs parse back -/

/-- **C33.** Parsing the log emitted for `ps` (topics and data as specified in Spec/Event.lean) returns every
parameter in declaration order: its value, or its 32-byte topic when it is indexed and not of a value type. -/
theorem C33_parse_emitted (hash : Bytes → Word) (prof : Profile) (e : Event) (ps : List Emitted) (log : RawLog)
    (hin : e.inputs = ps.map fun p => { name := p.name, kind := p.kind, indexed := p.indexed })
    (hn : (ps.map (·.name)).Nodup)
    (ht : ∀ p ∈ ps, hasType p.value p.kind = true) (hs : ∀ p ∈ ps, solidity p.kind = true)
    (hlt : log.topics.map (·.1) = emitTopics hash e.name e.anonymous ps) (hld : log.data = emitData ps)
    (hk : log.topics.length < 2 ^ 27) (hb : log.data.length < 2 ^ 32) :
    e.parseLog hash prof log = .ok { params := ps.map fun p => { name := p.name, value := recoverable hash p } } := by
  have hin' : e.inputs = ps.map Emitted.param := hin
  have hnames : e.inputs.map (·.name) = ps.map (·.name) := by rw [hin, List.map_map]; rfl
  rw [parseLog_distinct hash prof e log (by rw [hnames]; exact hn)]
  have hti : ∀ b, e.inputs.filter (·.indexed == b) = (ps.filter fun p => p.indexed == b).map Emitted.param := by
    intro b; rw [hin', filter_indexed]
  have hft : (fun p : Emitted => p.indexed) = fun p => p.indexed == true := by funext p; cases p.indexed <;> rfl
  have hff : (fun p : Emitted => !p.indexed) = fun p => p.indexed == false := by funext p; cases p.indexed <;> rfl
  unfold emitTopics at hlt
  rw [hft] at hlt
  -- signature
  obtain ⟨k, hck, hdrop, hlen⟩ : ∃ k, e.checkSignature hash log.topics = .ok k ∧
      (log.topics.drop k).map (·.1) = (ps.filter (·.indexed == true)).map (fun p => topicOf hash p.value p.kind) ∧
      log.topics.length - k = (ps.filter (·.indexed == true)).length := by
    cases ha : e.anonymous with
    | true =>
      rw [ha, if_pos rfl, List.nil_append] at hlt
      refine ⟨0, by rw [Event.checkSignature, ha, if_pos rfl], by rw [List.drop_zero]; exact hlt, ?_⟩
      have := congrArg List.length hlt
      simpa using this
    | false =>
      rw [ha, if_neg (by simp)] at hlt
      cases htop : log.topics with
      | nil => rw [htop] at hlt; simp at hlt
      | cons t topics =>
        rw [htop] at hlt
        simp only [List.map_cons, List.cons_append, List.nil_append, List.cons.injEq] at hlt
        have hsig : t = e.signature hash := by
          apply Subtype.ext
          rw [hlt.1, signature_eventTopic, Event.paramTypes, hin, List.map_map]; rfl
        refine ⟨1, ?_, by simpa using hlt.2, ?_⟩
        · rw [Event.checkSignature, ha, if_neg (by simp)]; simp [hsig]
        · have := congrArg List.length hlt.2
          simpa using this
  rw [hck, Res.ok_bind, hti, hti]
  -- topics
  have hk' : (ps.filter (·.indexed == true)).length < 2 ^ 27 := by omega
  have hflat : (log.topics.drop k).flatMap (·.1) =
      (ps.filter (·.indexed == true)).flatMap fun p => topicOf hash p.value p.kind := by
    rw [flatMap_words, hdrop, List.flatMap_def]
  have hdt := decode_topics hash prof (ps.filter (·.indexed == true)) (by intro p hp; simpa using (List.mem_filter.1 hp).2)
    (fun p hp => ⟨ht p (List.mem_filter.1 hp).1, fun _ => solidity_codable _ (hs p (List.mem_filter.1 hp).1)⟩) hk'
  rw [hflat, List.map_map]
  have hdt' : decode prof ((ps.filter (·.indexed == true)).map ((fun p => convertTopicParamType p.kind) ∘ Emitted.param))
      ((ps.filter (·.indexed == true)).flatMap fun p => topicOf hash p.value p.kind) = _ := hdt
  rw [hdt', Res.ok_bind, if_neg (by simp [hlen])]
  -- data
  have hdd : decode prof ((ps.filter (·.indexed == false)).map ((·.kind) ∘ Emitted.param)) log.data
      = .ok ((ps.filter (·.indexed == false)).map (·.value)) := by
    rw [hld] at hb ⊢
    unfold emitData at hb ⊢
    rw [hff] at hb ⊢
    have h1 := haveTypes_map (ps.filter (·.indexed == false)) (fun p hp => ht p (List.mem_filter.1 hp).1)
    have h2 := solidityAll_map (ps.filter (·.indexed == false)) (fun p hp => hs p (List.mem_filter.1 hp).1)
    have := decode_encodeArgs prof _ _ [] h1 (bytesOkAll_of_codable _ (solidity_codableAll _ h2))
      (solidity_countsFitZip _ _ h1 h2 hb) hb (by rw [List.append_nil]; omega) ?_
    · rw [List.append_nil] at this; exact this
    · cases hc : ps.filter (·.indexed == false) with
      | nil => right; intro t ht; cases ht
      | cons p qs => left; rw [hc] at h2; exact solidity_nonzeroAny _ rfl h2
  rw [List.map_map, hdd, Res.ok_bind, hin', positional_emitted]
  congr 2
  rw [List.map_map]
  clear hn ht hs hlt hld hdrop hflat hdt hdt' hdd hk hk' hlen hnames hti hin hin'
  induction ps with
  | nil => rfl
  | cons p ps ih => simp only [List.map_cons, List.zip_cons_cons, ih, Function.comp_apply]; rfl

/-- a constant function in place of Keccak-256, for examples -/
def constHash : Bytes → Word := fun _ => ⟨List.replicate 32 7, by decide⟩

/-- `event foo(int256 a, int256 indexed b, string c, string indexed d, address[2] indexed e)` with values -/
def sampleEmitted : List Emitted :=
  [⟨lit "a", .int 256, false, .int 3⟩, ⟨lit "b", .int 256, true, .int 2⟩, ⟨lit "c", .string, false, .string (lit "x")⟩,
   ⟨lit "d", .string, true, .string (lit "yz")⟩, ⟨lit "e", .fixedArray .bool 2, true, .fixedArray [.bool true, .bool false]⟩]

def sampleEvent : Event :=
  { name := lit "foo", inputs := sampleEmitted.map fun p => ⟨p.name, p.kind, p.indexed⟩, anonymous := false }

def sampleLog : RawLog :=
  { topics := [constHash [], ⟨word 2, by decide⟩, constHash [], constHash []], data := emitData sampleEmitted }

example : (sampleEmitted.map (·.name)).Nodup ∧ (∀ p ∈ sampleEmitted, hasType p.value p.kind = true) ∧
    (∀ p ∈ sampleEmitted, solidity p.kind = true) ∧
    sampleLog.topics.map (·.1) = emitTopics constHash sampleEvent.name sampleEvent.anonymous sampleEmitted ∧
    sampleLog.topics.length < 2 ^ 27 ∧ sampleLog.data.length < 2 ^ 32 := by decide +kernel

example (prof : Profile) : sampleEvent.parseLog constHash prof sampleLog = .ok { params :=
    [⟨lit "a", .int 3⟩, ⟨lit "b", .int 2⟩, ⟨lit "c", .string (lit "x")⟩, ⟨lit "d", .fixedBytes (List.replicate 32 7)⟩,
     ⟨lit "e", .fixedBytes (List.replicate 32 7)⟩] } := by cases prof <;> decide +kernel

/-! ## C34 wrong signature or topic count -/

/-- **C34**, signature: unless the first topic is the hash of `name(types)` a non-anonymous event refuses the log. -/
theorem C34_wrong_signature (hash : Bytes → Word) (prof : Profile) (e : Event) (log : RawLog)
    (ha : e.anonymous = false)
    (h : (log.topics.map (·.1)).head? ≠ some (eventTopic hash e.name (e.inputs.map (·.kind)))) :
    e.parseLog hash prof log = .err .invalidData := by
  have : e.checkSignature hash log.topics = .err .invalidData := by
    rw [Event.checkSignature, ha, if_neg (by simp)]
    cases htop : log.topics with
    | nil => rfl
    | cons t ts =>
      simp only [List.getElem?_cons_zero]
      rw [if_pos]
      rintro rfl
      apply h
      rw [htop, List.map_cons, List.head?_cons, signature_eventTopic]; rfl
  rw [parseLog_eq, this]; rfl

/-- **C34**, count: a log is only accepted with exactly one topic per indexed parameter (after the signature). -/
theorem C34_topic_count (hash : Bytes → Word) (prof : Profile) (e : Event) (log : RawLog) (l : Log)
    (h : e.parseLog hash prof log = .ok l) :
    log.topics.length = (if e.anonymous then 0 else 1) + (e.inputs.filter (·.indexed)).length := by
  rw [parseLog_eq] at h
  simp only [Res.bind_eq_ok] at h
  obtain ⟨k, hk, tt, htt, h⟩ := h
  have hl := decode_length htt
  have hf : (fun p : EventParam => p.indexed) = fun p => p.indexed == true := by funext p; cases p.indexed <;> rfl
  rw [hf]
  split at h
  · cases h
  · rename_i hc
    rw [ne_eq, not_not] at hc
    rw [List.length_map] at hl
    rcases checkSignature_ok hk with ⟨ha, rfl⟩ | ⟨ha, rfl, hh⟩
    · rw [ha, if_pos rfl]; omega
    · rw [ha, if_neg (by simp)]
      have : 1 ≤ log.topics.length := by
        cases htop : log.topics with
        | nil => rw [htop] at hh; cases hh
        | cons t ts => simp
      omega

/-- ... and the refusal is an `Err`, not a panic (`bytesN` with `N < 2^62`, fewer than 2^58 topics). -/
theorem C34_wrong_count_is_error (hash : Bytes → Word) (prof : Profile) (e : Event) (log : RawLog)
    (hw : ∀ p ∈ e.inputs, ∀ n, p.kind = .fixedBytes n → n < 2 ^ 62) (hlen : log.topics.length < 2 ^ 58)
    (h : log.topics.length ≠ (if e.anonymous then 0 else 1) + (e.inputs.filter (·.indexed)).length) :
    ∃ err, e.parseLog hash prof log = .err err := by
  cases hr : e.parseLog hash prof log with
  | ok l => exact absurd (C34_topic_count hash prof e log l hr) h
  | err x => exact ⟨x, rfl⟩
  | panic =>
    exfalso
    rw [parseLog_eq] at hr
    revert hr
    refine noPanic_bind (checkSignature_noPanic _ _ _) ?_
    intro k hk
    refine noPanic_bind ?_ ?_
    · have hsafe : noDynFixedArrayAll ((e.inputs.filter (·.indexed == true)).map fun p => convertTopicParamType p.kind) = true := by
        generalize hq : e.inputs.filter (·.indexed == true) = qs
        have hw' : ∀ p ∈ qs, ∀ n, p.kind = .fixedBytes n → n < 2 ^ 62 := by
          intro p hp; rw [← hq] at hp; exact hw p (List.mem_filter.1 hp).1
        clear hq
        induction qs with
        | nil => rfl
        | cons p qs ih =>
          simp only [List.map_cons, noDynFixedArrayAll, Bool.and_eq_true]
          refine ⟨?_, ih (fun q hq => hw' q (List.mem_cons_of_mem _ hq))⟩
          have := hw' p (by simp)
          cases hp : p.kind <;> simp_all [convertTopicParamType, noDynFixedArray]
      have hbytes : ((log.topics.drop k).flatMap (·.1)).length < 2 ^ 63 := by
        have : ∀ ws : List Word, (ws.flatMap (·.1)).length = 32 * ws.length := by
          intro ws
          induction ws with
          | nil => rfl
          | cons w ws ih => rw [List.flatMap_cons, List.length_append, ih, w.2, List.length_cons]; omega
        rw [this, List.length_drop]; omega
      rw [decode]
      split
      · simp
      · apply noPanic_bind (decodeParams_safe prof _ _ 0 hsafe hbytes (by omega)).1
        intro a _; simp
    · intro tt htt
      split
      · simp
      · rename_i hc
        exfalso
        apply h
        have hl := decode_length htt
        rw [ne_eq, not_not] at hc
        rw [List.length_map] at hl
        have hf : (fun p : EventParam => p.indexed) = fun p => p.indexed == true := by funext p; cases p.indexed <;> rfl
        rw [hf]
        rcases checkSignature_ok hk with ⟨ha, rfl⟩ | ⟨ha, rfl, hh⟩
        · rw [ha, if_pos rfl]; omega
        · rw [ha, if_neg (by simp)]
          have : 1 ≤ log.topics.length := by
            cases htop : log.topics with
            | nil => rw [htop] at hh; cases hh
            | cons t ts => simp
          omega

/-- a wrong first topic, a missing topic and an extra topic -/
example : (∃ p ∈ sampleEvent.inputs, p.indexed = true) ∧
    (([⟨word 1, by decide⟩] : List Word).map (·.1)).head? ≠
      some (eventTopic constHash sampleEvent.name (sampleEvent.inputs.map (·.kind))) ∧
    sampleEvent.parseLog constHash .debug { sampleLog with topics := sampleLog.topics.take 3 } = .err .invalidData ∧
    sampleEvent.parseLog constHash .debug { sampleLog with topics := sampleLog.topics ++ [constHash []] } = .err .invalidData := by
  decide +kernel

/-! ## C35 declaration order -/

/-- **C35**: one entry per declared parameter, in order, with the declared name. -/
theorem C35_declaration_order (hash : Bytes → Word) (prof : Profile) (e : Event) (log : RawLog) (l : Log)
    (h : e.parseLog hash prof log = .ok l) : l.params.map (·.name) = e.inputs.map (·.name) := by
  rw [parseLog_eq] at h
  simp only [Res.bind_eq_ok] at h
  obtain ⟨k, hk, tt, htt, h⟩ := h
  split at h
  · cases h
  · simp only [Res.bind_eq_ok, Res.ok.injEq] at h
    obtain ⟨dt, -, ps, hps, rfl⟩ := h
    exact logParams_names hps

/-- **C35**: `parse_log` panics only where decoding the topics or the data panics. -/
theorem C35_no_panic (hash : Bytes → Word) (prof : Profile) (e : Event) (log : RawLog)
    (ht : decode prof ((e.inputs.filter (·.indexed)).map fun p => topicType p.kind)
      ((log.topics.drop (if e.anonymous then 0 else 1)).flatMap (·.1)) ≠ .panic)
    (hd : decode prof ((e.inputs.filter (!·.indexed)).map (·.kind)) log.data ≠ .panic) :
    e.parseLog hash prof log ≠ .panic := by
  have hft : (fun p : EventParam => p.indexed) = fun p => p.indexed == true := by funext p; cases p.indexed <;> rfl
  have hff : (fun p : EventParam => !p.indexed) = fun p => p.indexed == false := by funext p; cases p.indexed <;> rfl
  have hct : (fun p : EventParam => topicType p.kind) = fun p => convertTopicParamType p.kind := by
    funext p; exact (convertTopicParamType_eq _).symm
  rw [hft, hct] at ht
  rw [hff] at hd
  rw [parseLog_eq]
  refine noPanic_bind (checkSignature_noPanic _ _ _) ?_
  intro k hk
  have hke : k = if e.anonymous then 0 else 1 := by
    rcases checkSignature_ok hk with ⟨ha, rfl⟩ | ⟨ha, rfl, -⟩ <;> simp [ha]
  refine noPanic_bind (by rw [hke]; exact ht) ?_
  intro tt htt
  split
  · simp
  · refine noPanic_bind hd ?_
    intro dt hdt
    obtain ⟨ps, hps⟩ := namedPairs_noPanic e.inputs tt dt (by simpa using decode_length htt) (by simpa using decode_length hdt)
    rw [hps]; simp

/-- duplicate names included -/
def dupEvent : Event :=
  { name := lit "E", inputs := [⟨[], .bool, false⟩, ⟨[], .uint 8, false⟩], anonymous := true }

example (prof : Profile) : ∃ l, dupEvent.parseLog constHash prof { topics := [], data := word 1 ++ word 9 } = .ok l ∧
    l.params.length = 2 := by
  refine ⟨{ params := [⟨[], .uint 9⟩, ⟨[], .uint 9⟩] }, ?_, rfl⟩
  cases prof <;> decide +kernel

/-! ## C36 independence of names -/

/-- **C36**, for events whose parameter names are distinct: the reported values are those decoded by position. -/
theorem C36_positional_partial (hash : Bytes → Word) (prof : Profile) (e : Event) (log : RawLog) (l : Log)
    (hn : (e.inputs.map (·.name)).Nodup) (h : e.parseLog hash prof log = .ok l) :
    ∃ tt dt, decode prof ((e.inputs.filter (·.indexed)).map fun p => topicType p.kind)
        ((log.topics.drop (if e.anonymous then 0 else 1)).flatMap (·.1)) = .ok tt ∧
      decode prof ((e.inputs.filter (!·.indexed)).map (·.kind)) log.data = .ok dt ∧
      l.params.map (·.value) = interleave (e.inputs.map (·.indexed)) tt dt := by
  have hft : (fun p : EventParam => p.indexed) = fun p => p.indexed == true := by funext p; cases p.indexed <;> rfl
  have hff : (fun p : EventParam => !p.indexed) = fun p => p.indexed == false := by funext p; cases p.indexed <;> rfl
  have hct : (fun p : EventParam => topicType p.kind) = fun p => convertTopicParamType p.kind := by
    funext p; exact (convertTopicParamType_eq _).symm
  rw [parseLog_distinct hash prof e log hn] at h
  simp only [Res.bind_eq_ok] at h
  obtain ⟨k, hk, tt, htt, h⟩ := h
  have hke : k = if e.anonymous then 0 else 1 := by
    rcases checkSignature_ok hk with ⟨ha, rfl⟩ | ⟨ha, rfl, -⟩ <;> simp [ha]
  split at h
  · cases h
  · simp only [Res.bind_eq_ok, Res.ok.injEq] at h
    obtain ⟨dt, hdt, rfl⟩ := h
    refine ⟨tt, dt, by rw [hft, hct, ← hke]; exact htt, by rw [hff]; exact hdt, ?_⟩
    rw [← positional_eq, List.map_map]
    have := length_positional e.inputs tt dt (by simpa using decode_length htt) (by simpa using decode_length hdt)
    exact List.map_snd_zip (by simp [this])

/-- **C36**, for distinct names: renaming the parameters does not change the values (or the error). -/
theorem C36_renaming_partial (hash : Bytes → Word) (prof : Profile) (e : Event) (names : List Str) (log : RawLog)
    (hl : names.length = e.inputs.length) (hn : (e.inputs.map (·.name)).Nodup) (hn' : names.Nodup) :
    let e' : Event := { e with inputs := e.inputs.zipWith (fun p n => { p with name := n }) names }
    (do let l ← e'.parseLog hash prof log; .ok (l.params.map (·.value))) =
      (do let l ← e.parseLog hash prof log; .ok (l.params.map (·.value)) : Res (List Token)) := by
  intro e'
  have hnames : e'.inputs.map (·.name) = names := by
    show (e.inputs.zipWith _ names).map _ = _
    revert hl
    generalize e.inputs = ps
    clear hn hn'
    induction ps generalizing names with
    | nil => intro hl; cases names with
      | nil => rfl
      | cons _ _ => cases hl
    | cons p ps ih => intro hl; cases names with
      | nil => cases hl
      | cons n ns => simp only [List.zipWith_cons_cons, List.map_cons, ih ns (by simpa using hl)]
  have hmap : e'.inputs.map (fun p => (p.kind, p.indexed)) = e.inputs.map fun p => (p.kind, p.indexed) := by
    show (e.inputs.zipWith _ names).map _ = _
    revert hl
    generalize e.inputs = ps
    clear hn hn' hnames
    induction ps generalizing names with
    | nil => intro hl; cases names with
      | nil => rfl
      | cons _ _ => cases hl
    | cons p ps ih => intro hl; cases names with
      | nil => cases hl
      | cons n ns => simp only [List.zipWith_cons_cons, List.map_cons, ih ns (by simpa using hl)]
  have hkinds : e'.paramTypes = e.paramTypes := by
    have := congrArg (List.map Prod.fst) hmap
    rw [List.map_map, List.map_map] at this; exact this
  have hidx : e'.inputs.map (·.indexed) = e.inputs.map (·.indexed) := by
    have := congrArg (List.map Prod.snd) hmap
    rw [List.map_map, List.map_map] at this; exact this
  have hfilter : ∀ {β : Type} (b : Bool) (f : ParamType → β), (e'.inputs.filter (·.indexed == b)).map (fun p => f p.kind) =
      (e.inputs.filter (·.indexed == b)).map fun p => f p.kind := by
    intro β b f
    have := congrArg (fun l => (l.filter fun q : ParamType × Bool => q.2 == b).map fun q => f q.1) hmap
    simp only [List.filter_map, List.map_map] at this
    exact this
  have hf2 : (e'.inputs.filter (·.indexed == false)).map (·.kind) = (e.inputs.filter (·.indexed == false)).map (·.kind) :=
    hfilter false id
  have hsig : e'.checkSignature hash log.topics = e.checkSignature hash log.topics := by
    unfold Event.checkSignature Event.signature
    rw [hkinds]
  rw [parseLog_distinct hash prof e log hn, parseLog_distinct hash prof e' log (by rw [hnames]; exact hn'), hsig,
    hfilter true convertTopicParamType, hf2]
  cases e.checkSignature hash log.topics with
  | err _ => rfl
  | panic => rfl
  | ok k =>
    simp only [Res.ok_bind]
    cases htt : decode prof ((e.inputs.filter (·.indexed == true)).map fun p => convertTopicParamType p.kind)
        ((log.topics.drop k).flatMap (·.1)) with
    | err _ => rfl
    | panic => rfl
    | ok tt =>
      simp only [Res.ok_bind]
      split
      · rfl
      · cases hdt : decode prof ((e.inputs.filter (·.indexed == false)).map (·.kind)) log.data with
        | err _ => rfl
        | panic => rfl
        | ok dt =>
          simp only [Res.ok_bind]
          congr 1
          have hlp := length_positional e.inputs tt dt (by simpa using decode_length htt) (by simpa using decode_length hdt)
          rw [List.map_map, List.map_map]
          have hp' : positional e'.inputs tt dt = positional e.inputs tt dt := by
            rw [positional_eq, positional_eq, hidx]
          rw [hp']
          have hl' : e'.inputs.length = e.inputs.length := by
            have := congrArg List.length hidx; simpa using this
          exact (List.map_snd_zip (by simp [hlp, hl'])).trans (List.map_snd_zip (by simp [hlp])).symm

example : (sampleEvent.inputs.map (·.name)).Nodup ∧ ([lit "v", lit "w", lit "x", lit "y", lit "z"] : List Str).Nodup := by
  decide +kernel

/-- **C36 is false in general**: of two unnamed parameters (allowed in Solidity) both report the last value. -/
theorem C36_counterexample_unnamed (prof : Profile) :
    dupEvent.parseLog constHash prof { topics := [], data := word 1 ++ word 9 } =
      .ok { params := [⟨[], .uint 9⟩, ⟨[], .uint 9⟩] } ∧
    decode prof [.bool, .uint 8] (word 1 ++ word 9) = .ok [.bool true, .uint 9] := by
  cases prof <;> decide +kernel

end Ethabi.Props

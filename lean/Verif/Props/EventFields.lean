import Verif.Proofs.EventFields
import Verif.Props.DeriveExact
/-! # Property C54: for which events the generated `parse_log` can panic -/
namespace Ethabi.Props
open Spec EventFields Logs

/-- **C54**, events, whatever their names and whichever parameters are indexed: if every field is read from something that is
of its type, the generated `parse_log` never panics. -/
theorem C54_matching_fields (camel : Str → Str) (hash : Bytes → Word) (prof : Profile) (e : Event) (log : RawLog)
    (hg : ∀ p ∈ e.inputs, generated p.kind = true) (hm : fieldsMatch e)
    (hk : log.topics.length < 2 ^ 58) (hd : log.data.length < 2 ^ 63) : genParseLog camel hash prof e log ≠ .panic := by
  have hn : ∀ p ∈ e.inputs, narrow p.kind = true := fun p hp => generated_narrow _ (hg p hp)
  rw [ne_eq, (C54_parse_log_exactly camel hash prof e log hg).2.2,
    C79_panics_exactly hash prof { e with name := camel e.name } log hn hk hd]
  rintro (⟨-, h⟩ | ⟨l, h1, h2⟩)
  · refine no_overrunsAny _ ?_ _ _ h
    intro t ht
    obtain ⟨p, hp, rfl⟩ := List.mem_map.1 ht
    exact hg p (List.mem_filter.1 hp).1
  · obtain ⟨tt, dt, ⟨-, -, ht⟩, ⟨-, hdt⟩, hp⟩ := (C79_accepts_exactly hash prof { e with name := camel e.name } log l hn hk hd).1 h1
    refine absurd ?_ (Bool.eq_false_iff.1 h2)
    have hnr := named_readOrder e tt dt ((haveTypes_iff _ _).1 (readsAll_haveTypes _ _ _ _ ht))
      ((haveTypes_iff _ _).1 (readsAll_haveTypes _ _ _ _ hdt))
    rw [haveTypes_iff]
    change List.Forall₂ (fun n p => p.name = n ∧ lastNamed (namedValues e tt dt) n p.value) (e.inputs.map (·.name)) l.params at hp
    clear h1 h2
    have key : ∀ (ps : List EventParam) (xs : List LogParam), (∀ p ∈ ps, p ∈ e.inputs) →
        List.Forall₂ (fun n p => p.name = n ∧ lastNamed (namedValues e tt dt) n p.value) (ps.map (·.name)) xs →
        List.Forall₂ (fun x t => hasType x t = true) (xs.map (·.value)) (ps.map (·.kind)) := by
      intro ps
      induction ps with
      | nil => intro xs _ h; cases h; exact .nil
      | cons p ps ih =>
        intro xs hps h
        cases h with
        | cons h1 h2 =>
          refine .cons ?_ (ih _ (fun q hq => hps q (by simp [hq])) h2)
          obtain ⟨u, h3, h4⟩ := lastNamed_transfer (R := fun x t => hasType x t = true) hnr h1.2
          exact sameRust_hasType _ u _ (hm p (hps p (by simp)) u h3) h4
    exact key e.inputs l.params (fun _ h => h) hp

/-- **C54, exactly**, for events with Solidity types: the generated `parse_log` never panics exactly if every field is read
from something of its type, that is, unless an indexed field of a type that is hashed is read, or two fields of different
types have the same name. -/
theorem C54_events_exactly (camel : Str → Str) (hash : Bytes → Word) (prof : Profile) (e : Event)
    (hg : ∀ p ∈ e.inputs, generated p.kind = true) (hs : ∀ p ∈ e.inputs, solidity p.kind = true)
    (hi : e.inputs.length < 2 ^ 57) (hd : (exampleData e).length < 2 ^ 32) :
    (∀ log : RawLog, log.topics.length < 2 ^ 58 → log.data.length < 2 ^ 63 → genParseLog camel hash prof e log ≠ .panic) ↔
      fieldsMatch e := by
  refine ⟨fun h => ?_, fun hm log hk hd => C54_matching_fields camel hash prof e log hg hm hk hd⟩
  have hn : ∀ p ∈ e.inputs, narrow p.kind = true := fun p hp => generated_narrow _ (hg p hp)
  -- the log with zeros for topics and values without empty arrays for data
  let ts := (e.inputs.filter (·.indexed)).map (·.kind)
  let ds := (e.inputs.filter (!·.indexed)).map (·.kind)
  let dt := (e.inputs.filter (!·.indexed)).map fun p => someValue p.kind
  let zero : Word := ⟨List.replicate 32 0, by simp⟩
  let topics := (if e.anonymous then [] else [Event.signature hash { e with name := camel e.name }]) ++ ts.map fun _ => zero
  let log : RawLog := { topics := topics, data := exampleData e }
  have htl : ts.length ≤ e.inputs.length := by
    show ((e.inputs.filter (·.indexed)).map (·.kind)).length ≤ _
    rw [List.length_map]; exact List.length_filter_le _ _
  have hk : log.topics.length < 2 ^ 58 := by
    show ((if e.anonymous then [] else [_]) ++ ts.map fun _ => zero).length < _
    rw [List.length_append, List.length_map]
    split <;> simp only [List.length_nil, List.length_cons] <;> omega
  have hd' : log.data.length < 2 ^ 63 := by show (exampleData e).length < _; omega
  have harg : argumentTopics e.anonymous (log.topics.map (·.1)) = ts.map fun _ => List.replicate 32 0 := by
    show argumentTopics e.anonymous (((if e.anonymous then [] else [_]) ++ ts.map fun _ => zero).map fun w : Word => w.1) = _
    unfold argumentTopics
    cases e.anonymous <;> simp [zero]
  have hflat : (ts.map fun _ => List.replicate 32 (0 : UInt8)).flatten = List.replicate (32 * ts.length) 0 := by
    generalize ts = l
    induction l with
    | nil => rfl
    | cons t l ih =>
      rw [List.map_cons, List.flatten_cons, ih, List.replicate_append_replicate, List.length_cons]
      congr 1; omega
  obtain ⟨tt, htt⟩ := zeros_hold_all ts (by
    intro t ht
    obtain ⟨p, hp, rfl⟩ := List.mem_map.1 ht
    exact hs p (List.mem_filter.1 hp).1) (32 * ts.length) 0 (by omega)
  have hth : topicsHold hash (camel e.name) (e.inputs.map (·.kind)) e.anonymous (log.topics.map (·.1)) ts tt := by
    refine ⟨?_, by rw [harg, List.length_map], by rw [harg, hflat]; exact htt⟩
    show e.anonymous = true ∨ (((if e.anonymous then [] else [_]) ++ ts.map fun _ => zero).map fun w : Word => w.1).head? = _
    cases ha : e.anonymous with
    | true => exact Or.inl rfl
    | false =>
      right
      simp [signature_eventTopic, Event.paramTypes]
  have hdt : haveTypes dt ds = true := by
    rw [haveTypes_iff]
    have : ∀ ps : List EventParam, (∀ p ∈ ps, generated p.kind = true) →
        List.Forall₂ (fun x t => hasType x t = true) (ps.map fun p => someValue p.kind) (ps.map (·.kind)) := by
      intro ps
      induction ps with
      | nil => intro _; exact .nil
      | cons p ps ih =>
        intro hp
        exact .cons (someValue_hasType _ (hp p (by simp))) (ih fun q hq => hp q (by simp [hq]))
    exact this _ fun p hp => hg p (List.mem_filter.1 hp).1
  have hsd : solidityAll ds = true := by
    have : ∀ l : List ParamType, (∀ t ∈ l, solidity t = true) → solidityAll l = true := by
      intro l
      induction l with
      | nil => intro _; rfl
      | cons t l ih => intro h; rw [solidityAll, h t (by simp), ih fun x hx => h x (by simp [hx])]; rfl
    refine this _ fun t ht => ?_
    obtain ⟨p, hp, rfl⟩ := List.mem_map.1 ht
    exact hs p (List.mem_filter.1 hp).1
  have hnd : narrowAll ds = true := by
    rw [narrowAll_iff]
    intro t ht
    obtain ⟨p, hp, rfl⟩ := List.mem_map.1 ht
    exact hn p (List.mem_filter.1 hp).1
  have hnt : narrowAll (ts.map topicType) = true := by
    rw [narrowAll_iff]
    intro t ht
    obtain ⟨u, hu, rfl⟩ := List.mem_map.1 ht
    obtain ⟨p, hp, rfl⟩ := List.mem_map.1 hu
    exact narrow_topicType (hn p (List.mem_filter.1 hp).1)
  have hdh : dataHold log.data ds dt := by
    obtain ⟨bs, h1, h2⟩ := C01_round_trip_solidity prof prof ds dt hdt hsd hd
    rw [C02_encode_conforms_solidity prof ds dt hdt hsd hd] at h1
    rw [← Res.ok.inj h1] at h2
    exact (C74_decodes_exactly prof ds _ dt hnd hd').1 h2
  -- it is accepted
  have hR : List.Forall₂ (fun x t => hasType x t = true ∧ ∀ u, hasType x u = true → sameRust u t = true) tt (ts.map topicType) := by
    have h1 := (haveTypes_iff _ _).1 (readsAll_haveTypes _ _ _ _ htt)
    have h2 : ∀ t ∈ ts.map topicType, valueType t = true := by
      intro t ht
      obtain ⟨u, -, rfl⟩ := List.mem_map.1 ht
      cases u <;> rfl
    generalize ts.map topicType = l at h1 h2 ⊢
    clear htt hth
    induction h1 with
    | nil => exact .nil
    | cons h3 _ ih =>
      exact .cons ⟨h3, fun u hu => sameRust_of_value u _ _ (h2 _ (by simp)) h3 hu⟩ (ih fun t ht => h2 t (by simp [ht]))
  have hD : List.Forall₂ (fun x t => hasType x t = true ∧ ∀ u, hasType x u = true → sameRust u t = true) dt ds := by
    have : ∀ ps : List EventParam, (∀ p ∈ ps, generated p.kind = true) →
        List.Forall₂ (fun x t => hasType x t = true ∧ ∀ u, hasType x u = true → sameRust u t = true)
          (ps.map fun p => someValue p.kind) (ps.map (·.kind)) := by
      intro ps
      induction ps with
      | nil => intro _; exact .nil
      | cons p ps ih =>
        intro hp
        exact .cons ⟨someValue_hasType _ (hp p (by simp)), fun u hu => sameRust_of_someValue u _ (hp p (by simp)) hu⟩
          (ih fun q hq => hp q (by simp [hq]))
    exact this _ fun p hp => hg p (List.mem_filter.1 hp).1
  have hnr := named_readOrder e tt dt hR hD
  have hflip : List.Forall₂ (fun (a : Str × ParamType) (b : Str × Token) => a.1 = b.1 ∧ ∀ u, hasType b.2 u = true →
      sameRust u a.2 = true) (readOrder e) (namedValues e tt dt) := by
    refine (List.Forall₂.flip hnr).imp ?_
    intro a b h
    exact ⟨h.1.symm, h.2.2⟩
  cases hl : Event.parseLog hash prof { e with name := camel e.name } log with
  | panic =>
    exact absurd ((C54_parse_log_exactly camel hash prof e log hg).2.2.2 (Or.inl hl)) (h log hk hd')
  | err x =>
    -- every name has a value, so the log is accepted
    exfalso
    obtain ⟨l, h1⟩ : ∃ l, Event.parseLog hash prof { e with name := camel e.name } log = .ok l := by
      have hex : ∀ n ∈ e.inputs.map (·.name), ∃ v, lastNamed (namedValues e tt dt) n v := by
        intro n hn
        obtain ⟨p, hp, rfl⟩ := List.mem_map.1 hn
        have hmem : ∃ u, (p.name, u) ∈ readOrder e := by
          cases hpi : p.indexed with
          | true => exact ⟨topicType p.kind, List.mem_append_left _ (List.mem_map.2 ⟨p, List.mem_filter.2 ⟨hp, hpi⟩, rfl⟩)⟩
          | false => exact ⟨p.kind, List.mem_append_right _ (List.mem_map.2 ⟨p, List.mem_filter.2 ⟨hp, by simp [hpi]⟩, rfl⟩)⟩
        obtain ⟨u, hu⟩ := hmem
        obtain ⟨w, hw⟩ := lastNamed_of_mem hu
        obtain ⟨v, hv, -⟩ := lastNamed_transfer (R := fun t x => ∀ u, hasType x u = true → sameRust u t = true) hflip hw
        exact ⟨v, hv⟩
      obtain ⟨xs, hxs⟩ := logParams_of_names (namedValues e tt dt) (e.inputs.map (·.name)) hex
      exact ⟨{ params := xs }, (C79_accepts_exactly hash prof { e with name := camel e.name } log _ hn hk hd').2
        ⟨tt, dt, hth, hdh, hxs⟩⟩
    rw [hl] at h1; cases h1
  | ok l =>
    have hnp := h log hk hd'
    rw [ne_eq, (C54_parse_log_exactly camel hash prof e log hg).2.2] at hnp
    have hty : haveTypes (l.params.map (·.value)) (e.inputs.map (·.kind)) = true := by
      by_contra hc
      exact hnp (Or.inr ⟨l, hl, Bool.eq_false_iff.2 hc⟩)
    obtain ⟨tt', dt', h1, h2, h3⟩ := (C79_accepts_exactly hash prof { e with name := camel e.name } log l hn hk hd').1 hl
    have htt' : tt' = tt := C74_unique _ _ _ _ hnt (by rw [harg, hflat, List.length_replicate]; omega) h1.2.2 hth.2.2
    have hdt' : dt' = dt := C74_unique _ _ _ _ hnd hd' h2.2 hdh.2
    subst htt' hdt'
    change List.Forall₂ (fun n p => p.name = n ∧ lastNamed (namedValues e tt' dt) n p.value) (e.inputs.map (·.name)) l.params at h3
    rw [haveTypes_iff] at hty
    intro p hp u hu
    obtain ⟨v, hv, hvu⟩ := lastNamed_transfer (R := fun t x => ∀ u, hasType x u = true → sameRust u t = true) hflip hu
    refine hvu p.kind ?_
    have key : ∀ (ps : List EventParam) (xs : List LogParam),
        List.Forall₂ (fun n p => p.name = n ∧ lastNamed (namedValues e tt' dt) n p.value) (ps.map (·.name)) xs →
        List.Forall₂ (fun x t => hasType x t = true) (xs.map (·.value)) (ps.map (·.kind)) → ∀ p ∈ ps, ∀ v,
        lastNamed (namedValues e tt' dt) p.name v → hasType v p.kind = true := by
      intro ps
      induction ps with
      | nil => intro _ _ _ p hp; cases hp
      | cons q ps ih =>
        intro xs h1 h2 p hp v hv
        cases h1 with
        | cons h3 h4 =>
          cases h2 with
          | cons h5 h6 =>
            rcases List.mem_cons.1 hp with rfl | hp
            · rw [lastNamed_unique hv h3.2]; exact h5
            · exact ih _ h4 h6 p hp v hv
    exact key _ _ h3 hty p hp v hv

/-- `event E(string indexed s, string s)`: the first field is read from the data too, nothing panics; `event E(string indexed s)`
does -/
example :
    let e : Event := { name := lit "E", inputs := [⟨lit "s", .string, true⟩, ⟨lit "s", .string, false⟩], anonymous := false }
    let e' : Event := { name := lit "E", inputs := [⟨lit "s", .string, true⟩], anonymous := false }
    fieldsMatch e ∧ ¬ fieldsMatch e' ∧
    ((∀ p ∈ e'.inputs, generated p.kind = true) ∧ (∀ p ∈ e'.inputs, solidity p.kind = true) ∧ e'.inputs.length < 2 ^ 57 ∧
      (exampleData e').length < 2 ^ 32) ∧
    ((∀ p ∈ e.inputs, generated p.kind = true) ∧ (∀ p ∈ e.inputs, solidity p.kind = true) ∧ e.inputs.length < 2 ^ 57 ∧
      (exampleData e).length < 2 ^ 32) := by
  intro e e'
  refine ⟨?_, ?_, by decide +kernel, by decide +kernel⟩
  · intro p hp u hu
    have hn : p.name = lit "s" := by
      rcases List.mem_cons.1 hp with rfl | hp
      · rfl
      · rcases List.mem_cons.1 hp with rfl | hp
        · rfl
        · cases hp
    rw [hn] at hu
    have : u = .string := lastNamed_unique hu ⟨[(lit "s", .fixedBytes 32)], [], rfl, nofun⟩
    subst this
    rcases List.mem_cons.1 hp with rfl | hp
    · rfl
    · rcases List.mem_cons.1 hp with rfl | hp
      · rfl
      · cases hp
  · intro h
    have := h ⟨lit "s", .string, true⟩ (by simp [e']) (.fixedBytes 32) ⟨[], [], rfl, nofun⟩
    cases this

end Ethabi.Props

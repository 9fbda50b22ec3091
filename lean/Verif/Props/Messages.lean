import Verif.Proofs.Messages
import Verif.Props.CliExact
import Verif.Props.Errors
/-!
# C118: what error messages say

The error values themselves, not only their variant: in the tokenizers and in every command of the tool.
-/
namespace Ethabi.Props
open Spec Messages

/-! ## The statement -/

/-- the file cannot be opened, or does not hold a list of entries -/
def LoadFails (file : Str → Option (Option Json)) (path : Str) (r : Reason) : Prop :=
  file path = none ∧ r = .notOpened path ∨
  file path = some none ∧ r = .foreign .serdeJson ∨
  ∃ j, file path = some (some j) ∧ (∀ ops, ¬ DenotesEach DenotesOperation j ops) ∧ deContract j ≠ .panic ∧ r = .foreign .serdeJson

/-- why no function is picked -/
inductive RefusesFunction (ops : List Operation) : Str → Reason → Prop
  | unknownName {n : Str} : '(' ∉ n → declaredFunctions n ops = [] → RefusesFunction ops n (.invalidName n)
  | ambiguous {n : Str} : '(' ∉ n → 2 ≤ (declaredFunctions n ops).length → RefusesFunction ops n (.ambiguous n)
  | unknownInSignature {n rest : Str} : '(' ∉ n → declaredFunctions n ops = [] →
      RefusesFunction ops (n ++ '(' :: rest) (.invalidName n)
  | otherSignature {n rest : Str} : '(' ∉ n → declaredFunctions n ops ≠ [] →
      (∀ f ∈ declaredFunctions n ops, functionText f ≠ n ++ '(' :: rest) →
      RefusesFunction ops (n ++ '(' :: rest) (.unknownFunction (n ++ '(' :: rest))

/-- why no event is picked -/
inductive RefusesEvent (hash : Bytes → Word) (ops : List Operation) : Str → Reason → Prop
  | unknownName {n : Str} : '(' ∉ n → declaredEvents n ops = [] → RefusesEvent hash ops n (.invalidName n)
  | ambiguous {n : Str} : '(' ∉ n → 2 ≤ (declaredEvents n ops).length → RefusesEvent hash ops n (.ambiguous n)
  | unknownInSignature {n rest : Str} : '(' ∉ n → declaredEvents n ops = [] →
      RefusesEvent hash ops (n ++ '(' :: rest) (.invalidName n)
  | otherSignature {n rest : Str} : '(' ∉ n → declaredEvents n ops ≠ [] →
      (∀ e ∈ declaredEvents n ops, textHash hash (eventText e) ≠ textHash hash ((n ++ '(' :: rest).filter (· ≠ ' '))) →
      RefusesEvent hash ops (n ++ '(' :: rest) (.unknownEvent (textHash hash ((n ++ '(' :: rest).filter (· ≠ ' '))))

/-- the first text that is not read, with the error of the reader -/
def TypeFails (types : List Str) (r : Reason) : Prop :=
  ∃ before s after ts e, types = before ++ s :: after ∧ ReadAs before ts ∧ read s = .err e ∧ r = .ofErr e

/-- the data are not hexadecimal, or `decode` refuses them -/
def DataFails (prof : Profile) (kinds : List ParamType) (data : Str) (r : Reason) : Prop :=
  (∃ h, hexFails data h ∧ r = .plainHex h) ∨ ∃ bs e, hexText data bs ∧ decode prof kinds bs = .err e ∧ r = .ofErr e

/-! ## Lemmas -/

theorem selectFunction_coded (c : Contract) (n : Str) : (selectFunctionTold c n).coded Reason.kind = selectFunction c n := by
  rw [selectFunctionTold, selectFunction]
  cases signatureName n with
  | some name =>
    simp only [coded_bind, told_coded]
    congr 1; funext fs
    cases fs.find? fun f => f.signature == n <;> rfl
  | none =>
    simp only [coded_bind, told_coded]
    congr 1; funext fs
    rcases fs with _ | ⟨f, _ | ⟨g, l⟩⟩ <;> rfl

theorem selectEvent_coded (hash : Bytes → Word) (c : Contract) (n : Str) :
    (selectEventTold hash c n).coded Reason.kind = selectEvent hash c n := by
  rw [selectEventTold, selectEvent]
  cases signatureName n with
  | some name =>
    simp only [coded_bind, told_coded]
    congr 1; funext fs
    cases fs.find? fun e => e.signature hash == hashSignature hash n <;> rfl
  | none =>
    simp only [coded_bind, told_coded]
    congr 1; funext fs
    rcases fs with _ | ⟨f, _ | ⟨g, l⟩⟩ <;> rfl

theorem load_coded (file : Str → Option (Option Json)) (path : Str) :
    (loadTold file path).coded Reason.kind = (openAbi file path >>= deContract) := by
  rw [loadTold, openAbi]
  rcases file path with _ | _ | j
  · rfl
  · rfl
  · exact told_coded _

theorem loadTold_ok {file : Str → Option (Option Json)} {path : Str} {c : Contract} :
    loadTold file path = .ok c ↔ ∃ j, file path = some (some j) ∧ deContract j = .ok c := by
  rw [← coded_eq_ok (g := Reason.kind), load_coded, Res.bind_eq_ok]
  simp only [openAbi_iff]

theorem loadTold_err {file : Str → Option (Option Json)} {path : Str} {r : Reason} :
    loadTold file path = .err r ↔ LoadFails file path r := by
  unfold loadTold LoadFails
  cases hf : file path with
  | none => simp [eq_comm]
  | some o =>
    cases o with
    | none => simp [eq_comm]
    | some j =>
      simp only [reduceCtorEq, false_and, Option.some.injEq, false_or, exists_eq_left', told_err]
      have h0 : (∀ ops, ¬ DenotesEach DenotesOperation j ops) ↔ ∀ c, deContract j ≠ .ok c := by
        rw [← not_exists, ← (C77_contract j).1, not_exists]
      rw [h0]
      cases hc : deContract j with
      | ok c => simp
      | panic => simp
      | err e =>
        have := (C93_loading j e).1 hc
        subst this
        simp [Reason.ofErr]

theorem selectFunctionTold_err {j : Json} {ops : List Operation} (h : DenotesEach DenotesOperation j ops) :
    ∃ c, deContract j = .ok c ∧ ∀ s r, selectFunctionTold c s = .err r ↔ RefusesFunction ops s r := by
  obtain ⟨js, rfl, hops⟩ := forall_of_denotesEach h
  obtain ⟨c, hc, hf0, -⟩ := C30_lookup js ops hops
  have hf : ∀ n, told (c.functionsByName n) = if declaredFunctions n ops = [] then .err (.invalidName n) else .ok (declaredFunctions n ops) := by
    intro n
    rw [hf0]
    cases declaredFunctions n ops <;> rfl
  refine ⟨c, hc, fun s r => ?_⟩
  by_cases hs : '(' ∈ s
  · obtain ⟨n, rest, rfl, hn⟩ := split_paren s hs
    have hsig : ∀ f : Function, f.signature = functionText f := C23_suffix
    rw [selectFunctionTold, signatureName_some hn]
    simp only [hf, hsig]
    constructor
    · intro h
      rcases hd : declaredFunctions n ops with _ | ⟨f0, l⟩
      · rw [hd] at h
        simp only [if_true, err_bind] at h
        cases h
        exact .unknownInSignature hn hd
      · rw [hd] at h
        simp only [reduceCtorEq, if_false, ok_bind] at h
        split at h
        · cases h
        · rename_i hfind
          cases h
          rw [List.find?_eq_none] at hfind
          exact .otherSignature hn (by rw [hd]; simp) fun f hf' => by
            rw [hd] at hf'
            simpa using hfind f hf'
    · intro hr
      generalize hg : n ++ '(' :: rest = s at hr
      cases hr with
      | unknownName h1 _ => subst hg; simp at h1
      | ambiguous h1 _ => subst hg; simp at h1
      | unknownInSignature h1 h2 =>
        obtain ⟨rfl, rfl⟩ := paren_unique hn h1 hg
        rw [if_pos h2]; rfl
      | otherSignature h1 h2 h3 =>
        obtain ⟨rfl, rfl⟩ := paren_unique hn h1 hg
        rw [if_neg h2]
        simp only [ok_bind]
        rw [List.find?_eq_none.2 (fun x hx => by simpa using h3 x hx)]
  · rw [selectFunctionTold, signatureName_none hs]
    simp only [hf]
    constructor
    · intro h
      rcases hd : declaredFunctions s ops with _ | ⟨f, _ | ⟨g, l⟩⟩
      · rw [hd] at h
        simp only [if_true, err_bind] at h
        cases h
        exact .unknownName hs hd
      · rw [hd] at h
        simp at h
      · rw [hd] at h
        simp only [reduceCtorEq, if_false, ok_bind] at h
        cases h
        exact .ambiguous hs (by rw [hd]; simp)
    · intro hr
      cases hr with
      | unknownName _ h2 => rw [if_pos h2]; rfl
      | ambiguous _ h2 =>
        rcases hd : declaredFunctions s ops with _ | ⟨f, _ | ⟨g, l⟩⟩
        · rw [hd] at h2; simp at h2
        · rw [hd] at h2; simp at h2
        · simp
      | unknownInSignature => simp at hs
      | otherSignature => simp at hs

theorem selectEventTold_err (hash : Bytes → Word) {j : Json} {ops : List Operation} (h : DenotesEach DenotesOperation j ops) :
    ∃ c, deContract j = .ok c ∧ ∀ s r, selectEventTold hash c s = .err r ↔ RefusesEvent hash ops s r := by
  obtain ⟨js, rfl, hops⟩ := forall_of_denotesEach h
  obtain ⟨c, hc, -, hf0, -⟩ := C30_lookup js ops hops
  have hf : ∀ n, told (c.eventsByName n) = if declaredEvents n ops = [] then .err (.invalidName n) else .ok (declaredEvents n ops) := by
    intro n
    rw [hf0]
    cases declaredEvents n ops <;> rfl
  refine ⟨c, hc, fun s r => ?_⟩
  by_cases hs : '(' ∈ s
  · obtain ⟨n, rest, rfl, hn⟩ := split_paren s hs
    have hsig : ∀ e : Event, e.signature hash = textHash hash (eventText e) :=
      fun e => Subtype.ext (signature_eventTopic hash e)
    have hs' : hashSignature hash (n ++ '(' :: rest) = textHash hash ((n ++ '(' :: rest).filter (· ≠ ' ')) := by
      rw [hashSignature, strBytes, utf8_eq_core, removeSpaces, textHash]
      congr 3
      funext c
      by_cases hc : c = ' ' <;> simp [hc]
    rw [selectEventTold, signatureName_some hn]
    simp only [hf, hsig, hs']
    constructor
    · intro h
      rcases hd : declaredEvents n ops with _ | ⟨f0, l⟩
      · rw [hd] at h
        simp only [if_true, err_bind] at h
        cases h
        exact .unknownInSignature hn hd
      · rw [hd] at h
        simp only [reduceCtorEq, if_false, ok_bind] at h
        split at h
        · cases h
        · rename_i hfind
          cases h
          rw [List.find?_eq_none] at hfind
          exact .otherSignature hn (by rw [hd]; simp) fun f hf' => by
            rw [hd] at hf'
            simpa [Subtype.ext_iff] using hfind f hf'
    · intro hr
      generalize hg : n ++ '(' :: rest = s at hr
      cases hr with
      | unknownName h1 _ => subst hg; simp at h1
      | ambiguous h1 _ => subst hg; simp at h1
      | unknownInSignature h1 h2 =>
        obtain ⟨rfl, rfl⟩ := paren_unique hn h1 hg
        rw [if_pos h2]; rfl
      | otherSignature h1 h2 h3 =>
        obtain ⟨rfl, rfl⟩ := paren_unique hn h1 hg
        rw [if_neg h2]
        simp only [ok_bind]
        rw [List.find?_eq_none.2 (fun x hx => by simpa [Subtype.ext_iff] using h3 x hx)]
  · rw [selectEventTold, signatureName_none hs]
    simp only [hf]
    constructor
    · intro h
      rcases hd : declaredEvents s ops with _ | ⟨f, _ | ⟨g, l⟩⟩
      · rw [hd] at h
        simp only [if_true, err_bind] at h
        cases h
        exact .unknownName hs hd
      · rw [hd] at h
        simp at h
      · rw [hd] at h
        simp only [reduceCtorEq, if_false, ok_bind] at h
        cases h
        exact .ambiguous hs (by rw [hd]; simp)
    · intro hr
      cases hr with
      | unknownName _ h2 => rw [if_pos h2]; rfl
      | ambiguous _ h2 =>
        rcases hd : declaredEvents s ops with _ | ⟨f, _ | ⟨g, l⟩⟩
        · rw [hd] at h2; simp at h2
        · rw [hd] at h2; simp at h2
        · simp
      | unknownInSignature => simp at hs
      | otherSignature => simp at hs

theorem functionStep {β : Type} (file : Str → Option (Option Json)) (path name : Str) (k : Function → Told Reason β) (r : Reason) :
    (loadTold file path >>= fun c => selectFunctionTold c name >>= k) = .err r ↔
      LoadFails file path r ∨ ∃ ops, Declares file path ops ∧
        (RefusesFunction ops name r ∨ ∃ f, PicksFunction ops name f ∧ k f = .err r) := by
  rw [bind_err, loadTold_err]
  refine or_congr Iff.rfl ?_
  simp only [bind_err, loadTold_ok]
  have hpick : ∀ {j c ops}, deContract j = .ok c → DenotesEach DenotesOperation j ops → ∀ f,
      (selectFunctionTold c name = .ok f ↔ PicksFunction ops name f) := by
    intro j c ops hc ho f
    rw [← coded_eq_ok (g := Reason.kind), selectFunction_coded]
    have h1 : loadFunction j name = selectFunction c name := by rw [loadFunction, hc, Res.ok_bind]
    rw [← h1]
    constructor
    · intro h
      obtain ⟨ops', ho', hp⟩ := (loadFunction_iff j name f).1 h
      obtain ⟨js, rfl, e1⟩ := forall_of_denotesEach ho
      obtain ⟨js', e, e2⟩ := forall_of_denotesEach ho'
      cases e
      have : ops' = ops := by
        clear hc ho ho' h hp h1
        induction e1 generalizing ops' with
        | nil => cases e2; rfl
        | cons a _ ih =>
          cases e2 with
          | cons b e2 =>
            rw [a] at b
            rw [Res.ok.inj b, ih _ e2]
      exact this ▸ hp
    · intro h; exact (loadFunction_iff j name f).2 ⟨ops, ho, h⟩
  constructor
  · rintro ⟨c, ⟨j, hj, hc⟩, h⟩
    obtain ⟨ops, ho⟩ := loads_of_ok hc
    obtain ⟨c', hc', he⟩ := selectFunctionTold_err ho
    rw [hc] at hc'
    cases hc'
    refine ⟨ops, ⟨j, hj, ho⟩, ?_⟩
    rcases h with h | ⟨f, hf, h⟩
    · exact .inl ((he _ _).1 h)
    · exact .inr ⟨f, (hpick hc ho f).1 hf, h⟩
  · rintro ⟨ops, ⟨j, hj, ho⟩, h⟩
    obtain ⟨c, hc, he⟩ := selectFunctionTold_err ho
    refine ⟨c, ⟨j, hj, hc⟩, ?_⟩
    rcases h with h | ⟨f, hf, h⟩
    · exact .inl ((he _ _).2 h)
    · exact .inr ⟨f, (hpick hc ho f).2 hf, h⟩

theorem eventStep {β : Type} (hash : Bytes → Word) (file : Str → Option (Option Json)) (path name : Str) (k : Event → Told Reason β)
    (r : Reason) : (loadTold file path >>= fun c => selectEventTold hash c name >>= k) = .err r ↔
      LoadFails file path r ∨ ∃ ops, Declares file path ops ∧
        (RefusesEvent hash ops name r ∨ ∃ e, PicksEvent hash ops name e ∧ k e = .err r) := by
  rw [bind_err, loadTold_err]
  refine or_congr Iff.rfl ?_
  simp only [bind_err, loadTold_ok]
  have hpick : ∀ {j c ops}, deContract j = .ok c → DenotesEach DenotesOperation j ops → ∀ f,
      (selectEventTold hash c name = .ok f ↔ PicksEvent hash ops name f) := by
    intro j c ops hc ho f
    rw [← coded_eq_ok (g := Reason.kind), selectEvent_coded]
    have h1 : loadEvent hash j name = selectEvent hash c name := by rw [loadEvent, hc, Res.ok_bind]
    rw [← h1]
    constructor
    · intro h
      obtain ⟨ops', ho', hp⟩ := (loadEvent_iff hash j name f).1 h
      obtain ⟨js, rfl, e1⟩ := forall_of_denotesEach ho
      obtain ⟨js', e, e2⟩ := forall_of_denotesEach ho'
      cases e
      have : ops' = ops := by
        clear hc ho ho' h hp h1
        induction e1 generalizing ops' with
        | nil => cases e2; rfl
        | cons a _ ih =>
          cases e2 with
          | cons b e2 =>
            rw [a] at b
            rw [Res.ok.inj b, ih _ e2]
      exact this ▸ hp
    · intro h; exact (loadEvent_iff hash j name f).2 ⟨ops, ho, h⟩
  constructor
  · rintro ⟨c, ⟨j, hj, hc⟩, h⟩
    obtain ⟨ops, ho⟩ := loads_of_ok hc
    obtain ⟨c', hc', he⟩ := selectEventTold_err hash ho
    rw [hc] at hc'
    cases hc'
    refine ⟨ops, ⟨j, hj, ho⟩, ?_⟩
    rcases h with h | ⟨f, hf, h⟩
    · exact .inl ((he _ _).1 h)
    · exact .inr ⟨f, (hpick hc ho f).1 hf, h⟩
  · rintro ⟨ops, ⟨j, hj, ho⟩, h⟩
    obtain ⟨c, hc, he⟩ := selectEventTold_err hash ho
    refine ⟨c, ⟨j, hj, hc⟩, ?_⟩
    rcases h with h | ⟨f, hf, h⟩
    · exact .inl ((he _ _).2 h)
    · exact .inr ⟨f, (hpick hc ho f).2 hf, h⟩

theorem readAll_err : ∀ (ss : List Str) (e : Err), readAll ss = .err e ↔
    ∃ before s after ts, ss = before ++ s :: after ∧ ReadAs before ts ∧ read s = .err e
  | [], e => by
    simp only [readAll, reduceCtorEq, false_iff]
    rintro ⟨before, s, after, ts, h, -⟩
    simp at h
  | s :: ss, e => by
    rw [readAll, Errors.bind_eq_err]
    constructor
    · rintro (h | ⟨t, ht, h⟩)
      · exact ⟨[], s, ss, [], rfl, .nil, h⟩
      · rcases Errors.bind_eq_err.1 h with h | ⟨_, -, h⟩
        · obtain ⟨b, x, a, ts, rfl, e2, e3⟩ := (readAll_err ss e).1 h
          exact ⟨s :: b, x, a, t :: ts, rfl, .cons ht e2, e3⟩
        · cases h
    · rintro ⟨b, x, a, ts, e1, e2, e3⟩
      cases e2 with
      | nil => cases e1; exact .inl e3
      | cons h1 h2 =>
        cases e1
        exact .inr ⟨_, h1, Errors.bind_eq_err.2 (.inl ((readAll_err _ e).2 ⟨_, x, a, _, rfl, h2, e3⟩))⟩

theorem parseHashes_err (parseHash : Str → Res Word) : ∀ (ss : List Str) (e : Err), parseHashes parseHash ss = .err e ↔
    ∃ before s after ws, ss = before ++ s :: after ∧ List.Forall₂ (fun s w => parseHash s = .ok w) before ws ∧ parseHash s = .err e
  | [], e => by
    simp only [parseHashes, reduceCtorEq, false_iff]
    rintro ⟨before, s, after, ts, h, -⟩
    simp at h
  | s :: ss, e => by
    rw [parseHashes, Errors.bind_eq_err]
    constructor
    · rintro (h | ⟨t, ht, h⟩)
      · exact ⟨[], s, ss, [], rfl, .nil, h⟩
      · rcases Errors.bind_eq_err.1 h with h | ⟨_, -, h⟩
        · obtain ⟨b, x, a, ts, rfl, e2, e3⟩ := (parseHashes_err parseHash ss e).1 h
          exact ⟨s :: b, x, a, t :: ts, rfl, .cons ht e2, e3⟩
        · cases h
    · rintro ⟨b, x, a, ts, e1, e2, e3⟩
      cases e2 with
      | nil => cases e1; exact .inl e3
      | cons h1 h2 =>
        cases e1
        exact .inr ⟨_, h1, Errors.bind_eq_err.2 (.inl ((parseHashes_err parseHash _ e).2 ⟨_, x, a, _, rfl, h2, e3⟩))⟩

theorem toldReadAll_err (ss : List Str) (r : Reason) : told (readAll ss) = .err r ↔ TypeFails ss r := by
  rw [told_err]
  unfold TypeFails
  simp only [readAll_err]
  constructor
  · rintro ⟨e, ⟨b, s, a, ts, h1, h2, h3⟩, h4⟩; exact ⟨b, s, a, ts, e, h1, h2, h3, h4⟩
  · rintro ⟨b, s, a, ts, e, h1, h2, h3, h4⟩; exact ⟨e, ⟨b, s, a, ts, h1, h2, h3⟩, h4⟩

theorem dataStep (prof : Profile) (kinds : List ParamType) (data : Str) (out : List Token → Str) (r : Reason) :
    (hexDecodeCli data >>= fun bs => told (decode prof kinds bs) >>= fun toks =>
      if kinds.length ≠ toks.length then .panic else .ok (out toks)) = .err r ↔ DataFails prof kinds data r := by
  rw [bind_err, hexDecodeCli_err, DataFails]
  refine or_congr Iff.rfl ?_
  have hok : ∀ bs, hexDecodeCli data = .ok bs ↔ hexText data bs := by
    intro bs
    rw [← TokenText.hexDecode_iff, ← hexDecodeCli_coded, coded_eq_ok]
  simp only [hok, bind_err, told_err]
  constructor
  · rintro ⟨bs, h1, ⟨e, h2, h3⟩ | ⟨toks, -, h⟩⟩
    · exact ⟨bs, e, h1, h2, h3⟩
    · split at h <;> cases h
  · rintro ⟨bs, e, h1, h2, h3⟩; exact ⟨bs, h1, .inl ⟨e, h2, h3⟩⟩

/-- every second argument, from the first on -/
def typeArgs : List Str → List Str
  | x :: _ :: rest => x :: typeArgs rest
  | _ => []

/-- every second argument, from the second on -/
def valueArgs : List Str → List Str
  | _ :: y :: rest => y :: valueArgs rest
  | _ => []

theorem readPairs_eq : ∀ (args : List Str), args.length % 2 = 0 →
    readPairs args = (readAll (typeArgs args) >>= fun ts => .ok (ts.zip (valueArgs args)))
  | [], _ => rfl
  | [_], h => by simp at h
  | x :: y :: rest, h => by
    rw [readPairs, typeArgs, valueArgs, readAll, readPairs_eq rest (by simp at h; omega)]
    cases read x with
    | err e => rfl
    | panic => rfl
    | ok t =>
      simp only [Res.ok_bind]
      cases readAll (typeArgs rest) <;> rfl

/-! ## The theorems -/

/-- **C118.** Keeping the error values changes nothing else: the same results, the same panics, errors of the same variant as
in the model that the other claims are about. -/
theorem C118_same_outcome (hash : Bytes → Word) (parseHash : Str → Res Word) (prof : Profile) (file : Str → Option (Option Json))
    (cmd : Command) (m : Tokenizer) (p : ParamType) (s : Str) :
    (executeTold hash parseHash prof file cmd).coded Reason.kind = execute hash parseHash prof file cmd ∧
    (tokenizeTold m p s).coded Reason.kind = tokenize m p s := by
  refine ⟨?_, tokenize_coded m p s⟩
  have hload : ∀ {β : Type} (path : Str) (k : Contract → Res β),
      ((openAbi file path >>= deContract) >>= k) = (openAbi file path >>= fun j => deContract j >>= k) := by
    intro β path k
    cases openAbi file path <;> rfl
  cases cmd with
  | encodeFunction path name params lenient =>
    rw [executeTold, execute, encodeInputTold]
    simp only [coded_bind, load_coded, selectFunction_coded, parseTokens_coded, told_coded, coded_ok, hload, cliEncodeInput,
      loadFunction, encodeInputOf]
    congr 1; funext j
    cases deContract j <;> rfl
  | encodeParams params lenient =>
    rw [executeTold, execute, encodeParamsTold, cliEncodeParams]
    split
    · rfl
    · simp only [coded_bind, parseTokens_coded, told_coded, coded_ok]
  | decodeFunction path name data =>
    rw [executeTold, execute, decodeOutputTold]
    simp only [coded_bind, load_coded, selectFunction_coded, told_coded, hload, cliDecodeOutput, hexDecodeCli_coded,
      loadFunction, decodeOutputOf]
    congr 1; funext j
    cases deContract j with
    | err e => rfl
    | panic => rfl
    | ok c =>
      simp only [Res.ok_bind]
      congr 1; funext f
      congr 1; funext b
      congr 1; funext ts
      split <;> rfl
  | decodeParams types data =>
    rw [executeTold, execute, decodeParamsTold, cliDecodeParams]
    simp only [coded_bind, told_coded, hexDecodeCli_coded]
    congr 1; funext ts
    congr 1; funext b
    congr 1; funext toks
    split <;> rfl
  | decodeLog path name topics data =>
    rw [executeTold, execute, decodeLogTold]
    simp only [coded_bind, load_coded, selectEvent_coded, told_coded, hload, cliDecodeLog, hexDecodeCli_coded, coded_ok,
      loadEvent, decodeLogOf]
    congr 1; funext j
    cases deContract j <;> rfl

/-- **C118**, tokenizers: a text is refused with exactly the error value that `Spec/Messages.lean` gives: the first character
that is no hexadecimal digit and its position; whether a decimal number has a wrong character or is too large; the part of
an array or a tuple that comes first. -/
theorem C118_tokenizers (m : Tokenizer) (p : ParamType) (s : Str) (r : Reason) : tokenizeTold m p s = .err r ↔ failsFor m p s r :=
  tokenizeTold_err m p s r

/-- **C118**, `encode params`: the first type text that is not read, before any value is looked at; then the first value that is
refused. -/
theorem C118_encode_params (hash : Bytes → Word) (parseHash : Str → Res Word) (prof : Profile) (file : Str → Option (Option Json))
    (args : List Str) (lenient : Bool) (r : Reason) :
    executeTold hash parseHash prof file (.encodeParams args lenient) = .err r ↔ args.length % 2 = 0 ∧
      (TypeFails (typeArgs args) r ∨ ∃ ts, ReadAs (typeArgs args) ts ∧
        firstRefused (if lenient then .lenient else .strict) (ts.zip (valueArgs args)) r) := by
  rw [executeTold, encodeParamsTold]
  by_cases ha : args.length % 2 = 0
  · rw [if_neg (by omega), readPairs_eq args ha]
    have hmap : told (readAll (typeArgs args) >>= fun ts => .ok (ts.zip (valueArgs args))) =
        (told (readAll (typeArgs args)) >>= fun ts => .ok (ts.zip (valueArgs args))) := by
      cases readAll (typeArgs args) <;> rfl
    have hlast : ∀ toks, ¬ (told (encode prof toks) >>= fun b => Told.ok (hexEncode b)) = .err r := by
      intro toks h
      rw [map_err_iff, told_err] at h
      obtain ⟨e, he, -⟩ := h
      exact (fine_encode prof toks).1 e he
    rw [hmap, bind_err, map_err_iff, toldReadAll_err]
    simp only [ha, true_and]
    refine or_congr Iff.rfl ?_
    simp only [bind_ok, told_ok, readAll_iff, Told.ok.injEq, bind_err, hlast, and_false, exists_false, or_false,
      parseTokensTold_err, tokenizerOf]
    constructor
    · rintro ⟨_, ⟨ts, h1, rfl⟩, h2⟩; exact ⟨ts, h1, h2⟩
    · rintro ⟨ts, h1, h2⟩; exact ⟨_, ⟨ts, h1, rfl⟩, h2⟩
  · rw [if_pos ha]
    simp [ha]

/-- **C118**, `encode function`: the file, then the function, then the first value that is refused; "Invalid data" if there are
too few values. -/
theorem C118_encode_function (hash : Bytes → Word) (parseHash : Str → Res Word) (prof : Profile) (file : Str → Option (Option Json))
    (path name : Str) (values : List Str) (lenient : Bool) (r : Reason) :
    executeTold hash parseHash prof file (.encodeFunction path name values lenient) = .err r ↔
      LoadFails file path r ∨ ∃ ops, Declares file path ops ∧ (RefusesFunction ops name r ∨ ∃ f, PicksFunction ops name f ∧
        (firstRefused (if lenient then .lenient else .strict) ((f.inputs.map (·.kind)).zip values) r ∨
          r = .invalidData ∧ values.length < f.inputs.length ∧ ∃ toks,
            List.Forall₂ (fun x t => denotes (if lenient then .lenient else .strict) x.1 x.2 t)
              ((f.inputs.map (·.kind)).zip values) toks)) := by
  rw [executeTold, encodeInputTold, functionStep]
  refine or_congr Iff.rfl (exists_congr fun ops => and_congr_right fun _ => or_congr Iff.rfl (exists_congr fun f =>
    and_congr_right fun _ => ?_))
  rw [bind_err, parseTokensTold_err]
  refine or_congr Iff.rfl ?_
  have hok : ∀ toks, parseTokensTold lenient ((f.inputs.map (·.kind)).zip values) = .ok toks ↔
      List.Forall₂ (fun x t => denotes (if lenient then .lenient else .strict) x.1 x.2 t) ((f.inputs.map (·.kind)).zip values) toks := by
    intro toks
    rw [← coded_eq_ok (g := Reason.kind), parseTokens_coded, parseTokens_iff]
  simp only [hok, map_err_iff, told_err]
  constructor
  · rintro ⟨toks, h1, e, he, rfl⟩
    obtain ⟨rfl, hs, hf⟩ := ((C20_function_outcomes hash prof f toks).1 e).1 he
    refine ⟨rfl, ?_, toks, h1⟩
    by_contra hl
    have hl : f.inputs.length ≤ values.length := by omega
    apply hf
    have hz : (f.inputs.map (·.kind)).zip values = (f.inputs.map (·.kind)).zip (values.take f.inputs.length) := by
      rw [← List.take_append_drop f.inputs.length values]
      conv_lhs => rw [← List.append_nil (f.inputs.map (·.kind)), List.zip_append (by simp; omega)]
      simp
    have hty := C47_args (if lenient then .lenient else .strict) (f.inputs.map (·.kind)) (values.take f.inputs.length) toks
      (by simp; omega) (by
        rw [hz] at h1
        exact h1.imp fun x t h => (C81_accepts_exactly _ _ _ _).2 h)
    exact (C17_accepts_exactly _ _).1 hty
  · rintro ⟨rfl, hl, toks, h1⟩
    refine ⟨toks, h1, .invalidData, ?_, rfl⟩
    have hlen := h1.length_eq
    rw [List.length_zip, List.length_map] at hlen
    exact (C20_wrong_count_rejected hash prof f ⟨[]⟩ [] toks).1 (by omega)

/-- **C118**, `decode params`: the first type text that is not read, then the data. -/
theorem C118_decode_params (hash : Bytes → Word) (parseHash : Str → Res Word) (prof : Profile) (file : Str → Option (Option Json))
    (types : List Str) (data : Str) (r : Reason) :
    executeTold hash parseHash prof file (.decodeParams types data) = .err r ↔
      TypeFails types r ∨ ∃ ts, ReadAs types ts ∧ DataFails prof ts data r := by
  rw [executeTold, decodeParamsTold, bind_err, toldReadAll_err]
  refine or_congr Iff.rfl (exists_congr fun ts => ?_)
  rw [told_ok, readAll_iff, dataStep]

/-- **C118**, `decode function`: the file, then the function, then the data. -/
theorem C118_decode_function (hash : Bytes → Word) (parseHash : Str → Res Word) (prof : Profile) (file : Str → Option (Option Json))
    (path name data : Str) (r : Reason) :
    executeTold hash parseHash prof file (.decodeFunction path name data) = .err r ↔
      LoadFails file path r ∨ ∃ ops, Declares file path ops ∧ (RefusesFunction ops name r ∨ ∃ f, PicksFunction ops name f ∧
        DataFails prof (f.outputs.map (·.kind)) data r) := by
  rw [executeTold, decodeOutputTold, functionStep]
  refine or_congr Iff.rfl (exists_congr fun ops => and_congr_right fun _ => or_congr Iff.rfl (exists_congr fun f =>
    and_congr_right fun _ => ?_))
  rw [← dataStep prof _ data (fun toks => join (lit "\n") (typedLines (f.outputs.map (·.kind)) toks)) r, List.length_map]
  rfl

/-- **C118**, `decode log`: the file, then the event, then the first topic that is not read, then the data, then what
`parse_log` says (C93). -/
theorem C118_decode_log (hash : Bytes → Word) (parseHash : Str → Res Word) (prof : Profile) (file : Str → Option (Option Json))
    (path name data : Str) (topics : List Str) (r : Reason) :
    executeTold hash parseHash prof file (.decodeLog path name topics data) = .err r ↔
      LoadFails file path r ∨ ∃ ops, Declares file path ops ∧ (RefusesEvent hash ops name r ∨ ∃ e, PicksEvent hash ops name e ∧
        ((∃ before s after ws x, topics = before ++ s :: after ∧ List.Forall₂ (fun s w => parseHash s = .ok w) before ws ∧
            parseHash s = .err x ∧ r = .ofErr x) ∨
          ∃ ws, List.Forall₂ (fun s w => parseHash s = .ok w) topics ws ∧
            ((∃ h, hexFails data h ∧ r = .plainHex h) ∨ ∃ bs x, hexText data bs ∧
              e.parseLog hash prof { topics := ws, data := bs } = .err x ∧ r = .ofErr x))) := by
  rw [executeTold, decodeLogTold, eventStep]
  refine or_congr Iff.rfl (exists_congr fun ops => and_congr_right fun _ => or_congr Iff.rfl (exists_congr fun e =>
    and_congr_right fun _ => ?_))
  have hok : ∀ bs, hexDecodeCli data = .ok bs ↔ hexText data bs := by
    intro bs
    rw [← TokenText.hexDecode_iff, ← hexDecodeCli_coded, coded_eq_ok]
  simp only [bind_err, map_err_iff, told_err, told_ok, parseHashes_err, parseHashes_iff, hexDecodeCli_err, hok]
  refine or_congr ?_ ?_
  · constructor
    · rintro ⟨x, ⟨b, s, a, ts, h1, h2, h3⟩, h4⟩; exact ⟨b, s, a, ts, x, h1, h2, h3, h4⟩
    · rintro ⟨b, s, a, ts, x, h1, h2, h3, h4⟩; exact ⟨x, ⟨b, s, a, ts, h1, h2, h3⟩, h4⟩
  · refine exists_congr fun ws => and_congr_right fun _ => or_congr Iff.rfl ?_
    constructor
    · rintro ⟨bs, h1, (⟨x, h2, h3⟩ | ⟨l, -, h⟩)⟩
      · exact ⟨bs, x, h1, h2, h3⟩
      · cases h
    · rintro ⟨bs, x, h1, h2, h3⟩; exact ⟨bs, h1, .inl ⟨x, h2, h3⟩⟩

/-! ### texts -/

/-- the reasons that tokenizers give -/
def OfTokenizer : Reason → Prop
  | .invalidData | .hex _ | .decCharacter | .decLength | .underflow | .overflow => True
  | _ => False

theorem ofTokenizer_hexAt {n : Nat} {s : Str} {r : Reason} (h : hexFailsAt n s r) : OfTokenizer r := by
  rcases h with ⟨h, -, rfl⟩ | ⟨rfl, -⟩ <;> trivial

theorem ofTokenizer_dec {s : Str} {r : Reason} (h : decFails s r) : OfTokenizer r := by
  rcases h with ⟨-, rfl⟩ | ⟨-, rfl⟩ <;> trivial

theorem ofTokenizer_int {s : Str} {r : Reason} (h : intFails s r) : OfTokenizer r := by
  rcases h with h | ⟨n, -, -, ⟨-, -, rfl⟩ | ⟨-, -, rfl⟩⟩
  · exact ofTokenizer_dec h
  all_goals trivial

mutual
theorem ofTokenizer (m : Tokenizer) : ∀ (p : ParamType) (s : Str) (r : Reason), failsFor m p s r → OfTokenizer r
  | .address, s, r, h => by rw [failsFor] at h; exact ofTokenizer_hexAt h
  | .bytes, s, r, h => by rw [failsFor] at h; obtain ⟨h, -, rfl⟩ := h; trivial
  | .fixedBytes n, s, r, h => by rw [failsFor] at h; exact ofTokenizer_hexAt h
  | .string, s, r, h => by rw [failsFor] at h; exact h.elim
  | .bool, s, r, h => by rw [failsFor] at h; obtain ⟨rfl, -⟩ := h; trivial
  | .uint _, s, r, h => by
    rw [failsFor] at h
    rcases h with ⟨-, h⟩ | ⟨-, -, h⟩
    · exact ofTokenizer_hexAt h
    · exact ofTokenizer_dec h
  | .int _, s, r, h => by
    rw [failsFor] at h
    rcases h with ⟨-, h⟩ | ⟨-, -, h⟩
    · exact ofTokenizer_hexAt h
    · exact ofTokenizer_int h
  | .array p, s, r, h => by
    rw [failsFor] at h
    rcases h with ⟨rfl, -⟩ | ⟨us, ts, u, -, -, h⟩ | ⟨rfl, -⟩
    · trivial
    · exact ofTokenizer m p u r h
    · trivial
  | .fixedArray p n, s, r, h => by
    rw [failsFor] at h
    rcases h with ⟨rfl, -⟩ | ⟨us, ts, u, -, -, h⟩ | ⟨rfl, -⟩
    · trivial
    · exact ofTokenizer m p u r h
    · trivial
  | .tuple ps, s, r, h => by
    rw [failsFor] at h
    rcases h with ⟨rfl, -⟩ | ⟨us, ts, u, -, -, h⟩ | ⟨rfl, -⟩
    · trivial
    · exact ofTokenizerAt m ps us.length u r h
    · trivial
theorem ofTokenizerAt (m : Tokenizer) : ∀ (ps : List ParamType) (i : Nat) (u : Str) (r : Reason), failsForAt m ps i u r → OfTokenizer r
  | [], i, u, r, h => by rw [failsForAt] at h; subst h; trivial
  | p :: ps, 0, u, r, h => by rw [failsForAt] at h; exact ofTokenizer m p u r h
  | p :: ps, i + 1, u, r, h => by rw [failsForAt] at h; exact ofTokenizerAt m ps i u r h
end

theorem takeWhile_suffix {α : Type} (f : α → Bool) : ∀ {a b : List α} {x y : α} {c d : List α}, (∀ z ∈ a, f z = true) →
    (∀ z ∈ b, f z = true) → f x = false → f y = false → a ++ x :: c = b ++ y :: d → a = b ∧ c = d
  | [], [], x, y, c, d, _, _, _, _, h => by cases h; exact ⟨rfl, rfl⟩
  | [], z :: b, x, y, c, d, _, hb, hx, _, h => by
    have e : x = z := (List.cons.inj h).1
    rw [e, hb z (by simp)] at hx; cases hx
  | z :: a, [], x, y, c, d, ha, _, _, hy, h => by
    have e : z = y := (List.cons.inj h).1
    rw [← e, ha z (by simp)] at hy; cases hy
  | z :: a, w :: b, x, y, c, d, ha, hb, hx, hy, h => by
    simp only [List.cons_append, List.cons.injEq] at h
    obtain ⟨rfl, h⟩ := h
    obtain ⟨rfl, rfl⟩ := takeWhile_suffix f (fun v hv => ha v (by simp [hv])) (fun v hv => hb v (by simp [hv])) hx hy h
    exact ⟨rfl, rfl⟩

/-- a text and a decimal number behind a space: both can be told apart -/
theorem number_suffix {a b sep rest : List Char} (hs : sep.reverse = ' ' :: rest) {i k : Nat}
    (h : a ++ sep ++ Nat.toDigits 10 i = b ++ sep ++ Nat.toDigits 10 k) : a = b ∧ i = k := by
  have hr := congrArg List.reverse h
  simp only [List.reverse_append] at hr
  rw [hs, List.cons_append, List.cons_append] at hr
  have hd : ∀ n, ∀ z ∈ (Nat.toDigits 10 n).reverse, z.isDigit = true := by
    intro n z hz
    exact Nat.isDigit_of_mem_toDigits (by decide) (by decide) (List.mem_reverse.1 hz)
  obtain ⟨h1, h2⟩ := takeWhile_suffix Char.isDigit (hd i) (hd k) (by decide) (by decide) hr
  have h1 := List.reverse_injective h1
  refine ⟨?_, ?_⟩
  · exact List.reverse_injective (List.append_cancel_left h2)
  · have := congrArg (Nat.ofDigitChars 10 · 0) h1
    simpa using this

theorem hexText_tell (ts : Texts) (hq : Function.Injective ts.quoted) (a b : HexReason) (hab : a.text ts = b.text ts) : a = b := by
  obtain ⟨o, hO⟩ : ∃ o, lit "Odd number of digits" = 'O' :: o := ⟨lit "dd number of digits", by decide +kernel⟩
  obtain ⟨i, hI⟩ : ∃ i, lit "Invalid character " = 'I' :: i := ⟨lit "nvalid character ", by decide +kernel⟩
  obtain ⟨p, hp⟩ : ∃ p, (lit " at position ").reverse = ' ' :: p := ⟨(lit " at position").reverse, by decide +kernel⟩
  unfold HexReason.text at hab
  generalize lit "Odd number of digits" = O at *
  generalize lit "Invalid character " = I at *
  generalize lit " at position " = P at *
  subst hO hI
  cases a with
  | odd =>
    cases b with
    | odd => rfl
    | character c i => exact absurd (List.cons.inj hab).1 (by decide)
  | character c i =>
    cases b with
    | odd => exact absurd (List.cons.inj hab).1 (by decide)
    | character d k =>
      obtain ⟨e1, e2⟩ := number_suffix hp hab
      rw [e2, hq (List.append_cancel_left e1)]

/-- **C118**: messages of tokenizers tell the errors apart, character and position included. -/
theorem C118_texts_tell (ts : Texts) (hq : Function.Injective ts.quoted) (m m' : Tokenizer) (p p' : ParamType) (s s' : Str)
    (r r' : Reason) (h : tokenizeTold m p s = .err r) (h' : tokenizeTold m' p' s' = .err r') (ht : r.text ts = r'.text ts) :
    r = r' := by
  have h1 := ofTokenizer m p s r ((C118_tokenizers m p s r).1 h)
  have h2 := ofTokenizer m' p' s' r' ((C118_tokenizers m' p' s' r').1 h')
  clear h h'
  obtain ⟨w, hH⟩ : ∃ w, lit "Hex parsing error: " = 'H' :: w := ⟨lit "ex parsing error: ", by decide +kernel⟩
  have d1 : ∀ x ∈ [lit "Invalid data", lit "Uint parse error: InvalidCharacter", lit "Uint parse error: InvalidLength",
      lit "int256 parse error: Underflow", lit "int256 parse error: Overflow"], x.head? ≠ some 'H' := by decide +kernel
  have d2 : [lit "Invalid data", lit "Uint parse error: InvalidCharacter", lit "Uint parse error: InvalidLength",
      lit "int256 parse error: Underflow", lit "int256 parse error: Overflow"].Nodup := by decide +kernel
  unfold Reason.text at ht
  generalize lit "Hex parsing error: " = H at *
  generalize lit "Invalid data" = A at *
  generalize lit "Uint parse error: InvalidCharacter" = B at *
  generalize lit "Uint parse error: InvalidLength" = C at *
  generalize lit "int256 parse error: Underflow" = D at *
  generalize lit "int256 parse error: Overflow" = E at *
  simp only [List.mem_cons, List.not_mem_nil, or_false, forall_eq_or_imp, forall_eq] at d1
  simp only [List.nodup_cons, List.mem_cons, List.not_mem_nil, or_false, not_or, List.nodup_nil, not_false_iff, and_true] at d2
  obtain ⟨a1, a2, a3, a4, a5⟩ := d1
  obtain ⟨⟨b1, b2, b3, b4⟩, ⟨b5, b6, b7⟩, ⟨b8, b9⟩, b10⟩ := d2
  have key : ∀ x y : List Char, y.head? ≠ some 'H' → H ++ x ≠ y := by
    intro x y hy e
    rw [← e, hH, List.cons_append, List.head?_cons] at hy
    exact hy rfl
  cases r <;> first | exact h1.elim | skip
  all_goals cases r' <;> first | exact h2.elim | rfl | skip
  all_goals simp only [] at ht
  all_goals first
    | rw [hexText_tell ts hq _ _ (List.append_cancel_left ht)]
    | exact absurd ht (key _ _ (by assumption))
    | exact absurd ht.symm (key _ _ (by assumption))
    | exact absurd ht (by assumption)
    | exact absurd ht.symm (by assumption)

/-! ## Cases -/

/-- texts of other crates for the cases below -/
def sampleTexts : Texts where
  quoted b := ['\'', Char.ofNat b.toNat, '\'']
  foreign _ := lit "…"
  notOpened _ := lit "No such file or directory (os error 2)"

example : Function.Injective sampleTexts.quoted := by
  intro a b h
  have h : Char.ofNat a.toNat = Char.ofNat b.toNat := by simpa [sampleTexts] using h
  have ha := a.toNat_lt
  have hb := b.toNat_lt
  have := congrArg Char.toNat h
  have hc : ∀ n, n < 256 → (Char.ofNat n).toNat = n := by decide +kernel
  rw [hc _ ha, hc _ hb] at this
  exact UInt8.toNat_inj.1 this

/-- the message of the tokenizer -/
def messageOf (m : Tokenizer) (p : ParamType) (s : String) : Option String :=
  match tokenizeTold m p s.toList with
  | .err r => some (String.ofList (r.text sampleTexts))
  | _ => none

/-- one message for each reason of the tokenizers, among them those that the tests of the repository expect (main.rs:286, 307,
314, 323) -/
example :
    messageOf .lenient (.uint 256) "123abc" = some "Uint parse error: InvalidCharacter" ∧
    messageOf .lenient (.int 256) "abc123" = some "Uint parse error: InvalidCharacter" ∧
    messageOf .lenient (.int 256) "-57896044618658097711785492504343953926634992332820282019728792003956564819969" =
      some "int256 parse error: Underflow" ∧
    messageOf .lenient (.int 256) "57896044618658097711785492504343953926634992332820282019728792003956564819968" =
      some "int256 parse error: Overflow" ∧
    messageOf .lenient (.uint 8) "115792089237316195423570985008687907853269984665640564039457584007913129639936" =
      some "Uint parse error: InvalidLength" ∧
    messageOf .strict .bytes "123" = some "Hex parsing error: Odd number of digits" ∧
    messageOf .strict .bytes "12g4" = some "Hex parsing error: Invalid character 'g' at position 2" ∧
    messageOf .strict (.tuple [.bool, .bytes]) "(1,0x)" = some "Hex parsing error: Invalid character 'x' at position 1" ∧
    messageOf .strict .bytes "0é0" = some "Hex parsing error: Invalid character 'Ã' at position 1" ∧
    messageOf .strict .bool "yes" = some "Invalid data" := by decide +kernel

/-- the message of the tool, with the entries of C51 in the file "abi" -/
def toolMessage (cmd : Command) : Option String :=
  match executeTold prefixHash (fun _ => .err .other) .debug (fun p => if p = lit "abi" then some (some (.arr overloads)) else none) cmd with
  | .err r => some (String.ofList (r.text sampleTexts))
  | _ => none

/-- one message for each reason of the tool -/
example :
    toolMessage (.encodeFunction (lit "abi") (lit "f") [] false) =
      some "More than one function found for name `f`, try providing the full signature" ∧
    toolMessage (.encodeFunction (lit "abi") (lit "h") [] false) = some "Invalid name: h" ∧
    toolMessage (.encodeFunction (lit "abi") (lit "h(bool)") [] false) = some "Invalid name: h" ∧
    toolMessage (.encodeFunction (lit "abi") (lit "f(uint8)") [] false) = some "invalid function signature `f(uint8)`" ∧
    toolMessage (.encodeFunction (lit "abi") (lit "g") [] false) = some "Invalid data" ∧
    toolMessage (.encodeFunction (lit "none") (lit "g") [] false) = some "No such file or directory (os error 2)" ∧
    toolMessage (.decodeLog (lit "abi") (lit "e(bool)") [] (lit "")) = some "Invalid signature `0x6528…0000`" ∧
    toolMessage (.decodeParams [lit "bool"] (lit "0g")) = some "Invalid character 'g' at position 1" ∧
    toolMessage (.encodeParams [lit "boool", lit "x", lit "bool", lit "y"] true) = some "Invalid name: boool" ∧
    toolMessage (.encodeParams [lit "bool", lit "x", lit "uint8", lit "y"] true) = some "Invalid data" := by decide +kernel

end Ethabi.Props

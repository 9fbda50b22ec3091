import Verif.Model.CliExecute
import Verif.Props.Cli
import Verif.Props.AbiJson
import Verif.Props.Reading
import Verif.Props.LogsExact
import Verif.Props.TokenText
import Verif.Props.Limits
import Verif.Props.Outcomes
/-!
# C85: exactly what the commands of the tool print
-/
namespace Ethabi.Props
open Spec TokenText

/-! ## The statement -/

/-- the file holds a JSON array whose elements denote these operations (C77) -/
def Declares (file : Str → Option (Option Json)) (path : Str) (ops : List Operation) : Prop :=
  ∃ j, file path = some (some j) ∧ DenotesEach DenotesOperation j ops

/-- the function an argument stands for: the only one of that name, or the first of that name with that text -/
inductive PicksFunction (ops : List Operation) : Str → Function → Prop
  | byName {n : Str} {f : Function} : '(' ∉ n → declaredFunctions n ops = [f] → PicksFunction ops n f
  | bySignature {n rest : Str} {f : Function} {before after : List Function} : '(' ∉ n →
      declaredFunctions n ops = before ++ f :: after → functionText f = n ++ '(' :: rest →
      (∀ g ∈ before, functionText g ≠ n ++ '(' :: rest) → PicksFunction ops (n ++ '(' :: rest) f

/-- the event an argument stands for: the only one of that name, or the first of that name whose text has the hash of the
argument without its spaces -/
inductive PicksEvent (hash : Bytes → Word) (ops : List Operation) : Str → Event → Prop
  | byName {n : Str} {e : Event} : '(' ∉ n → declaredEvents n ops = [e] → PicksEvent hash ops n e
  | bySignature {n rest : Str} {e : Event} {before after : List Event} : '(' ∉ n →
      declaredEvents n ops = before ++ e :: after →
      textHash hash (eventText e) = textHash hash ((n ++ '(' :: rest).filter (· ≠ ' ')) →
      (∀ g ∈ before, textHash hash (eventText g) ≠ textHash hash ((n ++ '(' :: rest).filter (· ≠ ' '))) →
      PicksEvent hash ops (n ++ '(' :: rest) e

/-- the bytes in lower case hexadecimal -/
def PrintsHex (out : Str) (b : Bytes) : Prop := hexText out b ∧ ∀ c ∈ out, c ∈ "0123456789abcdef".toList

/-- one line "type value" for each value -/
def PrintsLines (out : Str) (ts : List ParamType) (toks : List Token) : Prop :=
  ∃ ls, List.Forall₂ (fun (x : ParamType × Token) l => l = (typeName x.1).toList ++ ' ' :: x.2.display) (ts.zip toks) ls ∧
    out = List.intercalate ['\n'] ls

/-- the texts are read as these types -/
def ReadAs (texts : List Str) (ts : List ParamType) : Prop := List.Forall₂ (fun s t => read s = .ok t) texts ts

/-! ## Lemmas -/

theorem readAll_iff : ∀ (ss : List Str) (ts : List ParamType), readAll ss = .ok ts ↔ ReadAs ss ts
  | [], ts => by
    rw [readAll, Res.ok.injEq]
    exact ⟨fun h => h ▸ .nil, fun h => by cases h; rfl⟩
  | s :: ss, ts => by
    simp only [readAll, Res.bind_eq_ok, Res.ok.injEq, readAll_iff ss]
    constructor
    · rintro ⟨t, h1, ts', h2, rfl⟩; exact .cons h1 h2
    · intro h; cases h with
      | cons h1 h2 => exact ⟨_, h1, _, h2, rfl⟩

theorem printsLines_iff (out : Str) (ts : List ParamType) (toks : List Token) :
    PrintsLines out ts toks ↔ out = join (lit "\n") (typedLines ts toks) := by
  rw [typedLines_eq, join_eq_intercalate]
  have key : ∀ (l : List (ParamType × Token)) ls,
      List.Forall₂ (fun (x : ParamType × Token) l => l = (typeName x.1).toList ++ ' ' :: x.2.display) l ls ↔
        ls = l.map fun x => (typeName x.1).toList ++ ' ' :: x.2.display := by
    intro l
    induction l with
    | nil => intro ls; exact ⟨fun h => by cases h; rfl, fun h => h ▸ .nil⟩
    | cons x l ih =>
      intro ls
      constructor
      · intro h; cases h with
        | cons h1 h2 => rw [List.map_cons, h1, (ih _).1 h2]
      · rintro rfl; exact .cons rfl ((ih _).2 rfl)
  unfold PrintsLines
  constructor
  · rintro ⟨ls, h1, rfl⟩; rw [(key _ ls).1 h1]; rfl
  · rintro rfl; exact ⟨_, (key _ _).2 rfl, rfl⟩

theorem mem_hexDigits (c : Char) : c ∈ hexDigits ↔ c ∈ "0123456789abcdef".toList := by
  have : hexDigits = "0123456789abcdef".toList := by decide +kernel
  rw [this]

theorem printsHex_hexEncode (b : Bytes) : PrintsHex (hexEncode b) b :=
  ⟨hexDecode_iff.1 (hexDecode_hexEncode b), fun c hc => (mem_hexDigits c).1 (hexEncode_digits b c hc)⟩

theorem hexPair : ∀ a ∈ hexDigits, ∀ b ∈ hexDigits, ∃ x y, hexVal a = some x ∧ hexVal b = some y ∧
    hexByte (UInt8.ofNat (x * 16 + y)) = [a, b] := by
  have : ∀ a ∈ hexDigits, ∀ b ∈ hexDigits, (match hexVal a, hexVal b with
      | some x, some y => hexByte (UInt8.ofNat (x * 16 + y)) == [a, b] | _, _ => false) = true := by decide +kernel
  intro a ha b hb
  have h := this a ha b hb
  cases hx : hexVal a with
  | none => simp [hx] at h
  | some x =>
    cases hy : hexVal b with
    | none => simp [hx, hy] at h
    | some y => exact ⟨x, y, rfl, rfl, by simpa [hx, hy] using h⟩

theorem hexEncode_of_lower : ∀ (s : Str) (b : Bytes), (∀ c ∈ s, c ∈ hexDigits) → hexDecode s = .ok b → s = hexEncode b
  | [], b, _, h => by cases h; rfl
  | [_], b, _, h => by cases h
  | c :: d :: cs, b, hs, h => by
    obtain ⟨x, y, hx, hy, hxy⟩ := hexPair c (hs c (by simp)) d (hs d (by simp))
    simp only [hexDecode, hx, hy, Res.bind_eq_ok, Res.ok.injEq] at h
    obtain ⟨r, hr, rfl⟩ := h
    have := hexEncode_of_lower cs r (fun e he => hs e (by simp [he])) hr
    rw [hexEncode, List.flatMap_cons, hxy]
    show _ = [c, d] ++ hexEncode r
    rw [← this]
    rfl

theorem printsHex_iff (out : Str) (b : Bytes) : PrintsHex out b ↔ out = hexEncode b := by
  constructor
  · rintro ⟨h1, h2⟩
    exact hexEncode_of_lower out b (fun c hc => (mem_hexDigits c).2 (h2 c hc)) (hexDecode_iff.2 h1)
  · rintro rfl; exact printsHex_hexEncode b

theorem forall_of_denotesEach {j : Json} {ops : List Operation} (h : DenotesEach DenotesOperation j ops) :
    ∃ js, j = .arr js ∧ List.Forall₂ (fun j op => deOperation j = .ok op) js ops := by
  induction h with
  | nil => exact ⟨[], rfl, .nil⟩
  | cons h1 _ ih =>
    obtain ⟨js, e, h2⟩ := ih
    cases e
    exact ⟨_, rfl, .cons ((C77_operation _ _).2 h1) h2⟩

theorem loads_of_ok {j : Json} {c : Contract} (h : deContract j = .ok c) : ∃ ops, DenotesEach DenotesOperation j ops :=
  (C77_contract j).1.1 ⟨c, h⟩

theorem split_paren (s : Str) (h : '(' ∈ s) : ∃ n rest, s = n ++ '(' :: rest ∧ '(' ∉ n := by
  induction s with
  | nil => cases h
  | cons c s ih =>
    by_cases hc : c = '('
    · exact ⟨[], s, by rw [hc]; rfl, by simp⟩
    · obtain ⟨n, rest, e, hn⟩ := ih (by simpa [Ne.symm hc] using h)
      exact ⟨c :: n, rest, by rw [e]; rfl, by simp [hn, Ne.symm hc]⟩

theorem paren_unique {n m r q : Str} (hn : '(' ∉ n) (hm : '(' ∉ m) (h : n ++ '(' :: r = m ++ '(' :: q) : n = m ∧ r = q := by
  have h1 := takeWhile_paren hn r
  rw [h, takeWhile_paren hm] at h1
  subst h1
  exact ⟨rfl, by simpa using h⟩

theorem loadFunction_iff (j : Json) (s : Str) (f : Function) :
    loadFunction j s = .ok f ↔ ∃ ops, DenotesEach DenotesOperation j ops ∧ PicksFunction ops s f := by
  have key : ∀ ops, DenotesEach DenotesOperation j ops → (loadFunction j s = .ok f ↔ PicksFunction ops s f) := by
    intro ops h
    obtain ⟨js, rfl, hf⟩ := forall_of_denotesEach h
    by_cases hs : '(' ∈ s
    · obtain ⟨n, rest, rfl, hn⟩ := split_paren s hs
      rw [(C51_function_by_signature js ops hf n rest hn).1 f]
      constructor
      · rintro ⟨b, a, h1, h2, h3⟩; exact .bySignature hn h1 h2 h3
      · intro hp
        generalize hg : n ++ '(' :: rest = s at hp
        cases hp with
        | byName h1 _ => subst hg; simp at h1
        | bySignature h1 h2 h3 h4 =>
          obtain ⟨rfl, rfl⟩ := paren_unique hn h1 hg
          exact ⟨_, _, h2, h3, h4⟩
    · rw [C51_function_by_name js ops hf s hs]
      constructor
      · intro h
        rcases hd : declaredFunctions s ops with _ | ⟨g, _ | ⟨g', l⟩⟩
        · rw [hd] at h; cases h
        · rw [hd] at h; cases h; exact .byName hs hd
        · rw [hd] at h; cases h
      · intro hp
        cases hp with
        | byName h1 h2 => rw [h2]
        | bySignature => simp at hs
  constructor
  · intro h
    have hc : ∃ c, deContract j = .ok c := by
      rw [loadFunction, Res.bind_eq_ok] at h
      obtain ⟨c, hc, -⟩ := h
      exact ⟨c, hc⟩
    obtain ⟨c, hc⟩ := hc
    obtain ⟨ops, ho⟩ := loads_of_ok hc
    exact ⟨ops, ho, (key ops ho).1 h⟩
  · rintro ⟨ops, ho, hp⟩; exact (key ops ho).2 hp

theorem loadEvent_iff (hash : Bytes → Word) (j : Json) (s : Str) (e : Event) :
    loadEvent hash j s = .ok e ↔ ∃ ops, DenotesEach DenotesOperation j ops ∧ PicksEvent hash ops s e := by
  have key : ∀ ops, DenotesEach DenotesOperation j ops → (loadEvent hash j s = .ok e ↔ PicksEvent hash ops s e) := by
    intro ops h
    obtain ⟨js, rfl, hf⟩ := forall_of_denotesEach h
    by_cases hs : '(' ∈ s
    · obtain ⟨n, rest, rfl, hn⟩ := split_paren s hs
      rw [(C51_event_by_signature hash js ops hf n rest hn).1 e]
      constructor
      · rintro ⟨b, a, h1, h2, h3⟩; exact .bySignature hn h1 h2 h3
      · intro hp
        generalize hg : n ++ '(' :: rest = s at hp
        cases hp with
        | byName h1 _ => subst hg; simp at h1
        | bySignature h1 h2 h3 h4 =>
          obtain ⟨rfl, rfl⟩ := paren_unique hn h1 hg
          exact ⟨_, _, h2, h3, h4⟩
    · rw [C51_event_by_name hash js ops hf s hs]
      constructor
      · intro h
        rcases hd : declaredEvents s ops with _ | ⟨g, _ | ⟨g', l⟩⟩
        · rw [hd] at h; cases h
        · rw [hd] at h; cases h; exact .byName hs hd
        · rw [hd] at h; cases h
      · intro hp
        cases hp with
        | byName h1 h2 => rw [h2]
        | bySignature => simp at hs
  constructor
  · intro h
    have hc : ∃ c, deContract j = .ok c := by
      rw [loadEvent, Res.bind_eq_ok] at h
      obtain ⟨c, hc, -⟩ := h
      exact ⟨c, hc⟩
    obtain ⟨c, hc⟩ := hc
    obtain ⟨ops, ho⟩ := loads_of_ok hc
    exact ⟨ops, ho, (key ops ho).1 h⟩
  · rintro ⟨ops, ho, hp⟩; exact (key ops ho).2 hp

theorem openAbi_iff (file : Str → Option (Option Json)) (path : Str) (j : Json) :
    openAbi file path = .ok j ↔ file path = some (some j) := by
  unfold openAbi
  split <;> simp_all

theorem declares_iff {file : Str → Option (Option Json)} {path : Str} {P : List Operation → Prop} :
    (∃ j, openAbi file path = .ok j ∧ ∃ ops, DenotesEach DenotesOperation j ops ∧ P ops) ↔
      ∃ ops, Declares file path ops ∧ P ops := by
  constructor
  · rintro ⟨j, h1, ops, h2, h3⟩; exact ⟨ops, ⟨j, (openAbi_iff _ _ _).1 h1, h2⟩, h3⟩
  · rintro ⟨ops, ⟨j, h1, h2⟩, h3⟩; exact ⟨j, (openAbi_iff _ _ _).2 h1, ops, h2, h3⟩

theorem openFunction (file : Str → Option (Option Json)) (path name : Str) (P : Function → Prop) :
    (∃ j, openAbi file path = .ok j ∧ ∃ f, loadFunction j name = .ok f ∧ P f) ↔
      ∃ ops f, Declares file path ops ∧ PicksFunction ops name f ∧ P f := by
  simp only [loadFunction_iff, Declares, openAbi_iff]
  constructor
  · rintro ⟨j, h1, f, ⟨ops, h2, h3⟩, h4⟩; exact ⟨ops, f, ⟨j, h1, h2⟩, h3, h4⟩
  · rintro ⟨ops, f, ⟨j, h1, h2⟩, h3, h4⟩; exact ⟨j, h1, f, ⟨ops, h2, h3⟩, h4⟩

theorem openEvent (hash : Bytes → Word) (file : Str → Option (Option Json)) (path name : Str) (P : Event → Prop) :
    (∃ j, openAbi file path = .ok j ∧ ∃ e, loadEvent hash j name = .ok e ∧ P e) ↔
      ∃ ops e, Declares file path ops ∧ PicksEvent hash ops name e ∧ P e := by
  simp only [loadEvent_iff, Declares, openAbi_iff]
  constructor
  · rintro ⟨j, h1, f, ⟨ops, h2, h3⟩, h4⟩; exact ⟨ops, f, ⟨j, h1, h2⟩, h3, h4⟩
  · rintro ⟨ops, f, ⟨j, h1, h2⟩, h3, h4⟩; exact ⟨j, h1, f, ⟨ops, h2, h3⟩, h4⟩

theorem readsAll_length : ∀ (ts : List ParamType) (data : Bytes) (o : Nat) (toks : List Token),
    readsAll ts data o toks → toks.length = ts.length := by
  intro ts
  induction ts with
  | nil => intro data o toks h; simp only [readsAll] at h; subst h; rfl
  | cons t ts ih =>
    intro data o toks h
    simp only [readsAll] at h
    obtain ⟨x, xs, h1, h2, rfl⟩ := h
    rw [List.length_cons, ih _ _ _ h2, List.length_cons]

/-! ## The theorems -/

/-- **C85**, `decode params`: it prints one line "type value" for each value that the data hold, exactly if the types can be
read, the data are hexadecimal and hold values of the types (C74). -/
theorem C85_decode_params (hash : Bytes → Word) (parseHash : Str → Res Word) (prof : Profile)
    (file : Str → Option (Option Json)) (types : List Str) (data out : Str)
    (hn : ∀ ts, ReadAs types ts → narrowAll ts = true) (hd : data.length < 2 ^ 63) :
    execute hash parseHash prof file (.decodeParams types data) = .ok out ↔ ∃ ts bs toks, ReadAs types ts ∧ hexText data bs ∧
      (bs ≠ [] ∨ zeroTypes ts) ∧ readsAll ts bs 0 toks ∧ PrintsLines out ts toks := by
  rw [execute, cliDecodeParams]
  simp only [Res.bind_eq_ok, readAll_iff, hexDecode_iff, printsLines_iff]
  constructor
  · rintro ⟨ts, h1, bs, h2, toks, h3, h4⟩
    obtain ⟨h5, h6⟩ := (C74_decodes_exactly prof ts bs toks (hn ts h1) (by have := h2.1; omega)).1 h3
    rw [if_neg (by rw [readsAll_length _ _ _ _ h6]; simp)] at h4
    exact ⟨ts, bs, toks, h1, h2, h5, h6, (Res.ok.inj h4).symm⟩
  · rintro ⟨ts, bs, toks, h1, h2, h5, h6, rfl⟩
    refine ⟨ts, h1, bs, h2, toks, (C74_decodes_exactly prof ts bs toks (hn ts h1) (by have := h2.1; omega)).2 ⟨h5, h6⟩, ?_⟩
    rw [if_neg (by rw [readsAll_length _ _ _ _ h6]; simp)]

/-- **C85**, `decode function`: the same for the outputs of the function that the file declares under that name. -/
theorem C85_decode_function (hash : Bytes → Word) (parseHash : Str → Res Word) (prof : Profile)
    (file : Str → Option (Option Json)) (path name data out : Str)
    (hn : ∀ ops f, Declares file path ops → PicksFunction ops name f → narrowAll (f.outputs.map (·.kind)) = true)
    (hd : data.length < 2 ^ 63) :
    execute hash parseHash prof file (.decodeFunction path name data) = .ok out ↔ ∃ ops f bs toks, Declares file path ops ∧
      PicksFunction ops name f ∧ hexText data bs ∧ (bs ≠ [] ∨ zeroTypes (f.outputs.map (·.kind))) ∧
      readsAll (f.outputs.map (·.kind)) bs 0 toks ∧ PrintsLines out (f.outputs.map (·.kind)) toks := by
  rw [execute]
  simp only [cliDecodeOutput, decodeOutputOf, Res.bind_eq_ok, openFunction, hexDecode_iff, printsLines_iff, Function.decodeOutput, Function.outputParamTypes]
  constructor
  · rintro ⟨ops, f, h1, h1', bs, h2, toks, h3, h4⟩
    obtain ⟨h5, h6⟩ := (C74_decodes_exactly prof _ bs toks (hn ops f h1 h1') (by have := h2.1; omega)).1 h3
    rw [if_neg (by rw [readsAll_length _ _ _ _ h6]; simp)] at h4
    exact ⟨ops, f, bs, toks, h1, h1', h2, h5, h6, (Res.ok.inj h4).symm⟩
  · rintro ⟨ops, f, bs, toks, h1, h1', h2, h5, h6, rfl⟩
    refine ⟨ops, f, h1, h1', bs, h2, toks, (C74_decodes_exactly prof _ bs toks (hn ops f h1 h1') (by have := h2.1; omega)).2 ⟨h5, h6⟩, ?_⟩
    rw [if_neg (by rw [readsAll_length _ _ _ _ h6]; simp)]

theorem readAll_panic : ∀ (ss : List Str), readAll ss = .panic ↔
    ∃ before s after ts, ss = before ++ s :: after ∧ ReadAs before ts ∧ read s = .panic
  | [] => by
    simp only [readAll, reduceCtorEq, false_iff]
    rintro ⟨before, s, after, ts, h, -⟩
    simp at h
  | s :: ss => by
    rw [readAll]
    constructor
    · intro h
      cases hr : read s with
      | err e => rw [hr] at h; cases h
      | panic => exact ⟨[], s, ss, [], rfl, .nil, hr⟩
      | ok t =>
        rw [hr, Res.ok_bind] at h
        have hp : readAll ss = .panic := by
          cases ha : readAll ss with
          | ok x => rw [ha] at h; cases h
          | err e => rw [ha] at h; cases h
          | panic => rfl
        obtain ⟨b, x, a, ts, e1, e2, e3⟩ := (readAll_panic ss).1 hp
        exact ⟨s :: b, x, a, t :: ts, by rw [e1]; rfl, .cons hr e2, e3⟩
    · rintro ⟨b, x, a, ts, e1, e2, e3⟩
      cases b with
      | nil =>
        simp only [List.nil_append, List.cons.injEq] at e1
        obtain ⟨rfl, rfl⟩ := e1
        rw [e3]; rfl
      | cons y b =>
        simp only [List.cons_append, List.cons.injEq] at e1
        obtain ⟨rfl, e1⟩ := e1
        cases e2 with
        | cons h1 h2 =>
          rw [h1, Res.ok_bind, (readAll_panic ss).2 ⟨b, x, a, _, e1, h2, e3⟩]
          rfl

/-- **C85**, `decode params`: it panics exactly if reading a type text does before another one is refused (C76), or if all can
be read and the data overrun (C06). -/
theorem C85_decode_params_panics (hash : Bytes → Word) (parseHash : Str → Res Word) (prof : Profile)
    (file : Str → Option (Option Json)) (types : List Str) (data : Str)
    (hn : ∀ ts, ReadAs types ts → narrowAll ts = true) (hd : data.length < 2 ^ 63) :
    execute hash parseHash prof file (.decodeParams types data) = .panic ↔
      (∃ before s after ts, types = before ++ s :: after ∧ ReadAs before ts ∧ read s = .panic) ∨
      (∃ ts bs, ReadAs types ts ∧ hexText data bs ∧ overrunsAny ts bs 0) := by
  rw [execute, cliDecodeParams, ← readAll_panic]
  simp only [← readAll_iff, ← hexDecode_iff]
  cases hr : readAll types with
  | err e => simp
  | panic => simp
  | ok ts =>
    simp only [Res.ok_bind, reduceCtorEq, false_or, Res.ok.injEq, exists_and_left, exists_eq_left']
    cases hx : hexDecode data with
    | err e => simp
    | panic =>
      exfalso
      have : ∀ s, hexDecode s ≠ .panic := by
        intro s
        fun_induction hexDecode s <;> simp_all [Bind.bind, Res.bind]
        split <;> simp_all
      exact this data hx
    | ok bs =>
      simp only [Res.ok_bind, Res.ok.injEq, exists_eq_left']
      have hx' := hexDecode_iff.1 hx
      rw [← C06_panics_exactly prof ts bs (hn ts ((readAll_iff _ _).1 hr)) (by have := hx'.1; omega)]
      cases hdc : decode prof ts bs with
      | err e => simp
      | panic => simp
      | ok toks =>
        have := (C74_decodes_exactly prof ts bs toks (hn ts ((readAll_iff _ _).1 hr)) (by have := hx'.1; omega)).1 hdc
        rw [Res.ok_bind, if_neg (by rw [readsAll_length _ _ _ _ this.2]; simp)]
        simp

theorem parseHashes_iff (parseHash : Str → Res Word) : ∀ (ss : List Str) (ws : List Word),
    parseHashes parseHash ss = .ok ws ↔ List.Forall₂ (fun s w => parseHash s = .ok w) ss ws
  | [], ws => by
    rw [parseHashes, Res.ok.injEq]
    exact ⟨fun h => h ▸ .nil, fun h => by cases h; rfl⟩
  | s :: ss, ws => by
    simp only [parseHashes, Res.bind_eq_ok, Res.ok.injEq, parseHashes_iff parseHash ss]
    constructor
    · rintro ⟨t, h1, ts', h2, rfl⟩; exact .cons h1 h2
    · intro h; cases h with
      | cons h1 h2 => exact ⟨_, h1, _, h2, rfl⟩

/-- **C85**, `decode log`: one line "name value" for each input of the event, in order, with the last value that the topics
and the data hold under that name (C79). -/
theorem C85_decode_log (hash : Bytes → Word) (parseHash : Str → Res Word) (prof : Profile)
    (file : Str → Option (Option Json)) (path name data out : Str) (topics : List Str)
    (hn : ∀ ops e, Declares file path ops → PicksEvent hash ops name e → ∀ p ∈ e.inputs, narrow p.kind = true)
    (ht : topics.length < 2 ^ 58) (hd : data.length < 2 ^ 63) :
    execute hash parseHash prof file (.decodeLog path name topics data) = .ok out ↔
      ∃ ops e ws bs tt dt values, Declares file path ops ∧ PicksEvent hash ops name e ∧
        List.Forall₂ (fun s w => parseHash s = .ok w) topics ws ∧ hexText data bs ∧
        topicsHold hash e.name (e.inputs.map (·.kind)) e.anonymous (ws.map (·.1)) ((e.inputs.filter (·.indexed)).map (·.kind)) tt ∧
        dataHold bs ((e.inputs.filter (!·.indexed)).map (·.kind)) dt ∧
        List.Forall₂ (fun n v => lastNamed (namedValues e tt dt) n v) (e.inputs.map (·.name)) values ∧
        out = List.intercalate ['\n'] (((e.inputs.map (·.name)).zip values).map fun x => x.1 ++ ' ' :: x.2.display) := by
  rw [execute]
  simp only [cliDecodeLog, decodeLogOf, Res.bind_eq_ok, openEvent, hexDecode_iff, parseHashes_iff]
  have hsplit : ∀ (ns : List Str) (ps : List LogParam) (Q : Str → Token → Prop),
      List.Forall₂ (fun n p => p.name = n ∧ Q n p.value) ns ps →
      List.Forall₂ (fun n v => Q n v) ns (ps.map (·.value)) ∧
        (ps.map fun p => p.name ++ lit " " ++ p.value.display) =
          (ns.zip (ps.map (·.value))).map fun x => x.1 ++ ' ' :: x.2.display := by
    intro ns ps Q h
    induction h with
    | nil => exact ⟨.nil, rfl⟩
    | cons h1 _ ih =>
      obtain ⟨e1, e2⟩ := h1
      refine ⟨.cons e2 ih.1, ?_⟩
      rw [List.map_cons, ih.2, e1]
      simp [lit]
  have hjoin : ∀ (ns : List Str) (vs : List Token) (Q : Str → Token → Prop), List.Forall₂ (fun n v => Q n v) ns vs →
      ∃ ps : List LogParam, List.Forall₂ (fun n p => p.name = n ∧ Q n p.value) ns ps ∧ ps.map (·.value) = vs := by
    intro ns vs Q h
    induction h with
    | nil => exact ⟨[], .nil, rfl⟩
    | cons h1 _ ih =>
      obtain ⟨ps, e1, e2⟩ := ih
      exact ⟨⟨_, _⟩ :: ps, .cons ⟨rfl, h1⟩ e1, by rw [List.map_cons, e2]⟩
  constructor
  · rintro ⟨ops, e, h1, h1', ws, h2, bs, h3, l, h4, h5⟩
    have hl := h2.length_eq
    obtain ⟨tt, dt, h6, h7, h8⟩ := (C79_accepts_exactly hash prof e ⟨ws, bs⟩ l (hn ops e h1 h1') (by simp; omega)
      (by have := h3.1; simp; omega)).1 h4
    obtain ⟨e1, e2⟩ := hsplit _ _ _ h8
    refine ⟨ops, e, ws, bs, tt, dt, _, h1, h1', h2, h3, h6, h7, e1, ?_⟩
    rw [← Res.ok.inj h5, join_eq_intercalate, e2]
    rfl
  · rintro ⟨ops, e, ws, bs, tt, dt, vs, h1, h1', h2, h3, h6, h7, h8, rfl⟩
    have hl := h2.length_eq
    obtain ⟨ps, e1, e2⟩ := hjoin _ _ _ h8
    refine ⟨ops, e, h1, h1', ws, h2, bs, h3, ⟨ps⟩, (C79_accepts_exactly hash prof e ⟨ws, bs⟩ _ (hn ops e h1 h1') (by simp; omega)
      (by have := h3.1; simp; omega)).2 ⟨tt, dt, h6, h7, e1⟩, ?_⟩
    rw [join_eq_intercalate, (hsplit _ _ _ e1).2, e2]
    rfl

theorem parseTokens_iff (lenient : Bool) : ∀ (l : List (ParamType × Str)) (ts : List Token),
    parseTokens lenient l = .ok ts ↔
      List.Forall₂ (fun x t => denotes (if lenient then .lenient else .strict) x.1 x.2 t) l ts
  | [], ts => by
    rw [parseTokens, Res.ok.injEq]
    exact ⟨fun h => h ▸ .nil, fun h => by cases h; rfl⟩
  | (p, v) :: l, ts => by
    simp only [parseTokens, Res.bind_eq_ok, Res.ok.injEq, parseTokens_iff lenient l, C81_accepts_exactly, tokenizerOf]
    constructor
    · rintro ⟨t, h1, ts', h2, rfl⟩; exact .cons h1 h2
    · intro h; cases h with
      | cons h1 h2 => exact ⟨_, h1, _, h2, rfl⟩

/-- a row of type and value texts with what they are read as -/
def Row.Stands (lenient : Bool) (r : Row) : Prop :=
  read r.type = .ok r.kind ∧ denotes (if lenient then .lenient else .strict) r.kind r.value r.token

theorem readPairs_iff (lenient : Bool) : ∀ (args : List Str) (toks : List Token), args.length % 2 = 0 →
    ((∃ ps, readPairs args = .ok ps ∧ parseTokens lenient ps = .ok toks) ↔
      ∃ rows : List Row, args = (rows.flatMap fun r => [r.type, r.value]) ∧ (∀ r ∈ rows, r.Stands lenient) ∧
        toks = rows.map (·.token))
  | [], toks, _ => by
    constructor
    · rintro ⟨ps, h1, h2⟩
      cases h1; cases h2
      exact ⟨[], rfl, nofun, rfl⟩
    · rintro ⟨rows, h1, -, rfl⟩
      cases rows with
      | nil => exact ⟨[], rfl, rfl⟩
      | cons r rows => cases h1
  | [_], _, h => by simp at h
  | x :: y :: rest, toks, h => by
    have ih := fun toks => readPairs_iff lenient rest toks (by simp at h; omega)
    simp only [readPairs, Res.bind_eq_ok, Res.ok.injEq]
    constructor
    · rintro ⟨_, ⟨t, h1, ps, h2, rfl⟩, h3⟩
      rw [parseTokens] at h3
      simp only [Res.bind_eq_ok, Res.ok.injEq] at h3
      obtain ⟨tok, h4, toks', h5, rfl⟩ := h3
      obtain ⟨rows, e1, e2, e3⟩ := (ih toks').1 ⟨ps, h2, h5⟩
      refine ⟨⟨x, y, t, tok⟩ :: rows, by rw [e1]; rfl, ?_, by rw [e3]; rfl⟩
      intro r hr
      rcases List.mem_cons.1 hr with rfl | hr
      · exact ⟨h1, (C81_accepts_exactly _ _ _ _).1 h4⟩
      · exact e2 r hr
    · rintro ⟨rows, e1, e2, rfl⟩
      cases rows with
      | nil => cases e1
      | cons r rows =>
        rw [List.flatMap_cons] at e1
        simp only [List.cons_append, List.nil_append, List.cons.injEq] at e1
        obtain ⟨rfl, rfl, e1⟩ := e1
        obtain ⟨ps, h2, h5⟩ := (ih (rows.map (·.token))).2 ⟨rows, e1, fun r hr => e2 r (by simp [hr]), rfl⟩
        refine ⟨_, ⟨r.kind, (e2 r (by simp)).1, ps, h2, rfl⟩, ?_⟩
        rw [parseTokens, h5]
        have := (C81_accepts_exactly (if lenient then .lenient else .strict) _ _ _).2 (e2 r (by simp)).2
        rw [tokenizerOf, this]
        rfl

/-- **C85**, `encode params`: it prints the encoding of the values in hexadecimal, exactly if the arguments are pairs of a
type and a text that denotes a value of it (C76, C81) and `encode` returns (C66, C67, C82: always in a release build). -/
theorem C85_encode_params (hash : Bytes → Word) (parseHash : Str → Res Word) (prof : Profile)
    (file : Str → Option (Option Json)) (args : List Str) (lenient : Bool) (out : Str) :
    execute hash parseHash prof file (.encodeParams args lenient) = .ok out ↔ ∃ (rows : List Row) (bs : Bytes),
      args = (rows.flatMap fun r => [r.type, r.value]) ∧ (∀ r ∈ rows, r.Stands lenient) ∧
      encode prof (rows.map (·.token)) = .ok bs ∧ PrintsHex out bs := by
  rw [execute, cliEncodeParams]
  simp only [printsHex_iff]
  by_cases ha : args.length % 2 = 0
  · rw [if_neg (by omega)]
    simp only [Res.bind_eq_ok, Res.ok.injEq]
    constructor
    · rintro ⟨ps, h1, toks, h2, bs, h3, rfl⟩
      obtain ⟨rows, e1, e2, rfl⟩ := (readPairs_iff lenient args toks ha).1 ⟨ps, h1, h2⟩
      exact ⟨rows, bs, e1, e2, h3, rfl⟩
    · rintro ⟨rows, bs, e1, e2, h3, rfl⟩
      obtain ⟨ps, h1, h2⟩ := (readPairs_iff lenient args _ ha).2 ⟨rows, e1, e2, rfl⟩
      exact ⟨ps, h1, _, h2, bs, h3, rfl⟩
  · rw [if_pos ha]
    simp only [reduceCtorEq, false_iff]
    rintro ⟨rows, bs, rfl, -⟩
    rw [evenLength] at ha
    omega

/-- **C85**, `encode params` for types without tuples, release build: what is printed is the specified layout (with lengths and
offsets in 32 bits, C82), whatever the values. -/
theorem C85_encode_params_layout (hash : Bytes → Word) (parseHash : Str → Res Word)
    (file : Str → Option (Option Json)) (rows : List Row) (lenient : Bool) (out : Str) (hs : ∀ r ∈ rows, r.Stands lenient)
    (ht : ∀ r ∈ rows, tupleFree r.kind = true) (hc : codableAll (rows.map (·.kind)) = true) :
    execute hash parseHash .release file (.encodeParams (rows.flatMap fun r => [r.type, r.value]) lenient) = .ok out ↔
      PrintsHex out (encodeArgsWith lowWord (rows.map (·.token)) (rows.map (·.kind))) := by
  have hty : haveTypes (rows.map (·.token)) (rows.map (·.kind)) = true := by
    clear hc
    induction rows with
    | nil => rfl
    | cons r rows ih =>
      simp only [List.map_cons, haveTypes, Bool.and_eq_true]
      exact ⟨C47_has_type _ r.kind (ht r (by simp)) r.value r.token ((C81_accepts_exactly _ _ _ _).2 (hs r (by simp)).2),
        ih (fun x hx => hs x (by simp [hx])) (fun x hx => ht x (by simp [hx]))⟩
  have henc := C82_release_exactly _ _ hty hc
  have hr : ∀ r ∈ rows, r.Reads lenient := fun r hr => ⟨(hs r hr).1, (C81_accepts_exactly _ _ _ _).2 (hs r hr).2⟩
  rw [execute, cliEncodeParams, if_neg (by rw [evenLength]; omega), readPairs_rows lenient rows hr, Res.ok_bind,
    parseTokens_rows lenient rows hr, Res.ok_bind, henc, Res.ok_bind, Res.ok.injEq, printsHex_iff]
  exact eq_comm

/-- **C85**, `encode function`: selector and encoding of the values in hexadecimal, exactly if the file declares the function,
there are at least as many values as inputs (the rest is ignored, C59), the first ones denote values of the inputs and
`encode` returns. -/
theorem C85_encode_function (hash : Bytes → Word) (parseHash : Str → Res Word) (prof : Profile)
    (file : Str → Option (Option Json)) (path name : Str) (values : List Str) (lenient : Bool) (out : Str) :
    execute hash parseHash prof file (.encodeFunction path name values lenient) = .ok out ↔ ∃ ops f toks bs,
      Declares file path ops ∧ PicksFunction ops name f ∧ f.inputs.length ≤ values.length ∧
      List.Forall₂ (fun x t => denotes (if lenient then .lenient else .strict) x.1 x.2 t)
        ((f.inputs.map (·.kind)).zip values) toks ∧
      encode prof toks = .ok bs ∧
      PrintsHex out ((textHash hash (signature (String.ofList f.name) (f.inputs.map (·.kind))).toList).1.take 4 ++ bs) := by
  rw [execute]
  simp only [cliEncodeInput, encodeInputOf, Res.bind_eq_ok, openFunction, parseTokens_iff, printsHex_iff, Res.ok.injEq]
  have hsel : ∀ f : Function, shortSignature hash f.name (f.inputs.map (·.kind)) =
      (textHash hash (signature (String.ofList f.name) (f.inputs.map (·.kind))).toList).1.take 4 := fun f => by
    rw [shortSignature, signatureText_eq, strBytes, utf8_eq_core]; rfl
  constructor
  · rintro ⟨ops, f, h1, h2, toks, h3, r, h4, rfl⟩
    have hl := h3.length_eq
    rw [List.length_zip, List.length_map] at hl
    have hfit : toks.length = (f.inputs.map (·.kind)).length ∧ shortOfs toks (f.inputs.map (·.kind)) = true := by
      rw [← C17_accepts_exactly]
      rw [Function.encodeInput, Function.inputParamTypes] at h4
      rcases hc : Token.typesCheck toks (f.inputs.map (·.kind)) with b | e | _
      · cases b with
        | true => exact hc
        | false => rw [hc] at h4; cases h4
      · rw [hc] at h4; cases h4
      · rw [hc] at h4; cases h4
    rw [(C20_function_outcomes hash prof f toks).2.2 hfit, Res.bind_eq_ok] at h4
    obtain ⟨bs, h5, h6⟩ := h4
    refine ⟨ops, f, toks, bs, h1, h2, ?_, h3, h5, ?_⟩
    · have := hfit.1
      rw [List.length_map] at this
      omega
    · rw [← Res.ok.inj h6, hsel]
  · rintro ⟨ops, f, toks, bs, h1, h2, hl, h3, h5, rfl⟩
    refine ⟨ops, f, h1, h2, toks, h3, _, ?_, rfl⟩
    have hz : (f.inputs.map (·.kind)).zip values = (f.inputs.map (·.kind)).zip (values.take f.inputs.length) := by
      rw [← List.take_append_drop f.inputs.length values]
      conv_lhs => rw [← List.append_nil (f.inputs.map (·.kind)), List.zip_append (by simp; omega)]
      simp
    have hty := C47_args (if lenient then .lenient else .strict) (f.inputs.map (·.kind)) (values.take f.inputs.length) toks
      (by simp; omega) (by
        rw [hz] at h3
        exact h3.imp fun x t h => (C81_accepts_exactly _ _ _ _).2 h)
    rw [(C20_function_outcomes hash prof f toks).2.2 ((C17_accepts_exactly _ _).1 hty), h5, Res.ok_bind, hsel]

/-- the values that texts denote have the types (no tuples) -/
private theorem haveTypes_denoted {m : Tokenizer} : ∀ {ps : List ParamType} {values : List Str} {toks : List Token},
    ps.length ≤ values.length → (∀ p ∈ ps, tupleFree p = true) →
    List.Forall₂ (fun x t => denotes m x.1 x.2 t) (ps.zip values) toks → haveTypes toks ps = true
  | [], _, _, _, _, h => by cases h; rfl
  | p :: ps, v :: values, _, hl, hp, h => by
    rw [List.zip_cons_cons] at h
    cases h with
    | cons h1 h2 =>
      simp only [haveTypes, Bool.and_eq_true]
      exact ⟨C47_has_type _ p (hp p (by simp)) v _ ((C81_accepts_exactly _ _ _ _).2 h1),
        haveTypes_denoted (by simpa using hl) (fun x hx => hp x (by simp [hx])) h2⟩

/-- **C85**, `encode function` for input types without tuples, release build: what is printed is the selector and the specified
layout (with lengths and offsets in 32 bits, C82), whatever the values. -/
theorem C85_encode_function_layout (hash : Bytes → Word) (parseHash : Str → Res Word)
    (file : Str → Option (Option Json)) (path name : Str) (values : List Str) (lenient : Bool) (out : Str)
    (hf : ∀ ops f, Declares file path ops → PicksFunction ops name f →
      (∀ p ∈ f.inputs, tupleFree p.kind = true) ∧ codableAll (f.inputs.map (·.kind)) = true) :
    execute hash parseHash .release file (.encodeFunction path name values lenient) = .ok out ↔ ∃ ops f toks,
      Declares file path ops ∧ PicksFunction ops name f ∧ f.inputs.length ≤ values.length ∧
      List.Forall₂ (fun x t => denotes (if lenient then .lenient else .strict) x.1 x.2 t)
        ((f.inputs.map (·.kind)).zip values) toks ∧
      PrintsHex out ((textHash hash (signature (String.ofList f.name) (f.inputs.map (·.kind))).toList).1.take 4 ++
        encodeArgsWith lowWord toks (f.inputs.map (·.kind))) := by
  rw [C85_encode_function]
  refine exists_congr fun ops => exists_congr fun f => exists_congr fun toks => ?_
  have key : Declares file path ops → PicksFunction ops name f → f.inputs.length ≤ values.length →
      List.Forall₂ (fun x t => denotes (if lenient then .lenient else .strict) x.1 x.2 t)
        ((f.inputs.map (·.kind)).zip values) toks →
      encode .release toks = .ok (encodeArgsWith lowWord toks (f.inputs.map (·.kind))) := by
    intro h1 h2 h3 h4
    obtain ⟨h5, h6⟩ := hf ops f h1 h2
    refine C82_release_exactly _ _ (haveTypes_denoted (by simpa using h3) ?_ h4) h6
    intro p hp
    obtain ⟨q, hq, rfl⟩ := List.mem_map.1 hp
    exact h5 q hq
  constructor
  · rintro ⟨bs, h1, h2, h3, h4, h5, h6⟩
    rw [key h1 h2 h3 h4] at h5
    cases h5
    exact ⟨h1, h2, h3, h4, h6⟩
  · rintro ⟨h1, h2, h3, h4, h6⟩
    exact ⟨_, h1, h2, h3, h4, key h1 h2 h3 h4, h6⟩

/-- a file with two overloads of `f`, `g` and the event `e` -/
def abiFile (path : Str) : Option (Option Json) := if path = lit "abi.json" then some (some (.arr overloads)) else none

example : execute prefixHash (fun _ => .ok (prefixHash [])) .debug abiFile (.encodeFunction (lit "abi.json") (lit "g") [lit "1"] false) =
      .ok (lit "6728626f0000000000000000000000000000000000000000000000000000000000000001") ∧
    execute prefixHash (fun _ => .ok (prefixHash [])) .debug abiFile (.encodeFunction (lit "x.json") (lit "g") [lit "1"] false) =
      .err .other ∧
    execute prefixHash (fun _ => .ok (prefixHash [])) .debug abiFile
      (.decodeFunction (lit "abi.json") (lit "f(bytes):(uint8)") (lit "000000000000000000000000000000000000000000000000000000000000002A")) =
      .ok (lit "uint8 2a") ∧
    execute prefixHash (fun _ => .ok (prefixHash [])) .debug abiFile (.encodeParams [lit "uint8", lit "7", lit "bytes2[]", lit "[0aff]"] true) =
      .ok (lit "0000000000000000000000000000000000000000000000000000000000000007000000000000000000000000000000000000000000000000000000000000004000000000000000000000000000000000000000000000000000000000000000010aff000000000000000000000000000000000000000000000000000000000000") := by
  decide +kernel

/-- the hypotheses of the decoding theorems in that file -/
example : ∃ ops f, Declares abiFile (lit "abi.json") ops ∧ PicksFunction ops (lit "f(bytes):(uint8)") f ∧
    narrowAll (f.outputs.map (·.kind)) = true := by
  obtain ⟨ops, f, h1, h2, h3⟩ := (openFunction abiFile (lit "abi.json") (lit "f(bytes):(uint8)")
    (fun f => narrowAll (f.outputs.map (·.kind)) = true)).1 ⟨.arr overloads, rfl,
      { name := lit "f", inputs := [⟨lit "x", .bytes, none⟩], outputs := [⟨[], .uint 8, none⟩], constant := false,
        stateMutability := .nonPayable }, by decide +kernel, by decide⟩
  exact ⟨ops, f, h1, h2, h3⟩

/-- … and of the layout of calls -/
example : ∀ ops f, Declares abiFile (lit "abi.json") ops → PicksFunction ops (lit "f(bytes):(uint8)") f →
    (∀ p ∈ f.inputs, tupleFree p.kind = true) ∧ codableAll (f.inputs.map (·.kind)) = true := by
  intro ops f h1 h2
  by_contra h
  obtain ⟨j, hj, g, hg, hn⟩ := (openFunction abiFile (lit "abi.json") (lit "f(bytes):(uint8)")
    (fun f => ¬ ((∀ p ∈ f.inputs, tupleFree p.kind = true) ∧ codableAll (f.inputs.map (·.kind)) = true))).2 ⟨ops, f, h1, h2, h⟩
  obtain rfl : Json.arr overloads = j := Res.ok.inj hj
  have : loadFunction (.arr overloads) (lit "f(bytes):(uint8)") = .ok
      { name := lit "f", inputs := [⟨lit "x", .bytes, none⟩], outputs := [⟨[], .uint 8, none⟩], constant := false,
        stateMutability := .nonPayable } := by decide +kernel
  rw [this] at hg
  cases hg
  exact hn (by decide)

end Ethabi.Props

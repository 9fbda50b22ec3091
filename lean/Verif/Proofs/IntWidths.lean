import Verif.Spec.IntWidths
import Verif.Model.Decoder
import Verif.Model.Tokenizer
import Verif.Model.Cli
/-! The widths of integers do not take part in decoding, checking and tokenizing. -/
namespace Ethabi.IntWidths
open Spec

mutual
theorem isDynamic_same : ∀ t : ParamType, (noWidths t).isDynamic = t.isDynamic
  | .int _ => rfl
  | .uint _ => rfl
  | .array _ => rfl
  | .fixedArray t n => by rw [noWidths, ParamType.isDynamic, ParamType.isDynamic]; exact isDynamic_same t
  | .tuple ts => by rw [noWidths, ParamType.isDynamic, ParamType.isDynamic]; exact anyDynamic_same ts
  | .address => rfl
  | .bytes => rfl
  | .bool => rfl
  | .string => rfl
  | .fixedBytes _ => rfl
theorem anyDynamic_same : ∀ ts : List ParamType, ParamType.anyDynamic (noWidthsAll ts) = ParamType.anyDynamic ts
  | [] => rfl
  | t :: ts => by rw [noWidthsAll, ParamType.anyDynamic, ParamType.anyDynamic, isDynamic_same t, anyDynamic_same ts]
end

theorem empty_same (t : ParamType) : (noWidths t).isEmptyBytesValidEncoding = t.isEmptyBytesValidEncoding := by
  cases t <;> rfl

mutual
theorem decodeParam_same (prof : Profile) : ∀ (t : ParamType) (data : Bytes) (off : Nat),
    decodeParam prof (noWidths t) data off = decodeParam prof t data off
  | .int _, _, _ => by rw [noWidths, decodeParam, decodeParam]
  | .uint _, _, _ => by rw [noWidths, decodeParam, decodeParam]
  | .array t, _, _ => by simp only [noWidths, decodeParam, decodeParam_same prof t]
  | .fixedArray t n, _, _ => by simp only [noWidths, decodeParam, decodeParam_same prof t, isDynamic_same t]
  | .tuple ts, _, _ => by simp only [noWidths, decodeParam, decodeParams_same prof ts, anyDynamic_same ts]
  | .address, _, _ => rfl
  | .bytes, _, _ => rfl
  | .bool, _, _ => rfl
  | .string, _, _ => rfl
  | .fixedBytes _, _, _ => rfl
theorem decodeParams_same (prof : Profile) : ∀ (ts : List ParamType) (data : Bytes) (off : Nat),
    decodeParams prof (noWidthsAll ts) data off = decodeParams prof ts data off
  | [], _, _ => rfl
  | t :: ts, data, off => by simp only [noWidthsAll, decodeParams, decodeParam_same prof t, decodeParams_same prof ts]
end

theorem all_empty_same : ∀ ts : List ParamType,
    (noWidthsAll ts).all ParamType.isEmptyBytesValidEncoding = ts.all ParamType.isEmptyBytesValidEncoding
  | [] => rfl
  | t :: ts => by rw [noWidthsAll, List.all_cons, List.all_cons, empty_same t, all_empty_same ts]

theorem decode_same (prof : Profile) (ts : List ParamType) (data : Bytes) :
    decode prof (noWidthsAll ts) data = decode prof ts data := by
  simp only [decode, all_empty_same, decodeParams_same]

theorem noWidths_eq (t : ParamType) : (match noWidths t with | .int _ => true | _ => false) =
    (match t with | .int _ => true | _ => false) := by cases t <;> rfl

mutual
theorem typeCheck_same : ∀ (k : Token) (t : ParamType), Token.typeCheck k (noWidths t) = Token.typeCheck k t
  | .address _, t => by cases t <;> rfl
  | .bytes _, t => by cases t <;> rfl
  | .int _, t => by cases t <;> rfl
  | .uint _, t => by cases t <;> rfl
  | .bool _, t => by cases t <;> rfl
  | .string _, t => by cases t <;> rfl
  | .fixedBytes _, t => by cases t <;> rfl
  | .array ks, t => by
    cases t with
    | array t => simp only [noWidths, Token.typeCheck]; exact allCheck_same ks t
    | _ => rfl
  | .fixedArray ks, t => by
    cases t with
    | fixedArray t n => simp only [noWidths, Token.typeCheck, allCheck_same ks t]
    | _ => rfl
  | .tuple ks, t => by
    cases t with
    | tuple ts => simp only [noWidths, Token.typeCheck]; exact tupleCheck_same ks ts
    | _ => rfl
theorem allCheck_same : ∀ (ks : List Token) (t : ParamType), Token.allCheck ks (noWidths t) = Token.allCheck ks t
  | [], _ => rfl
  | k :: ks, t => by simp only [Token.allCheck, typeCheck_same k t, allCheck_same ks t]
theorem tupleCheck_same : ∀ (ks : List Token) (ts : List ParamType), Token.tupleCheck ks (noWidthsAll ts) = Token.tupleCheck ks ts
  | [], _ => rfl
  | _ :: _, [] => rfl
  | k :: ks, t :: ts => by simp only [noWidthsAll, Token.tupleCheck, typeCheck_same k t, tupleCheck_same ks ts]
end

theorem length_same : ∀ ts : List ParamType, (noWidthsAll ts).length = ts.length
  | [] => rfl
  | _ :: ts => by rw [noWidthsAll, List.length_cons, List.length_cons, length_same ts]

theorem zipCheck_same : ∀ (ts : List ParamType) (ks : List Token), Token.zipCheck (noWidthsAll ts) ks = Token.zipCheck ts ks
  | [], _ => rfl
  | _ :: _, [] => rfl
  | t :: ts, k :: ks => by simp only [noWidthsAll, Token.zipCheck, typeCheck_same k t, zipCheck_same ts ks]

theorem typesCheck_same (ks : List Token) (ts : List ParamType) : Token.typesCheck ks (noWidthsAll ts) = Token.typesCheck ks ts := by
  simp only [Token.typesCheck, length_same, zipCheck_same]

mutual
theorem tokenize_same (m : Tokenizer) : ∀ (t : ParamType), tokenize m (noWidths t) = tokenize m t
  | .int _ => rfl
  | .uint _ => rfl
  | .array t => by funext v; simp only [noWidths, tokenize, tokenize_same m t]
  | .fixedArray t n => by funext v; simp only [noWidths, tokenize, tokenize_same m t]
  | .tuple ts => by funext v; simp only [noWidths, tokenize, tokenizers_same m ts]
  | .address => rfl
  | .bytes => rfl
  | .bool => rfl
  | .string => rfl
  | .fixedBytes _ => rfl
theorem tokenizers_same (m : Tokenizer) : ∀ (ts : List ParamType), tokenizers m (noWidthsAll ts) = tokenizers m ts
  | [] => rfl
  | t :: ts => by rw [noWidthsAll, tokenizers, tokenizers, tokenize_same m t, tokenizers_same m ts]
end

/-! ### events -/

theorem noWidthsAll_map : ∀ ts : List ParamType, noWidthsAll ts = ts.map noWidths
  | [] => rfl
  | t :: ts => by rw [noWidthsAll, List.map_cons, noWidthsAll_map ts]

/-- the event with the integers in its types as `int` and `uint` -/
def plain (e : Event) : Event := { e with inputs := plainParams e.inputs }

theorem indexed_plain (e : Event) (b : Bool) : (plain e).indexedParams b = plainParams (e.indexedParams b) := by
  simp only [Event.indexedParams, plain, plainParams, List.filter_map]
  rfl

theorem kinds_plain (ps : List EventParam) : (plainParams ps).map (·.kind) = noWidthsAll (ps.map (·.kind)) := by
  simp only [noWidthsAll_map, plainParams, List.map_map]; rfl

theorem names_plain (ps : List EventParam) : (plainParams ps).map (·.name) = ps.map (·.name) := by
  simp only [plainParams, List.map_map]; rfl

theorem convert_same (t : ParamType) : convertTopicParamType (noWidths t) = noWidths (convertTopicParamType t) := by
  cases t <;> rfl

theorem topics_plain (ps : List EventParam) : (plainParams ps).map (fun p => convertTopicParamType p.kind) =
    noWidthsAll (ps.map fun p => convertTopicParamType p.kind) := by
  simp only [noWidthsAll_map, plainParams, List.map_map]
  refine List.map_congr_left fun p _ => ?_
  exact convert_same p.kind

/-- what `parse_log` does after the check of the signature -/
def parseRest (prof : Profile) (e : Event) (topics : List Word) (data : Bytes) : Res Log := do
  let topicTokens ← decode prof ((e.indexedParams true).map fun p => convertTopicParamType p.kind) (topics.flatMap (·.1))
  if topicTokens.length ≠ topics.length then .err .invalidData
  else do
    let dataTokens ← decode prof ((e.indexedParams false).map (·.kind)) data
    let params ← logParams (((e.indexedParams true).map (·.name)).zip topicTokens ++
      ((e.indexedParams false).map (·.name)).zip dataTokens) e.paramsNames
    .ok { params := params }

theorem parseLog_anonymous (hash : Bytes → Word) (prof : Profile) (e : Event) (ha : e.anonymous = true) (log : RawLog) :
    e.parseLog hash prof log = parseRest prof e log.topics log.data := by
  simp only [Event.parseLog, Event.checkSignature, ha, if_true, Res.ok_bind, List.drop_zero, Nat.sub_zero]
  rfl

theorem parseLog_signed (hash : Bytes → Word) (prof : Profile) (e : Event) (ha : e.anonymous = false) (topics : List Word)
    (data : Bytes) : e.parseLog hash prof ⟨e.signature hash :: topics, data⟩ = parseRest prof e topics data := by
  simp only [Event.parseLog, Event.checkSignature, ha, Bool.false_eq_true, if_false, List.getElem?_cons_zero, ne_eq, not_true,
    Res.ok_bind, List.drop_one, List.tail_cons, List.length_cons, Nat.add_sub_cancel]
  rfl

theorem parseRest_plain (prof : Profile) (e : Event) (topics : List Word) (data : Bytes) :
    parseRest prof (plain e) topics data = parseRest prof e topics data := by
  have hn : (plain e).paramsNames = e.paramsNames := names_plain e.inputs
  simp only [parseRest, indexed_plain, topics_plain, kinds_plain, names_plain, decode_same, hn]

theorem parseRest_same (prof : Profile) {e e' : Event} (h : plainParams e.inputs = plainParams e'.inputs) (topics : List Word)
    (data : Bytes) : parseRest prof e topics data = parseRest prof e' topics data := by
  rw [← parseRest_plain prof e, ← parseRest_plain prof e']
  simp only [parseRest, Event.indexedParams, Event.paramsNames, plain, h]

theorem convertToken_same (hash : Bytes → Word) (prof : Profile) (k : Token) (t : ParamType) :
    convertToken hash prof k (noWidths t) = convertToken hash prof k t := by
  simp only [convertToken, typeCheck_same]

theorem convertTokens_same (hash : Bytes → Word) (prof : Profile) (t : ParamType) : ∀ ks : List Token,
    convertTokens hash prof (noWidths t) ks = convertTokens hash prof t ks
  | [] => rfl
  | k :: ks => by simp only [convertTokens, convertToken_same, convertTokens_same hash prof t ks]

theorem convertTopic_same (hash : Bytes → Word) (prof : Profile) (topic : Topic Token) (t : Option ParamType) :
    convertTopic hash prof topic (t.map noWidths) = convertTopic hash prof topic t := by
  cases t with
  | none => rfl
  | some t => cases topic <;> simp only [convertTopic, Option.map_some, convertToken_same, convertTokens_same]

theorem slot_same (hash : Bytes → Word) (prof : Profile) {e e' : Event} (h : plainParams e.inputs = plainParams e'.inputs)
    (topic : Topic Token) (i : Nat) : convertTopic hash prof topic ((e.indexedParams true).map (·.kind))[i]? =
      convertTopic hash prof topic ((e'.indexedParams true).map (·.kind))[i]? := by
  have key : ∀ e : Event, convertTopic hash prof topic (((plain e).indexedParams true).map (·.kind))[i]? =
      convertTopic hash prof topic ((e.indexedParams true).map (·.kind))[i]? := fun e => by
    rw [indexed_plain, kinds_plain, noWidthsAll_map, List.getElem?_map, convertTopic_same]
  rw [← key e, ← key e']
  simp only [Event.indexedParams, plain, h]

/-! ### the tool -/

theorem readPairs_same (lenient : Bool) : ∀ l : List (Str × Str × Str),
    (∀ x ∈ l, ∃ t u, read x.1 = .ok t ∧ read x.2.1 = .ok u ∧ noWidths t = noWidths u) →
    ∃ ps qs, readPairs (l.flatMap fun x => [x.1, x.2.2]) = .ok ps ∧ readPairs (l.flatMap fun x => [x.2.1, x.2.2]) = .ok qs ∧
      parseTokens lenient ps = parseTokens lenient qs
  | [], _ => ⟨[], [], rfl, rfl, rfl⟩
  | (a, b, v) :: l, h => by
    obtain ⟨t, u, h1, h2, h3⟩ := h _ (List.mem_cons_self ..)
    obtain ⟨ps, qs, h4, h5, h6⟩ := readPairs_same lenient l fun x hx => h x (List.mem_cons_of_mem _ hx)
    refine ⟨(t, v) :: ps, (u, v) :: qs, ?_, ?_, ?_⟩
    · show readPairs (a :: v :: l.flatMap fun x => [x.1, x.2.2]) = _
      rw [readPairs, h1, h4]; rfl
    · show readPairs (b :: v :: l.flatMap fun x => [x.2.1, x.2.2]) = _
      rw [readPairs, h2, h5]; rfl
    · rw [parseTokens, parseTokens, ← tokenize_same _ t, h3, tokenize_same _ u, h6]

end Ethabi.IntWidths

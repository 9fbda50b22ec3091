import Verif.Tests.CheckersRest
import Verif.Model.Derive
import Verif.Model.EventOn
import Verif.Model.Cli
import Verif.Model.JsonWrite
import Verif.Model.EncoderCount
import Verif.Spec.Derive
import Verif.Spec.Printed
import Verif.Spec.FilterText
import Verif.Spec.IntWidths
import Verif.Spec.EncodeWork
import Verif.Spec.Size
/-! Checkers as in `Tests/Checkers.lean`: payloads, the reader, generated code, contracts, printing and widths (tests). -/
namespace Ethabi.Checkers
open Ethabi.Spec Ethabi.Printed

/-- C14_string_payload and C14_bytes_payload without values in front -/
def c14s (p : Profile) (s : Str) : Bool :=
  let b := s.flatMap String.utf8EncodeChar
  !decide (b.length < 2 ^ 32) || decide (decode p [.string] (word 32 ++ word b.length ++ b) = .ok [.string s])
def c14b (p : Profile) (b : Bytes) : Bool :=
  !decide (b.length < 2 ^ 32) || (decide (decode p [.bytes] (word 32 ++ word b.length ++ b) = .ok [.bytes b]) &&
    match decode p [.string] (word 32 ++ word b.length ++ b) with
    | .ok [.string s] => decide (s.flatMap String.utf8EncodeChar = b) || decide (Char.ofNat 0xFFFD ∈ s)
    | _ => false)

/-- C26_no_panic_partial, C26_no_panic_elementary, C26_counterexample_bracket, C26_counterexample_unicode -/
def c26 (s : Str) : Bool :=
  (!(ascii s && bracketsClose false s) || decide (read s ≠ .panic)) &&
  (decide (s.getLast? = some ')') || decide (s.getLast? = some ']') || decide (read s ≠ .panic))
def c26x : Bool :=
  decide (read (lit "]") = .panic) && decide (read (lit "5]") = .panic) && decide (read (lit "(bool,7])") = .panic) &&
  decide (read (lit "é[]") = .panic) && decide (read (lit "(é)") = .panic)

def sameAt (n : Str) (a b : Contract) : Bool :=
  decide (a.constructor = b.constructor) && decide (a.receive = b.receive) && decide (a.fallback = b.fallback) &&
  decide (a.functionsByName n = b.functionsByName n) && decide (a.eventsByName n = b.eventsByName n)

/-- C29_contract_round_trip, C29_same_lookup -/
def c29 (j : Json) (n : Str) : Bool :=
  match deContract j with
  | .ok c => match deContract (serContract { c with functions := c.functions.reverse, events := c.events.reverse }) with
    | .ok c' => sameAt n c' c && decide (c'.function n = c.function n) && decide (c'.event n = c.event n)
    | _ => false
  | _ => true

/-- C55_conversion, C55_encode_input_partial, C55_constructor -/
def c55t (t : ParamType) (v : Rust t) : Bool :=
  hasType (toToken t v) t && decide ((toToken t v).typeCheck t = .ok true) &&
  (!generated t || match fromToken t (toToken t v) with | .ok w => decide (toToken t w = toToken t v) | _ => false)
def c55 (hash : Bytes → Word) (p : Profile) (f : Function) (c : Constructor) (code : Bytes)
    (args : RustArgs (f.inputs.map (·.kind))) (args' : RustArgs (c.inputs.map (·.kind))) : Bool :=
  (!(solidityAll (f.inputs.map (·.kind)) &&
      decide ((encodeArgs (toTokens (f.inputs.map (·.kind)) args) (f.inputs.map (·.kind))).length < 2 ^ 32)) ||
    decide (genEncodeInput hash p f args =
      .ok ((hash ((signature (String.ofList f.name) (f.inputs.map (·.kind))).toList.flatMap String.utf8EncodeChar)).1.take 4 ++
        encodeArgs (toTokens (f.inputs.map (·.kind)) args) (f.inputs.map (·.kind))))) &&
  (!(solidityAll (c.inputs.map (·.kind)) &&
      decide ((encodeArgs (toTokens (c.inputs.map (·.kind)) args') (c.inputs.map (·.kind))).length < 2 ^ 32)) ||
    decide (genConstructor p c code args' =
      .ok (code ++ encodeArgs (toTokens (c.inputs.map (·.kind)) args') (c.inputs.map (·.kind)))))

/-- C97_values, C97_distinct, C97_string -/
def c97 (t : ParamType) (a b : Token) : Bool :=
  !(hasType a t && hasType b t) ||
    ((!stringFree t || decide (a.display = b.display ↔ blur a = blur b)) &&
     (!(stringFree t && sharp t) || decide (a.display = b.display ↔ a = b)) &&
     (!decide (t = .string) || decide (a.display = b.display ↔ a = b)))

/-- C98_encode_tuple, C98_encode_fixed_array, C98_encode_array -/
def c98e (p : Profile) (ts : List Token) : Bool :=
  let front := if tailedAny ts then word 32 else []
  (match encode p [.tuple ts] with
    | .ok x => (match encode p ts with | .ok y => decide (x = front ++ y) | _ => false) | _ => true) &&
  (match encode p [.fixedArray ts] with
    | .ok x => (match encode p ts with | .ok y => decide (x = front ++ y) | _ => false) | _ => true) &&
  (match encode p [.array ts] with
    | .ok x => (match encode p ts with | .ok y => decide (x = word 32 ++ word (ts.length % 2 ^ 32) ++ y) | _ => false) | _ => true)

/-- C98_decode_static_tuple, C98_decode_static_fixed_array, C98_decode_dynamic_tuple, C98_decode_dynamic_fixed_array,
C98_decode_array, each with the offset `o` in front of `rest` -/
def c98d (p : Profile) (ts : List ParamType) (t : ParamType) (k o : Nat) (rest : Bytes) : Bool :=
  let data := word o ++ rest
  (dynamicAny ts || decide (decode p [.tuple ts] data = (do let xs ← decode p ts data; .ok [.tuple xs]))) &&
  (dynamic t || decide (decode p [.fixedArray t k] data = (do let xs ← decode p (List.replicate k t) data; .ok [.fixedArray xs]))) &&
  (!(decide (data.length < 2 ^ 64) && decide (o < 2 ^ 32) && decide (data.drop o ≠ [])) ||
    ((!dynamicAny ts || decide (decode p [.tuple ts] data = (do let xs ← decode p ts (data.drop o); .ok [.tuple xs]))) &&
     (!dynamic t ||
       decide (decode p [.fixedArray t k] data = (do let xs ← decode p (List.replicate k t) (data.drop o); .ok [.fixedArray xs])))))
def c98a (p : Profile) (t : ParamType) (n : Nat) (d : Bytes) : Bool :=
  !(decide (d.length < 2 ^ 63) && decide (n < 2 ^ 32) && decide (d ≠ [])) ||
    decide (decode p [.array t] (word 32 ++ (word n ++ d)) = (do let xs ← decode p (List.replicate n t) d; .ok [.array xs]))

/-- C101_text -/
def c101 (f : TopicFilter) : Bool := decide (JsonText.write (serTopicFilter f) = filterText f)

def sameOk {α : Type} [DecidableEq α] (r r' : Res α) : Bool :=
  match r with | .ok a => decide (r' = .ok a) | _ => match r' with | .ok _ => false | _ => true

/-- C104_same_code, C104_decode, C104_log_accepts -/
def c104 (p : Profile) (f : Function) (data : Bytes) : Bool :=
  decide (f.decodeOutputOn 64 p data = f.decodeOutput p data) && decide (f.decodeInputOn 64 p data = f.decodeInput p data) &&
  (!(f.inputs.all (fun p => narrow32 p.kind) && f.outputs.all (fun p => narrow32 p.kind) && decide (data.length < 2 ^ 31)) ||
    (sameOk (f.decodeOutput p data) (f.decodeOutputOn 32 p data) && sameOk (f.decodeInput p data) (f.decodeInputOn 32 p data)))
def c104e (hash : Bytes → Word) (p : Profile) (e : Event) (raw : RawTopicFilter) (log : RawLog) : Bool :=
  decide (e.filterOn 64 hash p raw = e.filter hash p raw) && decide (e.parseLogOn 64 hash p log = e.parseLog hash p log) &&
  (!(e.inputs.all (fun p => narrow32 p.kind) && decide (log.topics.length < 2 ^ 26) && decide (log.data.length < 2 ^ 31)) ||
    sameOk (e.parseLog hash p log) (e.parseLogOn 32 hash p log))

/-- C106_enough, C106_needed -/
def c106 (s : Str) : Bool :=
  !ascii s || (decide (readWithin .panic (s.count ']' + 3) s = read s) && decide (readWithin (.err .other) (s.count ']' + 3) s = read s))
def nestedBool : Nat → ParamType
  | 0 => .bool
  | k + 1 => .array (nestedBool k)
def c106n (k n : Nat) : Bool :=
  decide (read (boolArrays k) = .ok (nestedBool k)) &&
  decide (readWithin .panic n (boolArrays k) = if k < n then .ok (nestedBool k) else .panic)

def found {α : Type} (n : Str) : Res (List α) → Option (List α)
  | .ok l => some l
  | .err (.invalidName m) => if m = n then some [] else none
  | _ => none

def joinedAt {α : Type} [DecidableEq α] (n : Str) (d c c' : Res (List α)) : Bool :=
  match found n c, found n c' with
  | some a, some b => (match d with | .ok l => decide (l = a ++ b) && decide (l ≠ []) | _ => decide (a ++ b = []))
  | _, _ => (match d with | .ok _ => false | _ => true)

/-- C108_joined -/
def c108 (js js' : List Json) (n : Str) : Bool :=
  match deContract (.arr js), deContract (.arr js'), deContract (.arr (js ++ js')) with
  | .ok c, .ok c', .ok d =>
    joinedAt n (d.functionsByName n) (c.functionsByName n) (c'.functionsByName n) &&
    joinedAt n (d.eventsByName n) (c.eventsByName n) (c'.eventsByName n) &&
    decide (d.constructor = match c'.constructor with | some k => some k | none => c.constructor) &&
    decide (d.receive = (c.receive || c'.receive)) && decide (d.fallback = (c.fallback || c'.fallback))
  | .ok _, .ok _, _ => false
  | _, _, .ok _ => false
  | _, _, _ => true

/-- C110_same, C110_work, C110_at_least -/
def c110 (p : Profile) (toks : List Token) : Bool :=
  decide ((encodeCount p toks).res = encode p toks) &&
  decide ((encodeCount p toks).work ≤ 2 + (15 + 10 * depthAll toks) * bulkAll toks) &&
  (match encode p toks with
    | .ok bs => decide (bulkAll toks ≤ 2 * (encodeCount p toks).work) && decide (bs.length ≤ 32 * (encodeCount p toks).work)
    | _ => true)

/-- C113_decode, C113_check, C113_tokenize, C113_any_value -/
def c113 (p : Profile) (t u : ParamType) (data : Bytes) (toks : List Token) (m : Tokenizer) (s : Str) : Bool :=
  !decide (sameShape [t] [u]) ||
    (decide (decode p [t] data = decode p [u] data) && decide (Token.typesCheck toks [t] = Token.typesCheck toks [u]) &&
     decide (tokenize m t s = tokenize m u s))
def c113v (p : Profile) (n : Nat) (v : U256) : Bool :=
  decide (decode p [.uint n] (U256.toWord v).1 = .ok [.uint v]) && decide (decode p [.int n] (U256.toWord v).1 = .ok [.int v])

def textOfFunction (f : Function) : Str :=
  (signature (String.ofList f.name) (f.inputs.map (·.kind))).toList ++
    (if f.outputs = [] then [] else (":(".toList ++
      (String.intercalate "," (typeNames (f.outputs.map (·.kind)))).toList ++ ")".toList))
def hashOfText (hash : Bytes → Word) (s : Str) : Word := hash (s.flatMap String.utf8EncodeChar)
def textOfEvent (e : Event) : Str := (signature (String.ofList e.name) (e.inputs.map (·.kind))).toList
def only {α : Type} (n : Str) : List α → Res α
  | [] => .err (.invalidName n)
  | [f] => .ok f
  | _ => .err .other
def firstOf {α : Type} (n : Str) (p : α → Bool) (l : List α) : Res α :=
  match l.find? p with
  | some f => .ok f
  | none => .err (if l.isEmpty then .invalidName n else .other)

/-- C51_function_by_name, C51_event_by_name, C51_function_by_signature, C51_event_by_signature -/
def c51 (hash : Bytes → Word) (js : List Json) (n rest : Str) : Bool :=
  match operations js with
  | none => true
  | some ops => decide ('(' ∈ n) ||
    (decide (loadFunction (.arr js) n = only n (functionsNamed n ops)) &&
     decide (loadEvent hash (.arr js) n = only n (eventsNamed n ops)) &&
     decide (loadFunction (.arr js) (n ++ '(' :: rest) =
       firstOf n (fun f => decide (textOfFunction f = n ++ '(' :: rest)) (functionsNamed n ops)) &&
     decide (loadEvent hash (.arr js) (n ++ '(' :: rest) =
       firstOf n (fun e => decide (hashOfText hash (textOfEvent e) = hashOfText hash ((n ++ '(' :: rest).filter (· ≠ ' '))))
         (eventsNamed n ops)))

end Ethabi.Checkers

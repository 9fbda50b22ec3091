import Verif.Model.Event
import Verif.Model.Tokenizer
import Verif.Model.Function
import Verif.Spec.Text
import Verif.Spec.Event
import Verif.Spec.Filter
import Verif.Spec.Tokenize
/-! Checkers as in `Tests/Checkers.lean`, for type texts, parameters in JSON, logs, filters and tokenizers (tests). -/
namespace Ethabi.Checkers
open Ethabi.Spec

def c23 (f : Function) : Bool :=
  decide (f.signature = (Spec.signature (String.ofList f.name) (f.inputs.map (·.kind))).toList ++
    (if f.outputs = [] then [] else (":(".toList ++
      (String.intercalate "," (Spec.typeNames (f.outputs.map (·.kind)))).toList ++ ")".toList)))

def c24 (t : ParamType) : Bool := !t.usizeOk || (decide (read (write t) = .ok t) == readable t)

def c25 (t : ParamType) : Bool :=
  decide (writeForAbi false t = (abiTypeName t).toList) && (!t.usizeOk ||
    (decide (read (writeForAbi false t) = .ok (emptied t)) && decide (setTupleComponents (emptied t) (innerTuple t) = .ok t)))

def suffixed (r : Res ParamType) (g : ParamType → ParamType) : Res ParamType :=
  match r with | .ok t => .ok (g t) | .err e => .err e | .panic => .panic

def c27 (s : Str) (k : Nat) : Bool :=
  !(s.all (fun c => decide (c.toNat < 128)) && decide (k < 2 ^ 64)) ||
    (decide (read (s ++ lit "[]") = suffixed (read s) .array) &&
      decide (read (s ++ (s!"[{k}]").toList) = suffixed (read s) (.fixedArray · k)))

/-- C27, every text; `n` characters of `s` are tried as the part that is read -/
def c27u (s : Str) (n k : Nat) : Bool :=
  !(decide (((s.take n).flatMap String.utf8EncodeChar).length = s.length) && decide (k < 2 ^ 64)) ||
    (decide (read (s ++ lit "[]") = suffixed (read (s.take n)) .array) &&
      decide (read (s ++ (s!"[{k}]").toList) = suffixed (read (s.take n)) (.fixedArray · k)))

def c28 (mode : Mode) (p : Param) : Bool := !p.kind.usizeOk || decide (deParam mode (serParam p) = .ok p)
def c28e (mode : Mode) (p : EventParam) : Bool := !p.kind.usizeOk || decide (deEventParam mode (serEventParam p) = .ok p)

def c28t (mode : Mode) (p : TupleParam) : Bool := !p.kind.usizeOk || decide (deTupleParam mode (serTupleParam p) = .ok p)

def isOk {α : Type} : Res α → Bool | .ok _ => true | _ => false

def isInvalidData {α : Type} : Res α → Bool | .err .invalidData => true | _ => false

def c34 (hash : Bytes → Word) (p : Profile) (e : Event) (log : RawLog) : Bool :=
  (e.anonymous || decide ((log.topics.map (·.1)).head? = some (eventTopic hash e.name (e.inputs.map (·.kind)))) ||
    isInvalidData (e.parseLog hash p log)) &&
  (!isOk (e.parseLog hash p log) ||
    decide (log.topics.length = (if e.anonymous then 0 else 1) + (e.inputs.filter (·.indexed)).length))

def c42 (f : TopicFilter) : Bool := decide (readTopicFilter (serTopicFilter f) = some f)

def c43 (m : Tokenizer) (t : Token) (p : ParamType) : Bool := !arrayShown t p || decide (tokenize m p t.display = .ok t)

def c43s (m : Tokenizer) (s : Str) : Bool := decide (tokenize m .string (Token.string s).display = .ok (.string s))

def c44 (bits : Nat) (s : Str) : Bool :=
  isFullHex s || decide (tokenize .lenient (.uint bits) s = match decimal s with
    | some v => if v < 2 ^ 256 then .ok (.uint (BitVec.ofNat 256 v)) else .err .other
    | none => .err .other)

def c45 (bits : Nat) (s : Str) : Bool :=
  isFullHex s || decide (tokenize .lenient (.int bits) s = match signedDecimal s with
    | some z => if -2 ^ 255 ≤ z ∧ z < 2 ^ 255 then .ok (.int (BitVec.ofInt 256 z)) else .err .other
    | none => .err .other)

end Ethabi.Checkers

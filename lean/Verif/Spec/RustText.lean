import Verif.Model.Generate
import Verif.Model.Event
/-!
# Specification: the fragment of Rust that generated text is written in

An expression has a text (`Expr.code`) and a value (`eval`).  The fragment contains what the templates of derive/src use, with
Rust's rules for scope: a `let` hides earlier variables, a local variable hides a function of the same name, `next()` needs a
variable declared `mut`.  Anything else is `stuck`: rustc rejects it.  There is no `to_array` among the methods of `Token`, so
it has no value either.

Simplifications: `into()` is the identity, that is, an argument of type `impl Into<T>` is represented by the `T` it converts
to; iterators are lists, and `map` applies its closure at once; moves and borrows are not tracked; precedence is not
represented, all receivers of method calls in generated text being postfix expressions, blocks or parenthesised.
(Rust language and standard library; no repo lines except for the functions of ethabi that are called.)
-/
namespace Ethabi.Spec

/-- values -/
inductive Val where
  | tok (t : Token)
  | ty (t : ParamType)
  | param (p : Param)
  | eventParam (p : EventParam)
  | fn (f : Function)
  | ctor (c : Constructor)
  | ev (e : Event)
  | mutability (m : StateMutability)
  | addr (a : Address)
  | bytes (b : Bytes)
  | int (i : U256)
  | bool (b : Bool)
  | str (s : Str)
  | num (n : Nat)
  | list (l : List Val)
  | topic (t : Topic Val)
  | none
  | some (v : Val)
  | okv (v : Val)
  | errv (e : Err)
  | decoder (f : Function)
  | rawFilter (r : RawTopicFilter)
  | filter (f : TopicFilter)
  | rawLog (l : RawLog)
  | log (l : Log)
  | logParam (p : LogParam)
  | tuple (l : List Val)
  | struct (name : Str) (fields : List Str) (vals : List Val)

/-- outcome of running an expression; `err` is an early return by `?` -/
inductive Run (α : Type) where
  | stuck
  | ok (a : α)
  | err (e : Err)
  | panic

namespace Run
variable {α β : Type}
/-- sequencing -/
def bind : Run α → (α → Run β) → Run β
  | .stuck, _ => .stuck
  | .ok a, f => f a
  | .err e, _ => .err e
  | .panic, _ => .panic
instance : Monad Run where
  pure := .ok
  bind := Run.bind
@[simp] theorem stuck_bind (f : α → Run β) : ((Run.stuck : Run α) >>= f) = .stuck := rfl
@[simp] theorem ok_bind (a : α) (f : α → Run β) : (Run.ok a >>= f) = f a := rfl
@[simp] theorem err_bind (e : Err) (f : α → Run β) : ((Run.err e : Run α) >>= f) = .err e := rfl
@[simp] theorem panic_bind (f : α → Run β) : ((Run.panic : Run α) >>= f) = .panic := rfl
/-- a value that must exist -/
def get : Option α → Run α
  | .some a => .ok a
  | .none => .stuck
end Run

/-- the value of a call to a library function that returns a `Result` -/
def result {α : Type} (f : α → Val) : Res α → Run Val
  | .ok a => .ok (.okv (f a))
  | .err e => .ok (.errv e)
  | .panic => .panic

/-- paths that are values -/
inductive Const where
  | typeAddress | typeBytes | typeBool | typeString
  | none | topicAny
  | mutability (m : StateMutability)

/-- paths that are called -/
inductive Path where
  | tokenAddress | tokenBytes | tokenFixedBytes | tokenInt | tokenUint | tokenBool | tokenString | tokenArray
  | tokenFixedArray
  | typeInt | typeUint | typeFixedBytes | typeArray | typeFixedArray
  | boxNew | hashFrom | ok | decoder
  /-- a function defined in the generated text, by name -/
  | item (name : Str)
  /-- `ethabi::FunctionOutputDecoder::decode` -/
  | decode

/-- structs that are built -/
inductive StructName where
  | param | eventParam | function | constructor | event | rawTopicFilter
  /-- a generated struct of the module `logs` -/
  | log (name : Str)

/-- what follows the last field of a struct literal -/
inductive Tail where
  | nothing | comma | default

/-- methods -/
inductive Method where
  | into | toOwned | asRef | toVec | intoIter | collect | collectVec | intoVec | mapInto
  | intoAddress | intoBytes | intoFixedBytes | intoInt | intoUint | intoBool | intoString | intoArray | toArray
  | expect
  | encodeInput | decodeOutput | filter | parseLog

/-- expressions; `letIn` and `copyIn` include what follows the statement -/
inductive Expr where
  | var (x : Str)
  | str (s : Str)
  | num (n : Nat)
  | bool (b : Bool)
  | const (k : Const)
  | call (p : Path) (args : List Expr)
  | method (r : Expr) (m : Method) (args : List Expr)
  /-- `r.map(|x| body)` -/
  | map (r : Expr) (x : Str) (body : Expr)
  /-- `r.next()` -/
  | next (r : Expr)
  /-- `r?` -/
  | try_ (r : Expr)
  | field (r : Expr) (name : Str)
  /-- `(Box::new(e) as Box<[_]>)` -/
  | boxed (e : Expr)
  | struct (s : StructName) (fields : List Str) (args : List Expr) (tail : Tail)
  | vec (args : List Expr)
  /-- `[a, b, ..]` -/
  | array (args : List Expr)
  /-- `(a, b, ..)` -/
  | tuple (args : List Expr)
  | ref (e : Expr)
  | block (e : Expr)
  /-- `[0u8; n]` -/
  | zeros (n : Nat)
  /-- `let x = e; rest` -/
  | letIn (mut_ : Bool) (x : Str) (e rest : Expr)
  /-- `x.copy_from_slice(&y); rest` -/
  | copyIn (x y : Str) (rest : Expr)

/-! ## Text -/

def Const.code : Const → Code
  | .typeAddress => r! "ethabi :: ParamType :: Address"
  | .typeBytes => r! "ethabi :: ParamType :: Bytes"
  | .typeBool => r! "ethabi :: ParamType :: Bool"
  | .typeString => r! "ethabi :: ParamType :: String"
  | .none => r! "None"
  | .topicAny => r! "ethabi :: Topic :: Any"
  | .mutability .pure => r! ":: ethabi :: StateMutability :: Pure"
  | .mutability .payable => r! ":: ethabi :: StateMutability :: Payable"
  | .mutability .nonPayable => r! ":: ethabi :: StateMutability :: NonPayable"
  | .mutability .view => r! ":: ethabi :: StateMutability :: View"

def Path.code : Path → Code
  | .tokenAddress => r! "ethabi :: Token :: Address"
  | .tokenBytes => r! "ethabi :: Token :: Bytes"
  | .tokenFixedBytes => r! "ethabi :: Token :: FixedBytes"
  | .tokenInt => r! "ethabi :: Token :: Int"
  | .tokenUint => r! "ethabi :: Token :: Uint"
  | .tokenBool => r! "ethabi :: Token :: Bool"
  | .tokenString => r! "ethabi :: Token :: String"
  | .tokenArray => r! "ethabi :: Token :: Array"
  | .tokenFixedArray => r! "ethabi :: Token :: FixedArray"
  | .typeInt => r! "ethabi :: ParamType :: Int"
  | .typeUint => r! "ethabi :: ParamType :: Uint"
  | .typeFixedBytes => r! "ethabi :: ParamType :: FixedBytes"
  | .typeArray => r! "ethabi :: ParamType :: Array"
  | .typeFixedArray => r! "ethabi :: ParamType :: FixedArray"
  | .boxNew => r! "Box :: new"
  | .hashFrom => r! "ethabi :: Hash :: from"
  | .ok => r! "Ok"
  | .decoder => r! "Decoder"
  | .item n => [.word n]
  | .decode => r! "ethabi :: FunctionOutputDecoder :: decode"

def StructName.code : StructName → Code
  | .param => r! "ethabi :: Param"
  | .eventParam => r! "ethabi :: EventParam"
  | .function => r! "ethabi :: Function"
  | .constructor => r! "ethabi :: Constructor"
  | .event => r! "ethabi :: Event"
  | .rawTopicFilter => r! "ethabi :: RawTopicFilter"
  | .log n => r! "super :: super :: logs ::" ++ [.word n]

/-- the text of a method call after the `.`, up to the opening parenthesis -/
def Method.code : Method → Code
  | .into => r! "into ("
  | .toOwned => r! "to_owned ("
  | .asRef => r! "as_ref ("
  | .toVec => r! "to_vec ("
  | .intoIter => r! "into_iter ("
  | .collect => r! "collect ("
  | .collectVec => r! "collect :: < Vec < _ > > ("
  | .intoVec => r! "into_vec ("
  | .mapInto => r! "map ( Into :: into"
  | .intoAddress => r! "into_address ("
  | .intoBytes => r! "into_bytes ("
  | .intoFixedBytes => r! "into_fixed_bytes ("
  | .intoInt => r! "into_int ("
  | .intoUint => r! "into_uint ("
  | .intoBool => r! "into_bool ("
  | .intoString => r! "into_string ("
  | .intoArray => r! "into_array ("
  | .toArray => r! "to_array ("
  | .expect => r! "expect ( INTERNAL_ERR"
  | .encodeInput => r! "encode_input ("
  | .decodeOutput => r! "decode_output ("
  | .filter => r! "filter ("
  | .parseLog => r! "parse_log ("

/-- `a: x, b: y` -/
def fieldCodes : List Str → List Code → List Code
  | n :: ns, c :: cs => ([Tok.word n] ++ r! ":" ++ c) :: fieldCodes ns cs
  | _, _ => []

/-- the fields of a struct literal and what follows the last one -/
def Tail.code (cs : List Code) : Tail → Code
  | .nothing => commas cs
  | .comma => commas cs ++ r! ","
  | .default => (cs.map (· ++ r! ",")).flatten ++ r! ".. Default :: default ( )"

mutual
/-- the text of an expression -/
def Expr.code : Expr → Code
  | .var x => [.word x]
  | .str s => [.str s]
  | .num n => [.num n]
  | .bool b => [boolTok b]
  | .const k => k.code
  | .call p args => p.code ++ r! "(" ++ commas (codes args) ++ r! ")"
  | .method r m args => r.code ++ r! "." ++ m.code ++ commas (codes args) ++ r! ")"
  | .map r x b => r.code ++ r! ". map ( |" ++ [.word x] ++ r! "|" ++ b.code ++ r! ")"
  | .next r => r.code ++ r! ". next ( )"
  | .try_ r => r.code ++ r! "?"
  | .field r n => r.code ++ r! "." ++ [.word n]
  | .boxed e => r! "( Box :: new (" ++ e.code ++ r! ") as Box < [ _ ] > )"
  | .struct s fields args t => s.code ++ r! "{" ++ t.code (fieldCodes fields (codes args)) ++ r! "}"
  | .vec args => r! "vec ! [" ++ commas (codes args) ++ r! "]"
  | .array args => r! "[" ++ commas (codes args) ++ r! "]"
  | .tuple args => r! "(" ++ commas (codes args) ++ r! ")"
  | .ref e => r! "&" ++ e.code
  | .block e => r! "{" ++ e.code ++ r! "}"
  | .zeros n => r! "[ 0u8 ;" ++ [.index n] ++ r! "]"
  | .letIn m x e rest =>
      (if m then r! "let mut" else r! "let") ++ [.word x] ++ r! "=" ++ e.code ++ r! ";" ++ rest.code
  | .copyIn x y rest => [.word x] ++ r! ". copy_from_slice ( &" ++ [.word y] ++ r! ") ;" ++ rest.code
/-- the texts of several expressions -/
def codes : List Expr → List Code
  | [] => []
  | e :: es => e.code :: codes es
end

/-! ## Values -/

/-- a local variable -/
structure Binding where
  name : Str
  mutable : Bool
  val : Val

/-- the local variables, innermost first -/
abbrev Env := List Binding

/-- what surrounds a function body -/
structure World where
  hash : Bytes → Word
  prof : Profile
  /-- the functions of the module, applied to arguments -/
  items : Str → List Val → Run Val
  /-- the trait function `decode` of the module's `Decoder` -/
  decode : Val → Val → Run Val

/-- the binding of a name -/
def find (x : Str) : Env → Option Binding
  | [] => .none
  | b :: env => if b.name = x then .some b else find x env

/-- assign to a variable -/
def assign (x : Str) (v : Val) : Env → Env
  | [] => []
  | b :: env => if b.name = x then { b with val := v } :: env else b :: assign x v env

/-- leave a block: drop what it declared -/
def leave (outer inner : Env) : Env := inner.drop (inner.length - outer.length)

/-- all values are tokens -/
def asToks : List Val → Option (List Token)
  | [] => .some []
  | .tok t :: vs => (asToks vs).map (t :: ·)
  | _ :: _ => .none
/-- all values are parameters -/
def asParams : List Val → Option (List Param)
  | [] => .some []
  | .param t :: vs => (asParams vs).map (t :: ·)
  | _ :: _ => .none
/-- all values are event parameters -/
def asEventParams : List Val → Option (List EventParam)
  | [] => .some []
  | .eventParam t :: vs => (asEventParams vs).map (t :: ·)
  | _ :: _ => .none
/-- a topic of tokens -/
def asTopic : Val → Option (Topic Token)
  | .topic .any => .some .any
  | .topic (.this (.tok t)) => .some (.this t)
  | .topic (.oneOf l) => (asToks l).map .oneOf
  | _ => .none

def Const.val : Const → Val
  | .typeAddress => .ty .address
  | .typeBytes => .ty .bytes
  | .typeBool => .ty .bool
  | .typeString => .ty .string
  | .none => .none
  | .topicAny => .topic .any
  | .mutability m => .mutability m

/-- call of a path; `hidden` says that a local variable has the name of the function -/
def Path.apply (w : World) (env : Env) : Path → List Val → Run Val
  | .tokenAddress, [.addr a] => .ok (.tok (.address a))
  | .tokenBytes, [.bytes b] => .ok (.tok (.bytes b))
  | .tokenFixedBytes, [.bytes b] => .ok (.tok (.fixedBytes b))
  | .tokenInt, [.int i] => .ok (.tok (.int i))
  | .tokenUint, [.int i] => .ok (.tok (.uint i))
  | .tokenBool, [.bool b] => .ok (.tok (.bool b))
  | .tokenString, [.str s] => .ok (.tok (.string s))
  | .tokenArray, [.list l] => .get ((asToks l).map fun ts => .tok (.array ts))
  | .tokenFixedArray, [.list l] => .get ((asToks l).map fun ts => .tok (.fixedArray ts))
  | .typeInt, [.num n] => .ok (.ty (.int n))
  | .typeUint, [.num n] => .ok (.ty (.uint n))
  | .typeFixedBytes, [.num n] => .ok (.ty (.fixedBytes n))
  | .typeArray, [.ty t] => .ok (.ty (.array t))
  | .typeFixedArray, [.ty t, .num n] => .ok (.ty (.fixedArray t n))
  | .boxNew, [v] => .ok v
  | .hashFrom, [.bytes b] => if b.length = 32 then .ok (.bytes b) else .stuck
  | .ok, [v] => .ok (.okv v)
  | .decoder, [.fn f] => .ok (.decoder f)
  | .item n, vs => if (find n env).isSome then .stuck else w.items n vs
  | .decode, [d, v] => w.decode d v
  | _, _ => .stuck

/-- `Option<T>` -/
def optVal {α : Type} (f : α → Val) : Option α → Val
  | .none => .none
  | .some a => .some (f a)

/-- method call on a value -/
def Method.apply (w : World) : Method → Val → List Val → Run Val
  | .into, v, [] => .ok v
  | .toOwned, .str s, [] => .ok (.str s)
  | .asRef, .bytes b, [] => .ok (.bytes b)
  | .toVec, .bytes b, [] => .ok (.bytes b)
  | .intoIter, .list l, [] => .ok (.list l)
  | .collect, .list l, [] => .ok (.list l)
  | .collectVec, .list l, [] => .ok (.list l)
  | .intoVec, .list l, [] => .ok (.list l)
  | .mapInto, .list l, [] => .ok (.list l)
  | .intoAddress, .tok t, [] => .ok (match t with | .address a => .some (.addr a) | _ => .none)
  | .intoBytes, .tok t, [] => .ok (match t with | .bytes b => .some (.bytes b) | _ => .none)
  | .intoFixedBytes, .tok t, [] => .ok (match t with | .fixedBytes b => .some (.bytes b) | _ => .none)
  | .intoInt, .tok t, [] => .ok (match t with | .int i => .some (.int i) | _ => .none)
  | .intoUint, .tok t, [] => .ok (match t with | .uint i => .some (.int i) | _ => .none)
  | .intoBool, .tok t, [] => .ok (match t with | .bool b => .some (.bool b) | _ => .none)
  | .intoString, .tok t, [] => .ok (match t with | .string s => .some (.str s) | _ => .none)
  | .intoArray, .tok t, [] => .ok (match t with | .array l => .some (.list (l.map .tok)) | _ => .none)
  | .expect, .some v, [] => .ok v
  | .expect, .none, [] => .panic
  | .expect, .okv v, [] => .ok v
  | .expect, .errv _, [] => .panic
  | .encodeInput, .fn f, [.list l] => do result .bytes (f.encodeInput w.hash w.prof (← Run.get (asToks l)))
  | .encodeInput, .ctor c, [.bytes code, .list l] => do result .bytes (c.encodeInput w.prof code (← Run.get (asToks l)))
  | .decodeOutput, .fn f, [.bytes b] => result (fun ts => .list (ts.map .tok)) (f.decodeOutput w.prof b)
  | .filter, .ev e, [.rawFilter r] => result .filter (e.filter w.hash w.prof r)
  | .parseLog, .ev e, [.rawLog l] => result .log (e.parseLog w.hash w.prof l)
  | _, _, _ => .stuck

/-- field access: a tuple struct's `0`, the fields of the library's structs -/
def fieldVal : Val → Str → Run Val
  | .decoder f, n => if n = lit "0" then .ok (.fn f) else .stuck
  | .log l, n => if n = lit "params" then .ok (.list (l.params.map .logParam)) else .stuck
  | .logParam p, n => if n = lit "value" then .ok (.tok p.value) else .stuck
  | _, _ => .stuck

/-- the value given to a field -/
def fieldOf (n : Str) : List Str → List Val → Option Val
  | m :: ms, v :: vs => if m = n then .some v else fieldOf n ms vs
  | _, _ => .none

/-- the topic given to a field of `RawTopicFilter`, or the default -/
def topicField (n : Str) (fields : List Str) (vs : List Val) : Option (Topic Token) :=
  match fieldOf n fields vs with
  | .some v => asTopic v
  | .none => .some .any

/-- keywords of Rust 2018, including the reserved ones -/
def keywords : List String :=
  ["as", "break", "const", "continue", "crate", "else", "enum", "extern", "false", "fn", "for", "if", "impl", "in", "let",
   "loop", "match", "mod", "move", "mut", "pub", "ref", "return", "self", "Self", "static", "struct", "super", "trait", "true",
   "type", "unsafe", "use", "where", "while", "async", "await", "dyn", "abstract", "become", "box", "do", "final", "macro",
   "override", "priv", "typeof", "unsized", "virtual", "yield", "try", "_"]

/-- names that may be given to the parameters of one function or the fields of one struct -/
def namesOk (names : List Str) : Bool :=
  decide names.Nodup && names.all fun n => !(keywords.map lit).contains n

/-- struct literal: all fields must be given, or the rest taken from `Default` -/
def buildStruct (s : StructName) (fields : List Str) (vs : List Val) (t : Tail) : Run Val :=
  let get (n : String) : Option Val := fieldOf (lit n) fields vs
  match s, t with
  | _, .default =>
      match s with
      | .rawTopicFilter =>
          if fields.all (fun n => n == lit "topic0" || n == lit "topic1" || n == lit "topic2") && decide fields.Nodup then
            match topicField (lit "topic0") fields vs, topicField (lit "topic1") fields vs,
              topicField (lit "topic2") fields vs with
            | .some a, .some b, .some c => .ok (.rawFilter { topic0 := a, topic1 := b, topic2 := c })
            | _, _, _ => .stuck
          else .stuck
      | _ => .stuck
  | .param, _ =>
      match fields.length, get "name", get "kind", get "internal_type" with
      | 3, .some (.str n), .some (.ty k), .some .none => .ok (.param ⟨n, k, .none⟩)
      | _, _, _, _ => .stuck
  | .eventParam, _ =>
      match fields.length, get "name", get "kind", get "indexed" with
      | 3, .some (.str n), .some (.ty k), .some (.bool i) => .ok (.eventParam ⟨n, k, i⟩)
      | _, _, _, _ => .stuck
  | .function, _ =>
      match fields.length, get "name", get "inputs", get "outputs", get "constant", get "state_mutability" with
      | 5, .some (.str n), .some (.list is), .some (.list os), .some (.bool c), .some (.mutability m) =>
          match asParams is, asParams os with
          | .some is, .some os => .ok (.fn ⟨n, is, os, c, m⟩)
          | _, _ => .stuck
      | _, _, _, _, _, _ => .stuck
  | .constructor, _ =>
      match fields.length, get "inputs" with
      | 1, .some (.list is) => .get ((asParams is).map fun ps => .ctor ⟨ps⟩)
      | _, _ => .stuck
  | .event, _ =>
      match fields.length, get "name", get "inputs", get "anonymous" with
      | 3, .some (.str n), .some (.list is), .some (.bool a) => .get ((asEventParams is).map fun ps => .ev ⟨n, ps, a⟩)
      | _, _, _, _ => .stuck
  | .log n, _ => if namesOk fields then .ok (.struct n fields vs) else .stuck
  | .rawTopicFilter, _ => .stuck

/-- apply a closure to each element -/
def mapVals (f : Val → Run Val) : List Val → Run (List Val)
  | [] => .ok []
  | v :: vs => do
      let a ← f v
      let as ← mapVals f vs
      .ok (a :: as)

/-- `map` of an iterator or of a `Topic` -/
def mapVal (f : Val → Run Val) : Val → Run Val
  | .list l => do .ok (.list (← mapVals f l))
  | .topic .any => .ok (.topic .any)
  | .topic (.this v) => do .ok (.topic (.this (← f v)))
  | .topic (.oneOf l) => do .ok (.topic (.oneOf (← mapVals f l)))
  | _ => .stuck

/-- `next()` on an iterator: the element and the rest -/
def nextVal : Val → Run (Val × Val)
  | .list [] => .ok (.none, .list [])
  | .list (v :: vs) => .ok (.some v, .list vs)
  | _ => .stuck

/-- `?` -/
def tryVal : Val → Run Val
  | .okv v => .ok v
  | .errv e => .err e
  | _ => .stuck

/-- a list's contents -/
def asList : Val → Run Val
  | .list l => .ok (.list l)
  | _ => .stuck

mutual
/-- the value of an expression, and the local variables afterwards -/
def eval (w : World) : Expr → Env → Run (Val × Env)
  | .var x, env => do .ok ((← Run.get (find x env)).val, env)
  | .str s, env => .ok (.str s, env)
  | .num n, env => .ok (.num n, env)
  | .bool b, env => .ok (.bool b, env)
  | .const k, env => .ok (k.val, env)
  | .call p args, env => do
      let r ← evals w args env
      .ok (← p.apply w env r.1, r.2)
  | .method r m args, env => do
      let a ← eval w r env
      let b ← evals w args a.2
      .ok (← m.apply w a.1 b.1, b.2)
  | .map r x body, env => do
      let a ← eval w r env
      .ok (← mapVal (fun v => do .ok (← eval w body (⟨x, false, v⟩ :: a.2)).1) a.1, a.2)
  | .next (.var x), env => do
      let b ← Run.get (find x env)
      if b.mutable then do
        let n ← nextVal b.val
        .ok (n.1, assign x n.2 env)
      else .stuck
  | .next r, env => do
      let a ← eval w r env
      .ok ((← nextVal a.1).1, a.2)
  | .try_ r, env => do
      let a ← eval w r env
      .ok (← tryVal a.1, a.2)
  | .field r n, env => do
      let a ← eval w r env
      .ok (← fieldVal a.1 n, a.2)
  | .boxed e, env => do
      let a ← eval w e env
      .ok (← asList a.1, a.2)
  | .struct s fields args t, env => do
      let r ← evals w args env
      .ok (← buildStruct s fields r.1 t, r.2)
  | .vec args, env => do
      let r ← evals w args env
      .ok (.list r.1, r.2)
  | .array args, env => do
      let r ← evals w args env
      .ok (.list r.1, r.2)
  | .tuple args, env => do
      let r ← evals w args env
      if args.length = 1 then .stuck else .ok (.tuple r.1, r.2)
  | .ref e, env => eval w e env
  | .block e, env => do
      let a ← eval w e env
      .ok (a.1, leave env a.2)
  | .zeros n, env => .ok (.bytes (List.replicate n 0), env)
  | .letIn m x e rest, env => do
      let a ← eval w e env
      eval w rest (⟨x, m, a.1⟩ :: a.2)
  | .copyIn x y rest, env => do
      let b ← Run.get (find x env)
      let c ← Run.get (find y env)
      if b.mutable then
        match b.val, c.val with
        | .bytes d, .bytes v => if v.length = d.length then eval w rest (assign x (.bytes v) env) else .panic
        | _, _ => .stuck
      else .stuck
/-- the values of several expressions, from left to right -/
def evals (w : World) : List Expr → Env → Run (List Val × Env)
  | [], env => .ok ([], env)
  | e :: es, env => do
      let a ← eval w e env
      let as ← evals w es a.2
      .ok (a.1 :: as.1, as.2)
end

/-- what a caller sees: an early return by `?` is an ordinary `Err` -/
def returned : Run (Val × Env) → Run Val
  | .stuck => .stuck
  | .ok (v, _) => .ok v
  | .err e => .ok (.errv e)
  | .panic => .panic

/-- parameters as local variables -/
def bindings (params : List Str) (args : List Val) : Env := List.zipWith (fun n v => ⟨n, false, v⟩) params args

/-- call a function with these parameters and this body -/
def runFn (w : World) (params : List Str) (args : List Val) (body : Expr) : Run Val :=
  if namesOk params && decide (params.length = args.length) then returned (eval w body (bindings params args)) else .stuck

/-- call a method with these parameters after `self` and this body -/
def runMethod (w : World) (self : Val) (params : List Str) (args : List Val) (body : Expr) : Run Val :=
  if namesOk params && decide (params.length = args.length) then
    returned (eval w body (⟨lit "self", false, self⟩ :: bindings params args))
  else .stuck

end Ethabi.Spec

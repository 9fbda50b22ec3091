import Verif.Spec.Generated
/-!
# Lemmas: the generator's text as expressions
-/
namespace Ethabi.Spec

/-! ## The expressions -/

/-- `to_syntax_string` -/
def typeExpr : ParamType → Expr
  | .address => .const .typeAddress
  | .bytes => .const .typeBytes
  | .int n => .call .typeInt [.num n]
  | .uint n => .call .typeUint [.num n]
  | .bool => .const .typeBool
  | .string => .const .typeString
  | .array t => .call .typeArray [.call .boxNew [typeExpr t]]
  | .fixedBytes n => .call .typeFixedBytes [.num n]
  | .fixedArray t n => .call .typeFixedArray [.call .boxNew [typeExpr t], .num n]
  | .tuple _ => .const .none

def paramExpr (p : Param) : Expr :=
  .struct .param [lit "name", lit "kind", lit "internal_type"]
    [.method (.str p.name) .toOwned [], typeExpr p.kind, .const .none] .nothing

def eventParamExpr (p : EventParam) : Expr :=
  .struct .eventParam [lit "name", lit "kind", lit "indexed"]
    [.method (.str p.name) .toOwned [], typeExpr p.kind, .bool p.indexed] .nothing

/-- `rust_type` -/
def typeCode : ParamType → Code
  | .address => r! "ethabi :: Address"
  | .bytes => r! "ethabi :: Bytes"
  | .fixedBytes n => if n = 32 then r! "ethabi :: Hash" else r! "[ u8 ;" ++ [.num n] ++ r! "]"
  | .int _ => r! "ethabi :: Int"
  | .uint _ => r! "ethabi :: Uint"
  | .bool => r! "bool"
  | .string => r! "String"
  | .array t => r! "Vec <" ++ typeCode t ++ r! ">"
  | .fixedArray t n => r! "[" ++ typeCode t ++ r! "," ++ [.num n] ++ r! "]"
  | .tuple _ => []

/-- `template_param_type` -/
def genericCode (i : Nat) (t : ParamType) : Code :=
  match templateParamType t i with
  | .ok c => c
  | _ => []

/-- `from_template_param` -/
def templateExpr (t : ParamType) (n : Str) : Expr :=
  match t with
  | .array _ => .method (.method (.method (.var n) .intoIter []) .mapInto []) .collectVec []
  | .fixedArray _ _ =>
      .method (.method (.method (.method (.boxed (.method (.var n) .into [])) .intoVec []) .intoIter []) .mapInto []) .collectVec []
  | _ => .method (.var n) .into []

/-- `to_token` -/
def tokenExpr (name : Expr) : ParamType → Expr
  | .address => .call .tokenAddress [name]
  | .bytes => .call .tokenBytes [name]
  | .fixedBytes _ => .call .tokenFixedBytes [.method (.method name .asRef []) .toVec []]
  | .int _ => .call .tokenInt [name]
  | .uint _ => .call .tokenUint [name]
  | .bool => .call .tokenBool [name]
  | .string => .call .tokenString [name]
  | .array k => .block (.letIn false (lit "v")
      (.method (.map (.method name .intoIter []) (lit "inner") (tokenExpr (.var (lit "inner")) k)) .collect [])
      (.call .tokenArray [.var (lit "v")]))
  | .fixedArray k _ => .block (.letIn false (lit "v")
      (.method (.map (.method name .intoIter []) (lit "inner") (tokenExpr (.var (lit "inner")) k)) .collect [])
      (.call .tokenFixedArray [.var (lit "v")]))
  | .tuple _ => .const .none

/-- `from_token` -/
def fromExpr (token : Expr) : ParamType → Expr
  | .address => .method (.method token .intoAddress []) .expect []
  | .bytes => .method (.method token .intoBytes []) .expect []
  | .fixedBytes n => .block (.letIn true (lit "result") (.zeros n)
      (.letIn false (lit "v") (.method (.method token .intoFixedBytes []) .expect [])
        (.copyIn (lit "result") (lit "v")
          (if n = 32 then .call .hashFrom [.var (lit "result")] else .var (lit "result")))))
  | .int _ => .method (.method token .intoInt []) .expect []
  | .uint _ => .method (.method token .intoUint []) .expect []
  | .bool => .method (.method token .intoBool []) .expect []
  | .string => .method (.method token .intoString []) .expect []
  | .array k => .method (.map (.method (.method (.method token .intoArray []) .expect []) .intoIter [])
      (lit "inner") (fromExpr (.var (lit "inner")) k)) .collect []
  | .fixedArray k n => .block (.letIn false (lit "iter")
      (.map (.method (.method (.method token .toArray []) .expect []) .intoIter [])
        (lit "inner") (fromExpr (.var (lit "inner")) k))
      (.array (List.replicate n (.next (.var (lit "iter"))))))
  | .tuple _ => .const .none

/-- `tokenize` -/
def tokenExprs : List Str → List ParamType → List Expr
  | n :: ns, t :: ts => tokenExpr (templateExpr t n) t :: tokenExprs ns ts
  | _, _ => []

/-- `self.0.decode_output(output)?.into_iter()` -/
def outputIter : Expr :=
  .method (.try_ (.method (.field (.var (lit "self")) (lit "0")) .decodeOutput [.var (lit "output")])) .intoIter []

/-- body of `decode` -/
def decodeExpr (outputs : List ParamType) : Expr :=
  match outputs with
  | [] => .letIn false (lit "_output") (.var (lit "output")) (.call .ok [.tuple []])
  | [t] => .letIn false (lit "out") (.method (.next outputIter) .expect []) (.call .ok [fromExpr (.var (lit "out")) t])
  | ts => .letIn true (lit "out") outputIter
      (.call .ok [.tuple (ts.map (fromExpr (.method (.next (.var (lit "out"))) .expect [])))])

def outputCode (ts : List ParamType) : Code :=
  match ts with
  | [] => r! "( )"
  | [t] => typeCode t
  | ts => r! "(" ++ commas (ts.map typeCode) ++ r! ")"

/-- body of `function` -/
def declExpr (f : Function) : Expr :=
  .struct .function [lit "name", lit "inputs", lit "outputs", lit "constant", lit "state_mutability"]
    [.method (.str f.name) .into [], .vec (f.inputs.map paramExpr), .vec (f.outputs.map paramExpr), .bool f.constant,
     .const (.mutability f.stateMutability)] .nothing

def encodeExpr (tokens : List Expr) : Expr :=
  .letIn false (lit "f") (.call (.item (lit "function")) [])
    (.letIn false (lit "tokens") (.vec tokens)
      (.method (.method (.var (lit "f")) .encodeInput [.ref (.var (lit "tokens"))]) .expect []))

def callExpr (tokens : List Expr) : Expr :=
  .letIn false (lit "f") (.call (.item (lit "function")) [])
    (.letIn false (lit "tokens") (.vec tokens)
      (.tuple [.method (.method (.var (lit "f")) .encodeInput [.ref (.var (lit "tokens"))]) .expect [],
        .call .decoder [.var (lit "f")]]))

def decodeOutputExpr : Expr :=
  .call .decode [.ref (.call .decoder [.call (.item (lit "function")) []]), .var (lit "output")]

/-- the generic parameters, from number `i` on -/
def genericCodes : Nat → List ParamType → List Code
  | _, [] => []
  | i, t :: ts => genericCode i t :: genericCodes (i + 1) ts

/-- the module for a function -/
def functionModule (nm : Naming) (f : Function) : FunctionModule where
  name := nm.snake f.name
  function := declExpr f
  output := outputCode (f.outputs.map (·.kind))
  decode := decodeExpr (f.outputs.map (·.kind))
  generics := genericCodes 0 (f.inputs.map (·.kind))
  params := inputNames nm 0 f.inputs
  encodeInput := encodeExpr (tokenExprs (inputNames nm 0 f.inputs) (f.inputs.map (·.kind)))
  decodeOutput := decodeOutputExpr
  call := callExpr (tokenExprs (inputNames nm 0 f.inputs) (f.inputs.map (·.kind)))

def constructorExpr (inputs : List Param) (tokens : List Expr) : Expr :=
  .letIn false (lit "c") (.struct .constructor [lit "inputs"] [.vec (inputs.map paramExpr)] .comma)
    (.letIn false (lit "tokens") (.vec tokens)
      (.method (.method (.var (lit "c")) .encodeInput [.var (lit "code"), .ref (.var (lit "tokens"))]) .expect []))

/-- the item for a constructor -/
def constructorItem (nm : Naming) (c : Constructor) : ConstructorItem where
  generics := genericCodes 0 (c.inputs.map (·.kind))
  params := inputNames nm 0 c.inputs
  body := constructorExpr c.inputs (tokenExprs (inputNames nm 0 c.inputs) (c.inputs.map (·.kind)))

/-- body of `event` -/
def eventDeclExpr (nm : Naming) (e : Event) : Expr :=
  .struct .event [lit "name", lit "inputs", lit "anonymous"]
    [.method (.str (nm.camel e.name)) .into [], .vec (e.inputs.map eventParamExpr), .bool e.anonymous] .comma

/-- the topics given to `RawTopicFilter` -/
def filterExprs : List Str → List ParamType → List Expr
  | n :: ns, t :: ts =>
      .map (.method (.var n) .into []) (lit "i") (tokenExpr (.var (lit "i")) t) :: filterExprs ns ts
  | _, _ => []

/-- `topic0`, `topic1`, .. from number `i` on, `n` of them -/
def topicFields (i : Nat) : Nat → List Str
  | 0 => []
  | n + 1 => numbered "topic" i :: topicFields (i + 1) n

def filterExpr (names : List Str) (kinds : List ParamType) : Expr :=
  .letIn false (lit "raw")
    (.struct .rawTopicFilter (topicFields 0 (filterExprs names kinds).length) (filterExprs names kinds) .default)
    (.letIn false (lit "e") (.call (.item (lit "event")) [])
      (.method (.method (.var (lit "e")) .filter [.var (lit "raw")]) .expect []))

def parseLogExpr (logName : Str) (names : List Str) (kinds : List ParamType) : Expr :=
  .letIn false (lit "e") (.call (.item (lit "event")) [])
    (.letIn true (lit "log")
      (.method (.field (.try_ (.method (.var (lit "e")) .parseLog [.var (lit "log")])) (lit "params")) .intoIter [])
      (.letIn false (lit "result")
        (.struct (.log logName) names
          (kinds.map (fromExpr (.field (.method (.next (.var (lit "log"))) .expect []) (lit "value")))) .nothing)
        (.call .ok [.var (lit "result")])))

/-- the kinds of the indexed inputs -/
def topicKinds (e : Event) : List ParamType := (e.inputs.filter (·.indexed)).map (·.kind)

/-- the generic parameters of `filter`, from number `i` on -/
def topicGenerics : Nat → List ParamType → List Code
  | _, [] => []
  | i, t :: ts => ([Tok.word (numbered "T" i)] ++ r! ": Into < ethabi :: Topic <" ++ typeCode t ++ r! "> >") :: topicGenerics (i + 1) ts

/-- the module for an event -/
def eventModule (nm : Naming) (e : Event) : EventModule where
  name := nm.snake e.name
  logName := nm.camel e.name
  event := eventDeclExpr nm e
  generics := topicGenerics 0 (topicKinds e)
  params := topicNames nm e
  filter := filterExpr ((topicNames nm e).take 3) ((topicKinds e).take 3)
  wildcardFilter := .call (.item (lit "filter")) ((topicNames nm e).map fun _ => .const .topicAny)
  parseLog := parseLogExpr (nm.camel e.name) (fieldNames nm 0 e.inputs) (e.inputs.map (·.kind))

/-- the struct for the logs of an event -/
def logStruct (nm : Naming) (e : Event) : LogStruct where
  name := nm.camel e.name
  fields := fieldNames nm 0 e.inputs
  types := e.inputs.map fun p => typeCode p.kind

/-- the text for a contract -/
def contractText (nm : Naming) (c : Contract) : ContractText where
  constructor := c.constructor.map (constructorItem nm)
  functions := c.allFunctions.map (functionModule nm)
  events := c.allEvents.map (eventModule nm)
  logs := c.allEvents.map (logStruct nm)

/-! ## The generator writes their text -/

theorem codes_map {α : Type} (f : α → Expr) (l : List α) : codes (l.map f) = l.map fun a => (f a).code := by
  induction l with
  | nil => rfl
  | cons a l ih => simp [codes, ih]

theorem cons_if {α : Type} (p q : Bool) (a : α) (as : List α) :
    ((if p = true then Res.ok a else .panic) >>= fun n => (if q = true then Res.ok as else .panic) >>= fun ns => .ok (n :: ns)) =
      if (p && q) = true then .ok (a :: as) else .panic := by
  cases p <;> cases q <;> rfl

theorem mapRes_if {α β : Type} {f : α → Res β} {p : α → Bool} {g : α → β} :
    ∀ (l : List α), (∀ a ∈ l, f a = if p a = true then .ok (g a) else .panic) →
      mapRes f l = if l.all p = true then .ok (l.map g) else .panic
  | [], _ => rfl
  | a :: l, h => by
      have ha := h a (List.mem_cons_self ..)
      have hl := mapRes_if l fun b hb => h b (List.mem_cons_of_mem _ hb)
      rw [mapRes, ha, hl]
      exact cons_if _ _ _ _

theorem toSyntaxString_eq : ∀ (t : ParamType),
    toSyntaxString t = if tupleFree t = true then .ok (typeExpr t).code else .panic
  | .address | .bytes | .bool | .string | .tuple _ => rfl
  | .int _ | .uint _ | .fixedBytes _ => rfl
  | .array t => by
      simp only [toSyntaxString, toSyntaxString_eq t]
      by_cases ht : (tupleFree t) = true
      · have ht2 : ((tupleFree (.array t))) = true := ht
        simp only [if_pos ht, if_pos ht2, Res.ok_bind]; simp [typeExpr, Expr.code, codes, commas, Path.code, txt]
      · have ht2 : ¬ ((tupleFree (.array t))) = true := ht
        simp only [if_neg ht, if_neg ht2]; rfl
  | .fixedArray t n => by
      simp only [toSyntaxString, toSyntaxString_eq t]
      by_cases ht : (tupleFree t) = true
      · have ht2 : ((tupleFree (.fixedArray t n))) = true := ht
        simp only [if_pos ht, if_pos ht2, Res.ok_bind]; simp [typeExpr, Expr.code, codes, commas, Path.code, txt]
      · have ht2 : ¬ ((tupleFree (.fixedArray t n))) = true := ht
        simp only [if_neg ht, if_neg ht2]; rfl

theorem paramCode_eq (p : Param) :
    paramCode p = if tupleFree p.kind = true then .ok (paramExpr p).code else .panic := by
  simp only [paramCode, toSyntaxString_eq]
  by_cases ht : tupleFree p.kind = true
  · simp only [if_pos ht, Res.ok_bind]; simp [paramExpr, Expr.code, codes, commas, StructName.code, Tail.code, fieldCodes, Method.code, Const.code, txt]
  · simp only [if_neg ht]; rfl

theorem eventParamCode_eq (p : EventParam) :
    eventParamCode p = if tupleFree p.kind = true then .ok (eventParamExpr p).code else .panic := by
  simp only [eventParamCode, toSyntaxString_eq]
  by_cases ht : tupleFree p.kind = true
  · simp only [if_pos ht, Res.ok_bind]; simp [eventParamExpr, Expr.code, codes, commas, StructName.code, Tail.code, fieldCodes, Method.code, txt]
  · simp only [if_neg ht]; rfl

theorem toEthabiParamVec_eq (ps : List Param) :
    toEthabiParamVec ps = if (ps.all fun p => tupleFree p.kind) = true then .ok (Expr.vec (ps.map paramExpr)).code else .panic := by
  rw [toEthabiParamVec, mapRes_if ps fun p _ => paramCode_eq p]
  by_cases ht : (ps.all fun p => tupleFree p.kind) = true
  · rw [if_pos ht, if_pos ht]; simp [Expr.code, codes_map, vecCode]
  · rw [if_neg ht, if_neg ht]; rfl

theorem rustType_eq : ∀ (t : ParamType), rustType t = if tupleFree t = true then .ok (typeCode t) else .panic
  | .address | .bytes | .bool | .string | .tuple _ => rfl
  | .int _ | .uint _ => rfl
  | .fixedBytes n => by
      simp only [rustType, tupleFree, typeCode, if_true]
      split <;> rfl
  | .array t => by
      simp only [rustType, rustType_eq t]
      by_cases ht : tupleFree t = true
      · have ht2 : (tupleFree (.array t)) = true := ht
        simp only [if_pos ht, if_pos ht2]; rfl
      · have ht2 : ¬ (tupleFree (.array t)) = true := ht
        simp only [if_neg ht, if_neg ht2]; rfl
  | .fixedArray t n => by
      simp only [rustType, rustType_eq t]
      by_cases ht : tupleFree t = true
      · have ht2 : (tupleFree (.fixedArray t n)) = true := ht
        simp only [if_pos ht, if_pos ht2]; rfl
      · have ht2 : ¬ (tupleFree (.fixedArray t n)) = true := ht
        simp only [if_neg ht, if_neg ht2]; rfl

theorem templateParamType_eq (t : ParamType) (i : Nat) :
    templateParamType t i = if tupleFree t = true then .ok (genericCode i t) else .panic := by
  rw [genericCode]
  cases t with
  | fixedBytes n => by_cases h : n = 32 <;> simp [templateParamType, tupleFree, h]
  | array k =>
      simp only [templateParamType, rustType_eq]
      by_cases ht : tupleFree k = true
      · have ht2 : (tupleFree (.array k)) = true := ht
        simp only [if_pos ht, if_pos ht2]; rfl
      · have ht2 : ¬ (tupleFree (.array k)) = true := ht
        simp only [if_neg ht, if_neg ht2]; rfl
  | fixedArray k n =>
      simp only [templateParamType, rustType_eq]
      by_cases ht : tupleFree k = true
      · have ht2 : (tupleFree (.fixedArray k n)) = true := ht
        simp only [if_pos ht, if_pos ht2]; rfl
      · have ht2 : ¬ (tupleFree (.fixedArray k n)) = true := ht
        simp only [if_neg ht, if_neg ht2]; rfl
  | _ => rfl

theorem fromTemplateParam_eq (t : ParamType) (n : Str) : fromTemplateParam t n = (templateExpr t n).code := by
  cases t <;> simp [fromTemplateParam, templateExpr, Expr.code, codes, commas, Method.code, txt]

theorem toTokenCode_eq : ∀ (t : ParamType) (e : Expr),
    toTokenCode e.code t = if tupleFree t = true then .ok (tokenExpr e t).code else .panic
  | .address, e | .bytes, e | .bool, e | .string, e | .int _, e | .uint _, e => by
      simp [toTokenCode, tokenExpr, tupleFree, Expr.code, codes, commas, Path.code, txt]
  | .fixedBytes _, e => by
      simp [toTokenCode, tokenExpr, tupleFree, Expr.code, codes, commas, Path.code, Method.code, txt]
  | .array t, e => by
      have h : toTokenCode (r! "inner") t = _ := toTokenCode_eq t (.var (lit "inner"))
      simp only [toTokenCode, h]
      by_cases ht : (tupleFree t) = true
      · have ht2 : ((tupleFree (.array t))) = true := ht
        simp only [if_pos ht, if_pos ht2, Res.ok_bind]; simp [tokenExpr, Expr.code, codes, commas, Path.code, Method.code, txt]
      · have ht2 : ¬ ((tupleFree (.array t))) = true := ht
        simp only [if_neg ht, if_neg ht2]; rfl
  | .fixedArray t n, e => by
      have h : toTokenCode (r! "inner") t = _ := toTokenCode_eq t (.var (lit "inner"))
      simp only [toTokenCode, h]
      by_cases ht : (tupleFree t) = true
      · have ht2 : ((tupleFree (.fixedArray t n))) = true := ht
        simp only [if_pos ht, if_pos ht2, Res.ok_bind]; simp [tokenExpr, Expr.code, codes, commas, Path.code, Method.code, txt]
      · have ht2 : ¬ ((tupleFree (.fixedArray t n))) = true := ht
        simp only [if_neg ht, if_neg ht2]; rfl
  | .tuple _, _ => rfl

theorem fromTokenCode_eq : ∀ (t : ParamType) (e : Expr),
    fromTokenCode e.code t = if (tupleFree t && indexable t) = true then .ok (fromExpr e t).code else .panic
  | .address, e | .bytes, e | .bool, e | .string, e | .int _, e | .uint _, e => by
      simp [fromTokenCode, fromExpr, tupleFree, indexable, Expr.code, codes, commas, Method.code, txt]
  | .fixedBytes n, e => by
      by_cases h : n = 32
      · subst h
        simp [fromTokenCode, fromExpr, tupleFree, indexable, Expr.code, codes, commas, Method.code, Path.code, txt]
      · by_cases h' : n < 2 ^ 32 - 1
        · simp only [fromTokenCode, if_neg h, synIndex, if_pos h']
          simp [fromExpr, tupleFree, indexable, Expr.code, codes, commas, Method.code, Path.code, txt, h]
          omega
        · simp only [fromTokenCode, if_neg h, synIndex, if_neg h']
          simp [tupleFree, indexable, h]
          omega
  | .array t, e => by
      have h : fromTokenCode (r! "inner") t = _ := fromTokenCode_eq t (.var (lit "inner"))
      simp only [fromTokenCode, h]
      by_cases ht : (tupleFree t && indexable t) = true
      · have ht2 : ((tupleFree (.array t) && indexable (.array t))) = true := ht
        simp only [if_pos ht, if_pos ht2, Res.ok_bind]; simp [fromExpr, Expr.code, codes, commas, Path.code, Method.code, txt]
      · have ht2 : ¬ ((tupleFree (.array t) && indexable (.array t))) = true := ht
        simp only [if_neg ht, if_neg ht2]; rfl
  | .fixedArray t n, e => by
      have h : fromTokenCode (r! "inner") t = _ := fromTokenCode_eq t (.var (lit "inner"))
      simp only [fromTokenCode, h]
      have hr : codes (List.replicate n (Expr.next (.var (lit "iter")))) = List.replicate n (r! "iter . next ( )") := by
        induction n with
        | zero => rfl
        | succ n ih => rw [List.replicate_succ, List.replicate_succ, codes, ih]; rfl
      by_cases ht : (tupleFree t && indexable t) = true
      · have ht2 : ((tupleFree (.fixedArray t n) && indexable (.fixedArray t n))) = true := ht
        simp only [if_pos ht, if_pos ht2, Res.ok_bind, fromExpr, Expr.code, hr]
        simp [codes, commas, Path.code, Method.code, txt]
      · have ht2 : ¬ ((tupleFree (.fixedArray t n) && indexable (.fixedArray t n))) = true := ht
        simp only [if_neg ht, if_neg ht2]; rfl
  | .tuple _, _ => rfl

/-! ## Names -/

theorem ident_eq (nm : Naming) (s : Str) : nm.ident s = if nm.valid s = true then .ok s else .panic := rfl

theorem inputName_eq (nm : Naming) (i : Nat) (p : Param) :
    inputName nm i p = if nameOk nm (inputIdent nm) p.name = true
      then .ok (if p.name.isEmpty = true then numbered "param" i else inputIdent nm p.name) else .panic := by
  rw [inputName]
  rcases hp : p.name with _ | ⟨c, cs⟩
  · rfl
  · show nm.ident (inputIdent nm (c :: cs)) = if (false || nm.valid (inputIdent nm (c :: cs))) = true then _ else _
    rw [Bool.false_or]; rfl

theorem inputNamesFrom_eq (nm : Naming) : ∀ (i : Nat) (ps : List Param),
    inputNamesFrom nm i ps =
      if (ps.all fun p => nameOk nm (inputIdent nm) p.name) = true then .ok (inputNames nm i ps) else .panic
  | _, [] => rfl
  | i, p :: ps => by
      rw [inputNamesFrom, inputName_eq, inputNamesFrom_eq nm (i + 1) ps]
      exact cons_if _ _ _ _

theorem eventName_eq (nm : Naming) (i : Nat) (p : EventParam) :
    eventName nm i p = if nameOk nm nm.snake p.name = true
      then .ok (if p.name.isEmpty then (if p.indexed then numbered "topic" i else numbered "param" i) else nm.snake p.name)
      else .panic := by
  rw [eventName]
  rcases hp : p.name with _ | ⟨c, cs⟩
  · rfl
  · show nm.ident (nm.snake (c :: cs)) = if (false || nm.valid (nm.snake (c :: cs))) = true then _ else _
    rw [Bool.false_or]; rfl

theorem eventNamesFrom_eq (nm : Naming) : ∀ (i : Nat) (ps : List EventParam),
    eventNamesFrom nm i ps =
      if (ps.all fun p => nameOk nm nm.snake p.name) = true then .ok (fieldNames nm i ps) else .panic
  | _, [] => rfl
  | i, p :: ps => by
      rw [eventNamesFrom, eventName_eq, eventNamesFrom_eq nm (i + 1) ps]
      exact cons_if _ _ _ _

/-- the names of the indexed inputs, from number `i` on -/
def topicNamesAt (nm : Naming) (i : Nat) (ps : List EventParam) : List Str :=
  ((fieldNames nm i ps).zip ps).filterMap fun x => if x.2.indexed then some x.1 else none

theorem topicNamesFrom_eq (nm : Naming) : ∀ (i : Nat) (ps : List EventParam),
    (ps.all fun p => nameOk nm nm.snake p.name) = true → topicNamesFrom nm i ps = .ok (topicNamesAt nm i ps)
  | _, [], _ => rfl
  | i, p :: ps, h => by
      rw [List.all_cons, Bool.and_eq_true] at h
      rw [topicNamesFrom, eventName_eq, topicNamesFrom_eq nm (i + 1) ps h.2, if_pos h.1]
      rcases hi : p.indexed
      · simp [topicNamesAt, fieldNames, hi]
      · simp [topicNamesAt, fieldNames, hi]

theorem definitions_eq (names : List Str) : definitions names = paramCodes 0 names := by
  have key : ∀ (ns : List Str) (i : Nat),
      List.zipWith (fun n t => [Tok.word n] ++ r! ":" ++ [Tok.word t]) ns ((List.range' i ns.length).map (numbered "T")) =
        paramCodes i ns := by
    intro ns
    induction ns with
    | nil => intro i; rfl
    | cons n ns ih =>
        intro i
        rw [List.length_cons, List.range'_succ, List.map_cons, List.zipWith_cons_cons, ih]; rfl
  rw [definitions, templateNames, List.range_eq_range']
  exact key names 0

theorem filterDeclarations_eq (ts : List ParamType) : filterDeclarations (ts.map typeCode) = topicGenerics 0 ts := by
  have key : ∀ (ts : List ParamType) (i : Nat),
      List.zipWith (fun k t => [Tok.word t] ++ r! ": Into < ethabi :: Topic <" ++ k ++ r! "> >") (ts.map typeCode)
        ((List.range' i ts.length).map (numbered "T")) = topicGenerics i ts := by
    intro ts
    induction ts with
    | nil => intro i; rfl
    | cons n ns ih =>
        intro i
        rw [List.length_cons, List.range'_succ, List.map_cons, List.map_cons, List.zipWith_cons_cons, ih]; rfl
  rw [filterDeclarations, templateNames, List.range_eq_range', List.length_map]
  exact key ts 0

theorem length_inputNames (nm : Naming) : ∀ (i : Nat) (ps : List Param), (inputNames nm i ps).length = ps.length
  | _, [] => rfl
  | i, _ :: ps => by rw [inputNames, List.length_cons, length_inputNames nm (i + 1) ps, List.length_cons]

theorem length_fieldNames (nm : Naming) : ∀ (i : Nat) (ps : List EventParam), (fieldNames nm i ps).length = ps.length
  | _, [] => rfl
  | i, _ :: ps => by rw [fieldNames, List.length_cons, length_fieldNames nm (i + 1) ps, List.length_cons]

theorem length_topicNamesAt (nm : Naming) : ∀ (i : Nat) (ps : List EventParam),
    (topicNamesAt nm i ps).length = (ps.filter (·.indexed)).length
  | _, [] => rfl
  | i, p :: ps => by
      have ih := length_topicNamesAt nm (i + 1) ps
      rw [topicNamesAt] at ih
      rcases hi : p.indexed <;> simp [topicNamesAt, fieldNames, hi, ih]

/-! ## Functions, constructors, events -/

theorem declarationsFrom_eq : ∀ (i : Nat) (ts : List ParamType), ts.all tupleFree = true →
    declarationsFrom i ts = .ok (genericCodes i ts)
  | _, [], _ => rfl
  | i, t :: ts, h => by
      rw [List.all_cons, Bool.and_eq_true] at h
      rw [declarationsFrom, templateParamType_eq, if_pos h.1, declarationsFrom_eq (i + 1) ts h.2]; rfl

theorem declarationsFrom_panic : ∀ (i : Nat) (ts : List ParamType), ¬ ts.all tupleFree = true →
    declarationsFrom i ts = .panic
  | _, [], h => absurd rfl h
  | i, t :: ts, h => by
      rw [declarationsFrom, templateParamType_eq]
      by_cases ht : tupleFree t = true
      · rw [if_pos ht, declarationsFrom_panic (i + 1) ts fun h' => h (by rw [List.all_cons, ht, h']; rfl)]; rfl
      · rw [if_neg ht]; rfl

theorem tokenizeCode_eq : ∀ (ns : List Str) (ts : List ParamType), ts.all tupleFree = true →
    tokenizeCode ns ts = .ok (codes (tokenExprs ns ts))
  | [], _, _ => by rw [tokenizeCode]; rfl; simp
  | _ :: _, [], _ => rfl
  | n :: ns, t :: ts, h => by
      rw [List.all_cons, Bool.and_eq_true] at h
      rw [tokenizeCode, fromTemplateParam_eq, toTokenCode_eq, if_pos h.1, tokenizeCode_eq ns ts h.2]; rfl

theorem filterInitFrom_eq : ∀ (i : Nat) (ns : List Str) (ts : List ParamType), ts.all tupleFree = true →
    filterInitFrom i ns ts = .ok ((fieldCodes (topicFields i (filterExprs ns ts).length) (codes (filterExprs ns ts))).map (· ++ r! ","))
  | _, [], _, _ => by rw [filterInitFrom]; rfl; simp
  | _, _ :: _, [], _ => rfl
  | i, n :: ns, t :: ts, h => by
      rw [List.all_cons, Bool.and_eq_true] at h
      have ht : toTokenCode (r! "i") t = _ := toTokenCode_eq t (.var (lit "i"))
      rw [filterInitFrom, ht, if_pos h.1, filterInitFrom_eq (i + 1) ns ts h.2]
      simp [filterExprs, topicFields, codes, fieldCodes, Expr.code, Method.code, commas, txt]

theorem outputKinds_eq (ps : List Param) :
    outputKinds ps = if (ps.all fun p => tupleFree p.kind) = true then .ok (outputCode (ps.map (·.kind))) else .panic := by
  rw [outputKinds, mapRes_if ps fun p _ => rustType_eq p.kind]
  by_cases h : (ps.all fun p => tupleFree p.kind) = true
  · rw [if_pos h, if_pos h]
    rcases ps with _ | ⟨a, _ | ⟨b, ps⟩⟩
    · rfl
    · rfl
    · simp [outputCode]; rfl
  · rw [if_neg h, if_neg h]; rfl

theorem outputImplementation_eq (ps : List Param) :
    outputImplementation ps = if (ps.all fun p => tupleFree p.kind && indexable p.kind) = true
      then .ok (decodeExpr (ps.map (·.kind))).code else .panic := by
  rcases ps with _ | ⟨a, _ | ⟨b, ps⟩⟩
  · rfl
  · have h : fromTokenCode (r! "out") a.kind = _ := fromTokenCode_eq a.kind (.var (lit "out"))
    rw [outputImplementation, h]
    by_cases ha : (tupleFree a.kind && indexable a.kind) = true
    · rw [if_pos ha, if_pos (by rw [List.all_cons, ha]; rfl)]
      simp [decodeExpr, outputIter, Expr.code, codes, commas, Method.code, Path.code, txt]
    · rw [if_neg ha, if_neg (by rw [List.all_cons, Bool.not_eq_true _ |>.mp ha]; exact Bool.false_ne_true)]; rfl
  · have h : ∀ p : Param, fromTokenCode (r! "out . next ( ) . expect ( INTERNAL_ERR )") p.kind =
        if (tupleFree p.kind && indexable p.kind) = true
          then .ok (fromExpr (.method (.next (.var (lit "out"))) .expect []) p.kind).code else .panic :=
      fun p => fromTokenCode_eq p.kind (.method (.next (.var (lit "out"))) .expect [])
    rw [outputImplementation, mapRes_if (a :: b :: ps) fun p _ => h p]
    · by_cases ha : ((a :: b :: ps).all fun p => tupleFree p.kind && indexable p.kind) = true
      · rw [if_pos ha, if_pos ha]
        have hc : codes ((a :: b :: ps).map fun p => fromExpr (.method (.next (.var (lit "out"))) .expect []) p.kind) =
            (a :: b :: ps).map fun p => (fromExpr (.method (.next (.var (lit "out"))) .expect []) p.kind).code := codes_map _ _
        have hd : decodeExpr ((a :: b :: ps).map (·.kind)) = .letIn true (lit "out") outputIter
          (.call .ok [.tuple ((a :: b :: ps).map fun p => fromExpr (.method (.next (.var (lit "out"))) .expect []) p.kind)]) := by
          simp [decodeExpr]
        rw [hd, Res.ok_bind, Expr.code, Expr.code, codes, Expr.code, hc]
        simp [outputIter, Expr.code, codes, commas, Method.code, Path.code, txt]
      · rw [if_neg ha, if_neg ha]; rfl
    · simp
    · simp

theorem functionExpr_eq (f : Function) (hi : (f.inputs.all fun p => tupleFree p.kind) = true)
    (ho : (f.outputs.all fun p => tupleFree p.kind) = true) : functionExpr f = .ok (declExpr f).code := by
  rw [functionExpr, toEthabiParamVec_eq, if_pos hi, toEthabiParamVec_eq, if_pos ho]
  cases hm : f.stateMutability <;>
    simp [declExpr, Expr.code, codes, commas, Method.code, StructName.code, Tail.code, fieldCodes, Const.code, mutabilityCode, txt, hm]

end Ethabi.Spec

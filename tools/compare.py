#!/usr/bin/env python3
"""Compare edited models with the model where the statements of claims leave one result.

usage: compare.py SRC DST MUTATIONS.json [ID ...]

Tests/Determined.lean shows for a number of claims: a function that satisfies the statement of the claim agrees with the model's.  This
tool evaluates these functions on the inputs below, in a scratch copy DST of SRC, without and with each edit.  Where the results
differ, the edited function does not satisfy the statement, unless the edit is in a definition which the hypotheses of the theorem in
Tests/Determined.lean use; tools/determined.txt lists these (made by `lake env lean ../tools/right_hand_sides.lean.txt`).  Prints a
JSON line per edit: the claims refuted, each with one input and the two results.
"""
import json, os, re, shutil, subprocess, sys
SRC, DST, BATCH = sys.argv[1:4]; ids = sys.argv[4:]
HERE = os.path.dirname(os.path.abspath(__file__))
MODULES = 'Verif.Model.Messages Verif.Model.JsonBytes Verif.Model.Files Verif.Model.Heck Verif.Model.DeriveEntry Verif.Model.Derive Verif.Spec.Abi'
INPUTS = r'''
IMPORTS
open Ethabi
def profs : List Profile := [.debug, .release]
def B (n : Nat) : Bytes := (List.range n).map fun i => UInt8.ofNat (i * 7 + 1)
def theHash (b : Bytes) : Word := ⟨(List.range 32).map fun i => UInt8.ofNat (i * 5 + b.length + (b.map UInt8.toNat).sum), by simp⟩
def one : Word := ⟨List.replicate 31 0 ++ [1], by simp⟩
def str (s : Str) : String := String.ofList s
partial def showP : ParamType → String
  | .address => "address" | .bytes => "bytes" | .bool => "bool" | .string => "string" | .int n => s!"int{n}" | .uint n => s!"uint{n}"
  | .fixedBytes n => s!"bytes{n}" | .array t => showP t ++ "[]" | .fixedArray t k => showP t ++ s!"[{k}]" | .tuple ts => "(" ++ ",".intercalate (ts.map showP) ++ ")"
partial def showT : Token → String
  | .address a => s!"A{a.1}" | .bytes b => s!"B{b}" | .fixedBytes b => s!"F{b}" | .bool b => s!"{b}" | .string s => s!"S{(str s).quote}" | .int n => s!"i{n.toNat}" | .uint n => s!"u{n.toNat}"
  | .array t => "a[" ++ ",".intercalate (t.map showT) ++ "]" | .fixedArray t => "f[" ++ ",".intercalate (t.map showT) ++ "]" | .tuple ts => "t(" ++ ",".intercalate (ts.map showT) ++ ")"
partial def showJ : Json → String
  | .null => "null" | .bool b => s!"{b}" | .num n => s!"{n}" | .str s => (str s).quote | .arr l => "[" ++ ",".intercalate (l.map showJ) ++ "]"
  | .obj l => "{" ++ ",".intercalate (l.map fun x => (str x.1).quote ++ ":" ++ showJ x.2) ++ "}"
def showO (o : Option Str) : String := match o with | none => "-" | some s => (str s).quote
def showParam (p : Param) : String := s!"{(str p.name).quote} {showP p.kind} {showO p.internalType}"
def showEParam (p : EventParam) : String := s!"{(str p.name).quote} {showP p.kind} {p.indexed}"
def showTParam (p : TupleParam) : String := s!"{showO p.name} {showP p.kind} {showO p.internalType}"
def showM : StateMutability → String | .pure => "pure" | .view => "view" | .nonPayable => "nonpayable" | .payable => "payable"
def showF (f : Function) : String := s!"function {(str f.name).quote} {f.inputs.map showParam} {f.outputs.map showParam} {f.constant} {showM f.stateMutability}"
def showE (e : Event) : String := s!"event {(str e.name).quote} {e.inputs.map showEParam} {e.anonymous}"
def showC (c : Constructor) : String := s!"constructor {c.inputs.map showParam}"
def showOp : Operation → String | .constructor c => showC c | .function f => showF f | .event e => showE e | .fallback => "fallback" | .receive => "receive"
def showCon (c : Contract) : String := s!"{c.constructor.map showC} {c.functions.map fun x => ((str x.1).quote, x.2.map showF)} {c.events.map fun x => ((str x.1).quote, x.2.map showE)} {c.receive} {c.fallback}"
def showErr (e : Err) : String := reprStr e
def okOnly {α} (f : α → String) : Res α → String | .ok a => "ok " ++ f a | .err _ => "-" | .panic => "-"
def okPanic {α} (f : α → String) : Res α → String | .ok a => "ok " ++ f a | .err _ => "-" | .panic => "panic"
def panicOnly {α} : Res α → String | .panic => "panic" | _ => "-"
def errOnly {α} : Res α → String | .err e => "err " ++ showErr e | _ => "-"
def whole {α} (f : α → String) : Res α → String | .ok a => "ok " ++ f a | .err e => "err " ++ showErr e | .panic => "panic"
def toldErr {α} : Told Reason α → String | .err r => "err " ++ reprStr r | _ => "-"
def obs (thm label value : String) : IO Unit := IO.println s!"OBS\t{thm}\t{label.quote}\t{(value.replace "\n" " ").quote}"
def L (l : List String) : List Str := l.map String.toList

/-! type texts -/
def pieces : List String := ["", "bool", "uint", "uint8", "int7x", "bytes", "bytes32", "bytesx", "string", "address", "tuple", "x", "[]", "[2]", "bool[]", "bool[3]", "bool[x]", "(", ")", ",", "(bool)", "(bool,uint256)", "((bool),string)", "bool)", "(bool", "]", "5]", "[", "uint+8", "int+", "int99999999999999999999", "bool[+1]", "bool[99999999999999999999]", "()", "(,)"]
def texts : List Str := L ((pieces.flatMap fun a => pieces.map fun b => a ++ b) ++ (pieces.flatMap fun a => pieces.flatMap fun b => [s!"({a},{b})", s!"({a},({b},bool))", s!"(({a}),{b})", s!"({a}){b}", s!"(bool,{a}){b}", s!"(({a},bool),({b}))"])
  ++ ["((bool,int8),(address,(string)),uint8)", "(bool)x,y(z(int8))", "(((bool)),((string)))", "(((bool),bool),((string),bool))", "((((bool))))", "(bool,(bool,(bool,(bool,bool))))", "(a(b)c)", "(bool,x(bool))", "((bool)x)", "(((bool)x))", "((bool),(x))", "(bool,(string)y,uint8)", "(bool,)x", "uint256[][3][x]", "uint256[x][3]", "uintx[y]", "(bool[x],y)", "(y,bool[x])", "(bool)[x]", "(bool)[2][]", "x[]", "[][]", "(bool[)", "(bool[])", "((bool)[2])", "((bool)[x])", "(bool,(uint8)[])", "((bool),uintx,y)"])
def low (s : Str) : Bool := s.all fun c => decide (c.toNat < 128)
#eval do for s in texts.filter low do
  obs "c92_determines" (str s) (okPanic showP (read s)); obs "c93_determines" (str s) (errOnly (read s)); if s.count '(' ≤ 1 ∧ s.count ')' ≤ 1 then obs "c76_determines" (str s) (okPanic showP (read s))

/-! values -/
def single : List ParamType := [.address, .bytes, .bool, .string, .uint 256, .int 256, .uint 8, .fixedBytes 32, .fixedBytes 2, .array .bool, .array (.uint 256), .array (.int 8), .array .string, .array (.array .bool), .fixedArray .bool 2, .fixedArray .bytes 1, .fixedArray (.uint 256) 0,
  .tuple [.bool, .uint 256], .tuple [], .tuple [.string, .string], .tuple [.tuple [.uint 256, .bool], .uint 256], .array (.tuple [.uint 256, .bool]), .tuple [.array .bool, .bool], .array .address, .fixedArray (.tuple [.bool]) 1]
def values : List Str := L (["", "0", "1", "-1", "-0", "+1", "007", "12a", "-", "a", "0x10", " 1", "1 ", "115792089237316195423570985008687907853269984665640564039457584007913129639935",
  "115792089237316195423570985008687907853269984665640564039457584007913129639936", "57896044618658097711785492504343953926634992332820282019728792003956564819967", "57896044618658097711785492504343953926634992332820282019728792003956564819968",
  "-57896044618658097711785492504343953926634992332820282019728792003956564819968", "-57896044618658097711785492504343953926634992332820282019728792003956564819969", "11111111111111111111111111111111111111111111111111111111111111111", "1111111111111111111111111111111111111111111111111111111111111111", "z111111111111111111111111111111111111111111111111111111111111111", "--1", "-a", "1-", "9a9", "1_0", "1e3",
  "99999999999999999999999999999999999999999999999999999999999999999999999999999999999", "99999999999999999999999999999999999999999999999999999999999999999999999999999999999a",
  "true", "false", "True", "[]", "[true,false]", "[true,false,true]", "[false]", "[1,2]", "[1,-2]", "[1,x]", "[x,-]", "[[1],[2]]", "[[true],[false]]", "[true", "true]", "[", "]", "[\"a\",\"b\"]", "a\"b", "\"a\"", "[a]", "[a,b]", "[,]", "[1,]", "[,1]", "[true,]", "[[true]", "[true]]", "[x]]", "[[]]", "[\"]\"]", "[\"a,b\"]", "[\"a]", "[ab]", "[abcd]", "abcd", "ABCD", "aBc1", "0xabcd", "0xab", "zz", "abc", "ab c", "azbd", "abcz", "a", "é", "[é]", "[é,é]", "(é,é)", "1é", "aé",
  "1111111111111111111111111111111111111111", "111111111111111111111111111111111111111111", "11111111111111111111111111111111111111", "111111111111111111111111111111111111111g", "g111111111111111111111111111111111111111", "111111111111111111111111111111111111111", "0x1111111111111111111111111111111111111111",
  "[1111111111111111111111111111111111111111,11111111111111111111111111111111111111]", "[(1,2)]", "(1,true)", "(true,1)", "(true,x)", "(x,1)", "(true)", "(true,1,2)", "(true,1", "true,1)", "()", "(", ")", "(,)", "(true,)", "(\"a\",\"b\")", "(a,b)", "(true,\"a,b\")", "((1,true),2)", "((1,x),2)", "((1,true),x)", "[(1,true),(2,false)]", "[(1,true),(2,x)]", "([true],false)", "([true,false],false)", "([true],x)", "([x],true)", "[(true)]", "[(true),(false)]",
  "ABCDEFABCDEFABCDEFABCDEFABCDEFABCDEFABCDEFABCDEFABCDEFABCDEFABCD", "abababababababababababababababababababababababababababababababababab", "ababababababababababababababababababababababababababababababababa", "0xabababababababababababababababababababababababababababababababab", "[a\"b]", "[\"\"]", "(((", "(()", "[()]", "[((1,true))]", "{1}", "[1}", "[1 ,2]", "[1,2] "])
#eval do for m in [Tokenizer.strict, .lenient] do for t in single do for s in values do
  let l := s!"{reprStr m} {showP t} {str s}"
  obs "c81_determines" l (okPanic showT (tokenize m t s)); obs "c93_determines_tokenizers" l (errOnly (tokenize m t s)); obs "c118_determines_tokenizers" l (toldErr (tokenizeTold m t s))

def W (n : Nat) : Bytes := (List.range 32).reverse.map fun i => UInt8.ofNat (n / 256 ^ i)
/-! decoding -/
def dtypes : List (List ParamType) := [[], [.tuple []], [.uint 8], [.uint 256], [.int 8], [.bool], [.address], [.bytes], [.string], [.fixedBytes 3, .bool], [.fixedBytes 32], [.fixedBytes 0], [.fixedArray .string 1], [.fixedArray (.uint 8) 2, .bytes], [.array .bool], [.array .string], [.array (.array .bool)], [.tuple [.bool, .string]], [.tuple [.bool, .uint 8]], [.array (.tuple [.string, .bool])], [.bool, .bytes], [.fixedArray .bool 0], [.uint 256, .string], [.tuple [.tuple [.string]]], [.fixedArray (.tuple [.bytes]) 2], [.tuple [.array .bool, .bool], .uint 8]]
def dwords : List Bytes := [W 0, W 1, W 2, W 32, W 64, W 96, W 33, W 40, W (2 ^ 32), W (2 ^ 32 - 1), W (2 ^ 255 + 32), W (2 ^ 160), W (2 ^ 248 * 65 + 2 ^ 240 * 200)]
def datas : List Bytes := [[], [1], B 31, B 33] ++ dwords ++ (dwords.flatMap fun a => dwords.map fun b => a ++ b) ++ ([W 0, W 1, W 2, W 32, W 64, W 96].flatMap fun a => [W 32, W 64, W 1, W 0].flatMap fun b => [W 1, W 32, W 3].flatMap fun c => [[], [65], W 1, W 64 ++ W 1, W 1 ++ [66, 200], W 1 ++ W 1 ++ W 2, W 2 ++ [0xE2, 0x82], W 5 ++ [0xF0, 0x9F, 0x98, 0x80, 65] ++ B 27].map fun d => a ++ b ++ c ++ d)
#eval do for p in [Profile.debug] do for t in dtypes do for (d, i) in datas.zipIdx do
  obs "c74_determines" s!"{reprStr p} {t.map showP} datas[{i}]" (whole (fun (l : List Token) => s!"{l.map showT}") (decode p t d))

/-! JSON trees -/
def S (s : String) : Json := .str s.toList
def O (l : List (String × Json)) : Json := .obj (l.map fun x => (x.1.toList, x.2))
def paramsJ : List Json := [O [("name", S "a"), ("type", S "bool")], O [("type", S "bool"), ("name", S "a")], O [("name", S "a")], O [("type", S "bool")], O [("name", S "a"), ("type", S "bool"), ("internalType", S "T")], O [("name", S "a"), ("type", S "bool"), ("internalType", .null)], O [("name", S "a"), ("type", S "bool"), ("internalType", .num 1)],
  O [("name", S "a"), ("name", S "b"), ("type", S "bool")], O [("name", S "a"), ("type", S "bool"), ("type", S "bool")], O [("name", S "a"), ("type", S "bool"), ("other", .null)], O [("name", .null), ("type", S "bool")], O [("name", .num 1), ("type", S "bool")], O [("name", S "a"), ("type", .num 1)], O [("name", S "a"), ("type", S "x")], O [("name", S "a"), ("type", S "")], O [("name", S "a"), ("type", S "]")], O [("name", S "a"), ("type", S ")")], O [("name", S "a"), ("type", S "(")], O [("name", S "a"), ("type", S "x"), ("type", S "]")], O [("name", .num 1), ("type", S "]")], O [("type", S "]"), ("name", .num 1)],
  O [("name", S "a"), ("type", S "tuple")], O [("name", S "a"), ("type", S "tuple"), ("components", .arr [])], O [("name", S "a"), ("type", S "tuple"), ("components", .arr [O [("name", S "m"), ("type", S "bool")]])], O [("name", S "a"), ("components", .arr [O [("type", S "uint8")], O [("type", S "string"), ("internalType", S "I")]]), ("type", S "tuple")], O [("name", S "a"), ("type", S "tuple[]"), ("components", .arr [O [("type", S "bool")]])], O [("name", S "a"), ("type", S "tuple[2][]"), ("components", .arr [O [("type", S "bool")], O [("type", S "tuple"), ("components", .arr [O [("type", S "bytes")]])]])],
  O [("name", S "a"), ("type", S "bool"), ("components", .arr [O [("type", S "bool")]])], O [("name", S "a"), ("type", S "bool"), ("components", .null)], O [("name", S "a"), ("type", S "tuple"), ("components", .null)], O [("name", S "a"), ("type", S "tuple"), ("components", .arr [O [("name", S "m")]])], O [("name", S "a"), ("type", S "tuple"), ("components", .arr [O [("type", S "]")]])], O [("name", S "a"), ("type", S "bool"), ("components", .arr [O [("type", S "]")]])], O [("name", S "a"), ("type", S "tuple"), ("components", .arr []), ("components", .arr [])], O [("name", S "a"), ("type", S "tuple"), ("components", .arr [O [("type", S "bool"), ("name", .null)]])], O [("name", S "a"), ("type", S "tuple"), ("components", .arr [O [("type", S "bool"), ("name", S "n"), ("internalType", .null), ("z", .bool true)]])],
  O [("name", S "a"), ("type", S "bool"), ("indexed", .bool true)], O [("name", S "a"), ("type", S "bool"), ("indexed", .bool false)], O [("name", S "a"), ("type", S "bool"), ("indexed", .null)], O [("name", S "a"), ("type", S "bool"), ("indexed", .num 0)], O [("name", S "a"), ("type", S "bool"), ("indexed", .bool true), ("indexed", .bool false)], O [("name", S "a"), ("type", S "tuple[]"), ("components", .arr [O [("type", S "bool")]]), ("indexed", .bool true)], O [("name", S "a"), ("type", S "bool"), ("indexed", .bool true), ("components", .arr [O [("type", S "bool")]])], O [("name", S "a"), ("type", S "bool"), ("indexed", .bool true), ("internalType", S "X"), ("internalType", S "Y")],
  O [], .null, .arr [], .arr [S "a", S "bool"], .arr [S "a", S "bool", .null], .arr [S "a", S "bool", .bool true], S "a", .num 3, .bool true, O [("name", S "a"), ("type", S "bool[3]")], O [("name", S "a"), ("type", S "tuplex"), ("components", .arr [O [("type", S "bool")]])], O [("name", S "a"), ("type", S "(tuple,bool)"), ("components", .arr [O [("type", S "bool")]])], O [("name", S "a"), ("type", S "tuple[x]"), ("components", .arr [O [("type", S "bool")]])], O [("name", S "a"), ("type", S "uint256[][2]")], O [("name", S "a"), ("type", .null)], O [("name", S "a"), ("type", S "tuple"), ("components", O [])], O [("name", S "a"), ("type", S "tuple"), ("components", .arr [.arr [S "bool"]])], O [("name", S "a"), ("type", S "tuple"), ("components", .arr [.null])],
  O [("name", S "a"), ("type", S "tuple"), ("indexed", .bool false), ("components", .arr [O [("name", S "m"), ("type", S "tuple[]"), ("components", .arr [O [("type", S "bool")], O [("type", S "int8[4]")]])], O [("type", S "string")]])]]
def obsParam (m : Mode) (j : Json) : IO Unit := do
  let l := (match m with | Mode.buffered => "buffered " | Mode.direct => "direct ") ++ showJ j
  obs "c77_determines_param" l (okOnly showParam (deParam m j)); obs "c90_determines_param" l (panicOnly (deParam m j))
  obs "c77_determines_event_param" l (okOnly showEParam (deEventParam m j)); obs "c90_determines_event_param" l (panicOnly (deEventParam m j))
  obs "c77_determines_tuple_param" l (okOnly showTParam (deTupleParam m j)); obs "c90_determines_tuple_param" l (panicOnly (deTupleParam m j))
#eval do for j in paramsJ do obsParam .buffered j; obsParam .direct j -- c77_determines c90_determines
def pj : List Json := [O [("name", S "a"), ("type", S "bool")], O [("name", S "b"), ("type", S "tuple"), ("components", .arr [O [("type", S "string")]])]]
def ej : List Json := [O [("name", S "a"), ("type", S "bool"), ("indexed", .bool true)], O [("name", S "b"), ("type", S "string"), ("indexed", .bool false)]]
def fields : List (List (String × Json)) := [[], [("name", S "f")], [("name", S "f"), ("inputs", .arr [])], [("name", S "f"), ("inputs", .arr pj), ("outputs", .arr [])], [("name", S "f(a)"), ("inputs", .arr pj), ("outputs", .arr pj)], [("name", S " f "), ("inputs", .arr []), ("outputs", .arr []), ("constant", .bool true)], [("name", S "f"), ("inputs", .arr []), ("outputs", .arr []), ("constant", .null)], [("name", S "f"), ("inputs", .arr []), ("outputs", .arr []), ("constant", .num 1)],
  [("name", S "f"), ("inputs", .arr []), ("outputs", .arr []), ("stateMutability", S "pure")], [("name", S "f"), ("inputs", .arr []), ("outputs", .arr []), ("stateMutability", S "view")], [("name", S "f"), ("inputs", .arr []), ("outputs", .arr []), ("stateMutability", S "nonpayable")], [("name", S "f"), ("inputs", .arr []), ("outputs", .arr []), ("stateMutability", S "payable")], [("name", S "f"), ("inputs", .arr []), ("outputs", .arr []), ("stateMutability", S "other")], [("name", S "f"), ("inputs", .arr []), ("outputs", .arr []), ("stateMutability", .null)], [("name", S "f"), ("inputs", .arr []), ("outputs", .arr []), ("stateMutability", O [("view", .null)])], [("name", S "f"), ("inputs", .arr []), ("outputs", .arr []), ("stateMutability", O [("view", .num 1)])], [("name", S "f"), ("inputs", .arr []), ("outputs", .arr []), ("stateMutability", O [])], [("name", S "f"), ("inputs", .arr []), ("outputs", .arr []), ("stateMutability", .num 1)], [("name", S "f"), ("inputs", .arr []), ("outputs", .arr []), ("stateMutability", S "view"), ("stateMutability", S "view")],
  [("name", S "f"), ("name", S "g"), ("inputs", .arr []), ("outputs", .arr [])], [("name", S "f"), ("inputs", .arr []), ("inputs", .arr []), ("outputs", .arr [])], [("name", S "f"), ("inputs", .arr []), ("outputs", .arr []), ("outputs", .arr [])], [("name", S "f"), ("inputs", .arr []), ("outputs", .arr []), ("z", .null), ("z", .null)], [("name", S "f"), ("inputs", .null), ("outputs", .arr [])], [("name", .null), ("inputs", .arr []), ("outputs", .arr [])], [("inputs", .arr [])], [("inputs", .arr pj)], [("inputs", .arr []), ("inputs", .arr [])], [("inputs", .null)], [("inputs", .arr [O [("name", S "a"), ("type", S "]")]])], [("name", S "f"), ("inputs", .arr [O [("name", S "a"), ("type", S "]")]]), ("outputs", .arr [])], [("name", S "f"), ("outputs", .arr [O [("name", S "a"), ("type", S "]")]]), ("inputs", .arr [])], [("name", .num 1), ("inputs", .arr [O [("name", S "a"), ("type", S "]")]]), ("outputs", .arr [])], [("inputs", .arr [O [("name", S "a"), ("type", S "]")]]), ("name", .num 1)], [("inputs", .arr [O [("name", S "a"), ("type", S "x")], O [("name", S "a"), ("type", S "]")]])], [("inputs", .arr [O [("name", S "a"), ("type", S "]")], O [("name", S "a"), ("type", S "x")]]), ("inputs", .arr [])],
  [("name", S "e"), ("inputs", .arr ej), ("anonymous", .bool false)], [("name", S "e(x)"), ("inputs", .arr ej), ("anonymous", .bool true)], [("name", S "e"), ("inputs", .arr ej)], [("name", S "e"), ("inputs", .arr ej), ("anonymous", .null)], [("name", S "e"), ("inputs", .arr ej), ("anonymous", .bool true), ("anonymous", .bool true)], [("name", S "e"), ("inputs", .arr pj), ("anonymous", .bool true)], [("name", S "e"), ("name", S "e"), ("inputs", .arr ej), ("anonymous", .bool true)], [("name", S "e"), ("inputs", .arr [O [("name", S "a"), ("type", S ")"), ("indexed", .bool true)]]), ("anonymous", .bool true)], [("name", S "e"), ("inputs", .arr [O [("name", S "a"), ("indexed", .bool true), ("type", S "bool"), ("components", .arr [O [("type", S "]")]])]]), ("anonymous", .num 2)], [("type", S "function")], [("name", S "f"), ("inputs", .arr []), ("outputs", .arr []), ("type", S "event")]]
def ops : List Json := (["function", "event", "constructor", "fallback", "receive", "other"].flatMap fun t => fields.flatMap fun f => [O (("type", S t) :: f), O (f ++ [("type", S t)])])
  ++ (fields.map O) ++ [.null, .arr [], .arr [S "function"], .arr [S "function", S "f", .arr [], .arr []], .arr [S "function", S "f", .arr [], .arr [], .bool true], .arr [S "function", S "f", .arr [], .arr [], .bool true, S "view"], .arr [S "function", S "f", .arr [], .arr [], .bool true, S "view", .null], .arr [S "event", S "e", .arr ej, .bool true], .arr [S "event", S "e", .arr ej], .arr [S "event", S "e", .arr ej, .bool true, .null], .arr [S "constructor", .arr pj], .arr [S "constructor"], .arr [S "constructor", .arr [], .null], .arr [S "constructor", .arr [O [("name", S "a"), ("type", S "]")]]], .arr [S "fallback"], .arr [S "receive"], .arr [S "receive", .null], .arr [.num 0], S "receive", .num 0, O [("type", .num 0)], O [("type", .null)]]
#eval do for j in ops do
  obs "c77_determines_operation" (showJ j) (okOnly showOp (deOperation j)); obs "c90_determines_operation" (showJ j) (panicOnly (deOperation j))
def fnJ (n : String) (t : String) : Json := O [("type", S "function"), ("name", S n), ("inputs", .arr [O [("name", S "a"), ("type", S t)]]), ("outputs", .arr [O [("name", S "r"), ("type", S t)]])]
def evJ (n : String) (t : String) (i a : Bool) : Json := O [("type", S "event"), ("name", S n), ("inputs", .arr [O [("name", S "a"), ("type", S t), ("indexed", .bool i)], O [("name", S "b"), ("type", S "uint8"), ("indexed", .bool false)]]), ("anonymous", .bool a)]
def contracts : List Json := [.null, O [], .arr [], S "", .arr [fnJ "f" "bool"], .arr [fnJ "f" "bool", fnJ "f" "uint8", fnJ "g" "string", evJ "e" "bool" true false, evJ "h" "string" false true], .arr [evJ "e" "bool" true false, evJ "e" "string" true false], .arr [fnJ "f" "x", fnJ "g" "]"], .arr [fnJ "g" "]", fnJ "f" "x"], .arr [fnJ "f" "bool", fnJ "g" "]"], .arr [fnJ "f" "bool", .null], .arr [.null, fnJ "g" ")"], .arr [O [("type", S "receive")], O [("type", S "fallback")], O [("type", S "constructor"), ("inputs", .arr [])]], .arr [O [("type", S "constructor"), ("inputs", .arr [])], O [("type", S "constructor"), ("inputs", .arr pj)]], O [("0", fnJ "f" "bool")], .arr [fnJ "_f" "bool[]"], .arr [fnJ "f" "(bool)"], .arr [fnJ "1" "bool"], .arr [fnJ "f" "bytes32", evJ "E" "int8" false false]]
#eval do for j in contracts do
  obs "c77_determines_contract" (showJ j) (okOnly (fun _ => "") (deContract j)); obs "c90_determines_contract" (showJ j) (panicOnly (deContract j))

/-! names -/
def names : List Str := L (["", "_", "__", "$", "a", "A", "aB", "AB", "ABc", "aBC", "aBCd", "a_b", "a__b", "_a", "a_", "_A_", "a1", "1a", "a1B", "A1b", "a_1", "ABC_DEF", "abcDEFghi", "XMLHttpRequest", "getX1Y2", "a$b", "$a", "a$", "A$B", "a_B", "A_b", "ab12CD", "AbC", "aaBBcc", "_aB_cD_", "ABCdEF", "a1b2", "A1B2", "z9Z", "Zz9"])
#eval do for s in names do obs "c96_determines" (str s) s!"{str (Heck.snake s)} {str (Heck.camel s)}"

/-! JSON texts and bytes -/
def atoms : List String := ["null", "nul", "true", "false", "tru", "True", "0", "-0", "1", "-1", "01", "-", "+1", "1.", "1.5", ".5", "1e5", "1E5", "1e+5", "1e-5", "1e", "1e+", "1.5e3", "1.e3", "-01", "12", "1a", "\"\"", "\"a\"", "\"", "\"a", "\"\\n\"", "\"\\t\"", "\"\\r\"", "\"\\b\"", "\"\\f\"", "\"\\/\"", "\"\\\\\"", "\"\\\"\"", "\"\\x\"", "\"\\u0041\"", "\"\\u00e9\"", "\"\\u00E9\"", "\"\\u004\"", "\"\\u004g\"", "\"\\ud83d\\ude00\"", "\"\\ud83d\"", "\"\\ud83dx\"", "\"\\ud83d\\n\"", "\"\\ud83d\\u0041\"", "\"\\ude00\"", "\"\\ude00\\ud83d\"", "\"\\ud800\\udc00\"", "\"\\udbff\\udfff\"", "\"\\uFFFF\"", "\"\\u0000\"", "\"\\U0041\"", "\"\\", "\"\\\"", "\"a\nb\"", "\"a\tb\"", "\"\x1f\"", "\"\x7f\"", "\"é\"", "\"\\é\"", "'a'", "[]", "[1]", "[1,2]", "[1,]", "[,1]", "[,]", "[1 2]", "[", "]", "[1", "[1,", "[]]", "[[]]", "[[],[]]", "[ ]", "[ 1 , 2 ]", "{}", "{ }", "{\"a\":1}", "{\"a\" : 1 }", "{\"a\":1,\"b\":2}", "{\"a\":1,}", "{,}", "{\"a\"}", "{\"a\":}", "{a:1}", "{1:1}", "{\"a\":1 \"b\":2}", "{\"a\":1,\"a\":2}", "{", "}", "{\"a\":[{}]}", "", " ", "[1}", "{\"a\":1]", "nullx", "[null,true,false]", "[truefalse]", "99999999999999999999", "-9223372036854775808", "18446744073709551616", "[1.5]", "[\"\\u0041b\",{\"k\":[0]}]", "{\"\\u0061\":1}", "[tru]", "[1,true,]", "[0.]", "[1e]", "{\"a\":tru}", "[\"\n\"]"]
def nestA (n : Nat) : String := String.ofList (List.replicate n '[') ++ String.ofList (List.replicate n ']')
def nestO (n : Nat) : String := String.join (List.replicate n "{\"a\":") ++ "1" ++ String.ofList (List.replicate n '}')
def jsonTexts : List Str := L (atoms ++ atoms.map (" " ++ ·) ++ atoms.map (· ++ "\n") ++ atoms.map ("\t\r" ++ · ++ " x") ++ atoms.map (· ++ ",") ++ atoms.map ("[" ++ · ++ "]") ++ atoms.map ("{\"k\":" ++ · ++ "}") ++ atoms.map ("[0," ++ · ++ ", 1]") ++ atoms.map (fun a => "\x0b" ++ a) ++ atoms.map (fun a => "\xa0" ++ a) ++ [nestA 126, nestA 127, nestA 128, nestA 129, nestO 126, nestO 127, nestO 128, "[" ++ nestO 126 ++ "]", "[" ++ nestO 127 ++ "]", "{\"a\":" ++ nestA 127 ++ "}"])
def fits (s : Str) : Bool := s.length < 30
#eval do for s in jsonTexts do obs "c99_determines" (str s) (match JsonText.parse fits s with | some j => showJ j | none => "-")
def opTexts : List String := ["{\"type\":\"function\",\"name\":\"f\",\"inputs\":[],\"outputs\":[]}", "{\"type\":\"receive\"}", "{\"type\":\"event\",\"name\":\"e\",\"inputs\":[],\"anonymous\":false}", "{\"type\":\"constructor\",\"inputs\":[{\"name\":\"a\",\"type\":\"]\"}]}", "{\"type\":\"constructor\",\"inputs\":[{\"name\":\"a\",\"type\":\")\"}]", "1", "null", "\"x", "{\"type\":\"fun", "{\"type\":\"x\"}", "{\"type\":\"function\",\"name\":\"\\ud83d\\ude00\",\"inputs\":[],\"outputs\":[]}", "{\"type\":\"function\",\"name\":\"é\",\"inputs\":[],\"outputs\":[],\"constant\":true}", " {\"type\":\"fallback\"} ", "{\"type\":\"fallback\",\"é\":1e400}"]
def abiTexts : List Str := L (["", " ", "[", "]", "[]", " [ ] ", "[]x", "[] ]", "null", "{}", "x[]", "[,]", "\n[]\n", "\xa0[]", "[]\x0b"] ++ (opTexts.flatMap fun a => [s!"[{a}]", s!"[{a}", s!"[{a},", s!"[{a},]", s!"{a}", s!"[{a}]]", s!"[{a}] x", s!" [{a} ]\t", s!"[,{a}]", s!"\{{a}}"]) ++ (opTexts.flatMap fun a => opTexts.flatMap fun b => [s!"[{a},{b}]", s!"[{a} {b}]", s!"[{a} , {b} , ", s!"[{a},{b}]]"]) ++ ["[" ++ nestA 126 ++ "]", "[" ++ nestA 127 ++ "]", "[" ++ nestA 128 ++ "]", "[{\"type\":\"receive\",\"z\":" ++ nestA 125 ++ "}]", "[{\"type\":\"receive\",\"z\":" ++ nestA 126 ++ "}]", "[{\"type\":\"receive\",\"z\":" ++ nestA 127 ++ "}]"])
#eval do for s in abiTexts do obs "c99_determines_load" (str s) (okPanic showCon (JsonText.load fits s))
def enc (s : Str) : Bytes := s.flatMap String.utf8EncodeChar
def bad : List Bytes := [[0xFF], [0xC3], [0xE2, 0x82], [0xED, 0xA0, 0x80], [0xC0, 0x80], [0xF5], [0x80], [0xC3, 0xA9]]
def abiBytes : List Bytes := abiTexts.map enc ++ (bad.flatMap fun b => ["", "]", "1]", ",1]", "[]", "\"]"].flatMap fun t => ["[", "", "[1", "[\"", "[{\"type\":\"receive\"}", "[{\"type\":\"receive\",\"", "[{\"type\":\"constructor\",\"inputs\":[{\"name\":\"a\",\"type\":\"]\"}]}", "[{\"type\":\"constructor\",\"inputs\":[{\"name\":\"a\",\"type\":\"]\"}]},"].map fun s => enc s.toList ++ b ++ enc t.toList)
  ++ bad.flatMap fun b => ["\":1}]", "\"}]", "}]", "\",\"inputs\":[],\"outputs\":[]}]"].flatMap fun t => ["[{\"type\":\"receive\",\"", "[{\"type\":\"", "[{\"type\":\"receive", "[{\"type\":\"function\",\"name\":\""].map fun s => enc s.toList ++ b ++ enc t.toList
#eval do for (b, i) in abiBytes.zipIdx do obs "c105_determines" s!"abiBytes[{i}]" (okPanic showCon (JsonBytes.load fits b))

/-! the macro -/
def mp (l : Bool) (s : List String) : MetaPath := ⟨l, s.map String.toList⟩
def opt (k v : String) : NestedMeta := .item (.nameValue (mp false [k]) (.str v.toList))
def at' (p : MetaPath) (l : List NestedMeta) : Attribute := ⟨some (.list p l)⟩
def ab : MetaPath := mp false ["ethabi_contract_options"]
def attrss : List (List Attribute) := [[], [at' ab [opt "path" "a.json"]], [at' ab [opt "path" "/a.json"]], [at' ab [opt "path" "x/../a.json"]], [at' ab [opt "path" "../m/a.json"]], [at' ab [opt "path" "./a.json"]], [at' ab [opt "path" "missing"]], [at' ab [opt "path" "bad"]], [at' ab [opt "path" "crash"]], [at' ab [opt "path" ""]], [at' ab []], [⟨none⟩, at' ab [opt "path" "a.json"]], [⟨some (.path ab)⟩, at' ab [opt "path" "a.json"]], [⟨some (.path ab)⟩], [⟨some (.nameValue ab (.str (lit "a.json")))⟩], [⟨some (.nameValue (mp false ["doc"]) (.str (lit "x")))⟩, at' ab [opt "path" "a.json"]], [at' (mp true ["ethabi_contract_options"]) [opt "path" "a.json"]], [at' (mp false ["x", "ethabi_contract_options"]) [opt "path" "a.json"]], [at' (mp false ["ethabi_function_options"]) [opt "path" "a.json"]], [at' ab [opt "name" "n", opt "path" "a.json"]], [at' ab [opt "path" "a.json", opt "path" "b.json"]], [at' ab [opt "path" "b.json", opt "path" "a.json"]], [at' ab [opt "path" "a.json"], at' ab [opt "path" "b.json"]], [at' ab [], at' ab [opt "path" "a.json"]], [at' ab [.lit (.str (lit "a.json"))]], [at' ab [.lit .other, opt "path" "a.json"]], [at' ab [.item (.nameValue (mp false ["path"]) .other)]], [at' ab [.item (.path (mp false ["path"])), opt "path" "a.json"]], [at' ab [.item (.list (mp false ["path"]) [])]], [at' ab [.item (.nameValue (mp true ["path"]) (.str (lit "a.json")))]], [at' ab [.item (.nameValue (mp false ["p", "path"]) (.str (lit "a.json")))]], [at' ab [opt "Path" "a.json"]], [at' ab [opt "path" "c.json"]], [at' ab [opt "path" "d.json"]], [at' ab [opt "path" "sub/./e.json"]], [at' ab [opt "path" "//a.json"]], [at' ab [opt "path" "../../a.json"]], [at' ab [opt "path" "sub//e.json"]], [at' ab [opt "path" "sub/e.json/"]], [at' ab [opt "path" "../a.json"]]]
def aJson : Json := .arr [fnJ "f" "bool"]
def files (s : Str) : Option (Option Json) := match str s with
  | "/m/a.json" => some (some aJson) | "/a.json" => some (some (.arr [fnJ "root" "string"])) | "/m/b.json" => some (some (.arr [evJ "E" "int8" true false])) | "/m/c.json" => some (some (.arr [fnJ "f" "(bool)"])) | "/m/d.json" => some (some (.arr [fnJ "_" "bool"]))
  | "/m/sub/e.json" => some (some (.arr [])) | "m/a.json" => some (some (.arr [fnJ "rel" "bool"])) | "/m/bad" => some none | "/m/crash" => some (some (.arr [fnJ "f" "]"])) | "/m/" => some (some (.arr [fnJ "dir" "bool"])) | "/m" => some (some (.arr [fnJ "dir2" "bool"])) | "a.json" => some (some (.arr [fnJ "here" "bool"])) | "../a.json" => some (some (.arr [fnJ "up" "bool"])) | "" => some (some (.arr [fnJ "none" "bool"])) | "/m/./a.json" => some (some (.arr [fnJ "dot" "bool"])) | "/m/x/../a.json" => some (some (.arr [fnJ "dots" "bool"])) | _ => none
def tok : Tok → String | .word s => str s | .str s => (str s).quote | .num n => s!"{n}usize" | _ => "?"
def showCode (c : Code) : String := " ".intercalate (c.map tok)
def nm : Naming := ⟨fun s => s, fun s => s.map Char.toUpper, fun s => s ≠ [] && s ≠ ['_'] && s.all fun c => c.isAlphanum || c = '_'⟩
def dirs : List (Option Str) := [none, some (lit "/m"), some (lit "/m/"), some (lit "m"), some (lit ""), some (lit "/m/."), some (lit "/m/sub/.."), some (lit "/"), some (lit "..")]
#eval do for d in dirs do for (a, i) in attrss.zipIdx do
  obs "c84_determines" s!"{showO d} attrss[{i}]" (okOnly showCode (ethabiDerive nm ⟨d, files⟩ a))
#eval do for d in dirs do for r in ["a.json", "/a.json", "../a.json", "x/../a.json", "b.json", "missing", "bad", "crash", "c.json", "sub/./e.json", ""] do for n in ["n", "", "test"] do
  obs "c84_determines_use" s!"{showO d} {n} {r}" (okOnly showCode (useContract nm ⟨d, files⟩ n.toList r.toList))

/-! the tool -/
def abiFiles (s : Str) : Option (Option Json) := match str s with
  | "a" => some (some (.arr [fnJ "f" "bool", fnJ "f" "uint8", fnJ "g" "string", evJ "e" "bool" true false, evJ "e" "string" true false, evJ "h" "string" false true, evJ "k" "uint256" true false, fnJ "n" "uint8[2]", O [("type", S "function"), ("name", S "two"), ("inputs", .arr [O [("name", S "a"), ("type", S "uint8")], O [("name", S "b"), ("type", S "string")]]), ("outputs", .arr [O [("name", S "a"), ("type", S "string")], O [("name", S "b"), ("type", S "uint8")]])], O [("type", S "function"), ("name", S "no"), ("inputs", .arr []), ("outputs", .arr [])],
      O [("type", S "event"), ("name", S "dup"), ("inputs", .arr [O [("name", S "a"), ("type", S "bool"), ("indexed", .bool false)], O [("name", S "a"), ("type", S "uint8"), ("indexed", .bool true)]]), ("anonymous", .bool true)]]))
  | "empty" => some (some (.arr [])) | "bad" => some none | "crash" => some (some (.arr [fnJ "f" "]"])) | "x" => some (some (.arr [fnJ "f" "x"])) | _ => none
def hashFn (s : Str) : Res Word := if s = lit "one" then .ok one else if s = lit "k" then .ok (theHash (enc (lit "k(uint256,uint8)"))) else if s = lit "e" then .ok (theHash (enc (lit "e(bool,uint8)"))) else if s.length % 2 = 0 then .err .hex else .err .other
def hx (b : Bytes) : String := String.join (b.map fun x => let d := Nat.toDigits 16 x.toNat; String.ofList (if d.length < 2 then '0' :: d else d))
def pths : List String := ["a", "empty", "bad", "crash", "x", "missing"]
def fns : List String := ["f", "g", "f(bool)", "f(uint8)", "f( uint8 )", "f(string)", "no", "n", "n(uint8[2])", "two", "two(uint8,string)", "two(uint8, string)", "", "(", "q", "no()", "f(bool):(bool)", "g(string):(string)"]
def evs : List String := ["e", "h", "k", "dup", "q", "e(bool,uint8)", "h(string,uint8)", "k(uint256, uint8)", "", "f", "e(", "k()", "dup(bool,uint8)"]
def vss : List (List String) := [[], ["true"], ["1"], ["x"], ["[1,2]"], ["[1,x]"], ["1", "a"], ["x", "a"], ["1", "a", "b"], ["true", "x"], ["0000000000000000000000000000000000000000000000000000000000000001"], ["0000000000000000000000000000000000000000000000000000000000000001", "abc"], ["[0000000000000000000000000000000000000000000000000000000000000001,0000000000000000000000000000000000000000000000000000000000000002]"]]
def hexes : List String := ["", "0", "00", "zz", "0g", "0x00", "0x", hx (W 1), "0x" ++ hx (W 1), hx (W 2), hx (W 1 ++ W 2), hx (W 32 ++ W 1 ++ (65 :: B 31)), hx (W 64 ++ W 9 ++ W 2 ++ [65, 66] ++ B 30), hx (W (2 ^ 32)), hx (W 32 ++ W 5 ++ (0xC3 :: B 31)), (hx (W 171)).map Char.toUpper, "é"]
def typess : List (List String) := [[], ["bool"], ["uint8"], ["string"], ["bool", "uint8"], ["string", "uint8"], ["x"], ["bool", "x"], ["x", "]"], ["]"], ["bool", "]"], ["uintx"], ["bool[2]"], ["(bool,uint8)"], ["bytes"], ["address"], ["(bool"], ["bool[]"]]
def cmds : List (Command × String × String) :=
  (pths.flatMap fun p => fns.flatMap fun n => vss.flatMap fun v => [true, false].map fun l => (.encodeFunction p.toList n.toList (L v) l, "encode_function", s!"encode function {p} {n} {v} {l}")) ++
  (pths.flatMap fun p => fns.flatMap fun n => hexes.map fun h => (.decodeFunction p.toList n.toList h.toList, "decode_function", s!"decode function {p} {n} {h}")) ++
  (typess.flatMap fun t => hexes.map fun h => (.decodeParams (L t) h.toList, "decode_params", s!"decode params {t} {h}")) ++
  (typess.flatMap fun t => vss.flatMap fun v => [true, false].map fun l => let a := (t.zip v).flatMap (fun x => [x.1, x.2]); (.encodeParams (L a) l, "encode_params", s!"encode params {a} {l}")) ++
  (["bool", "x", "]"].flatMap fun a => [(.encodeParams [a.toList] true, "encode_params", s!"encode params {a}"), (.encodeParams (L [a, "true", "bool"]) true, "encode_params", s!"encode params {a} true bool")]) ++
  (pths.flatMap fun p => evs.flatMap fun n => [[], ["one"], ["k"], ["k", "one"], ["e", "one"], ["one", "k"], ["x", "one"], ["xx"], ["one", "xx", "x"]].flatMap fun (t : List String) => ["", "0", "zz", hx (W 1), hx (W 1 ++ W 2), hx (W 64 ++ W 9 ++ W 2 ++ [65, 66] ++ B 30), "0x" ++ hx (W 1)].map fun h => (.decodeLog p.toList n.toList (L t) h.toList, "decode_log", s!"decode log {p} {n} {t} {h}"))
#eval do for p in [Profile.debug] do for (c, k, l) in cmds do
  obs s!"c85_determines_{k}" s!"{reprStr p} {l}" (okOnly str (execute theHash hashFn p abiFiles c))
  obs s!"c118_determines_{k}" s!"{reprStr p} {l}" (toldErr (executeTold theHash hashFn p abiFiles c))
def textOf (s : Str) : Option Str := match str s with
  | "a" => some (showJ (match abiFiles (lit "a") with | some (some j) => j | _ => .null)).toList | "empty" => some (lit " [ ]\n") | "bad" => some (lit "[x") | "crash" => some (showJ (.arr [fnJ "f" "]"])).toList | "early" => some ((showJ (.arr [fnJ "f" "]"])).toList.dropLast ++ lit ",x") | "x" => some (showJ (.arr [fnJ "f" "x"])).toList | "trail" => some (lit "[] x") | _ => none
def bytesOf (s : Str) : Option Bytes := match str s with
  | "utf8" => some (enc (showJ (.arr [fnJ "f" "bool"])).toList ++ [0xFF]) | "earlyb" => some (enc ((showJ (.arr [fnJ "f" "]"])).toList.dropLast) ++ [44, 0xFF]) | "inside" => some (enc (lit "[{\"type\":\"receive\",\"") ++ [0xC3] ++ enc (lit "\":1}]")) | "name" => some (enc (lit "[{\"type\":\"function\",\"name\":\"") ++ [0xC3, 0xA9] ++ enc (lit "\",\"inputs\":[],\"outputs\":[]}]")) | "bom" => some ([0xEF, 0xBB, 0xBF] ++ enc (lit "[]")) | _ => (textOf s).map enc
def cmds2 : List (Command × String) := (["a", "empty", "bad", "crash", "early", "x", "trail", "missing", "utf8", "earlyb", "inside", "name", "bom"].flatMap fun p => ["f(bool)", "g", "no", "q", "é"].flatMap fun n => [(.encodeFunction p.toList n.toList (L ["true"]) true, s!"encode function {p} {n}"), (.encodeFunction p.toList n.toList [] false, s!"encode function {p} {n} -"), (.decodeFunction p.toList n.toList (hx (W 1)).toList, s!"decode function {p} {n}"), (.decodeLog p.toList (lit "k") (L ["k", "one"]) (hx (W 1)).toList, s!"decode log {p}")]) ++ [(.decodeParams (L ["bool"]) (hx (W 1)).toList, "decode params"), (.encodeParams (L ["bool", "true"]) true, "encode params")]
#eval do for p in profs do for (c, l) in cmds2 do
  obs "c102_determines" s!"{reprStr p} {l}" (whole str (executeText theHash hashFn p fits textOf c)); obs "c105_determines_execute" s!"{reprStr p} {l}" (whole str (executeBytes theHash hashFn p fits bytesOf c))
def dText (s : Str) : Option Str := if s.take 3 = lit "/m/" then textOf (s.drop 3) else none
def dBytes (s : Str) : Option Bytes := if s.take 3 = lit "/m/" then bytesOf (s.drop 3) else none
#eval do for d in dirs do for f in ["a", "empty", "bad", "crash", "early", "x", "trail", "missing", "utf8", "earlyb", "inside", "name", "bom", "../m/empty"] do
  obs "c102_determines_derive" s!"{showO d} {f}" (whole showCode (ethabiDeriveText nm fits d dText [at' ab [opt "path" f]])); obs "c105_determines_derive" s!"{showO d} {f}" (whole showCode (ethabiDeriveBytes nm fits d dBytes [at' ab [opt "path" f]]))

/-! getters and the generated `parse_log` -/
def gts : List Token := [.address ⟨List.replicate 20 1, by simp⟩, .bytes (B 2), .fixedBytes (B 2), .bool true, .bool false, .string (lit "s"), .int 5, .uint 5, .array [.bool true], .fixedArray [.bool true], .tuple [.bool true], .array [], .fixedArray [], .tuple []]
def obsToken (t : Token) : IO Unit := obs "c119_determines" (showT t) s!"{t.intoAddress.map (·.1)} {t.intoFixedBytes} {t.intoBytes} {t.intoInt.map (·.toNat)} {t.intoUint.map (·.toNat)} {t.intoBool} {t.intoString.map str} {t.intoFixedArray.map (·.map showT)} {t.intoArray.map (·.map showT)}"
#eval do for t in gts do obsToken t -- c119_determines
def gevs : List Event := [⟨lit "E", [], false⟩, ⟨lit "E", [⟨lit "a", .bool, true⟩, ⟨lit "b", .string, false⟩], false⟩, ⟨lit "E", [⟨lit "a", .bool, true⟩, ⟨lit "b", .string, false⟩], true⟩, ⟨lit "E", [⟨lit "a", .string, true⟩, ⟨lit "b", .uint 256, true⟩], true⟩, ⟨lit "E", [⟨lit "b", .uint 8, false⟩, ⟨lit "b", .bool, false⟩], true⟩, ⟨lit "e", [⟨lit "b", .uint 8, true⟩], false⟩, ⟨lit "E", [⟨lit "b", .fixedBytes 4, true⟩, ⟨lit "c", .array .bool, false⟩, ⟨lit "d", .address, false⟩], true⟩, ⟨lit "E", [⟨lit "c", .bytes, false⟩, ⟨lit "d", .int 8, false⟩], true⟩]
def obsLog (p : Profile) (e : Event) (i : Nat) : IO Unit := do
  let e' : Event := { e with name := e.name.map Char.toUpper }
  let sig : Word := theHash (enc (str e'.name ++ "(" ++ ",".intercalate (e.inputs.map fun p => showP p.kind) ++ ")").toList)
  for (ts, k) in [[], [one], [sig], [sig, one], [one, one], [sig, one, one], [one, sig]].zipIdx do for (d, q) in [[], W 1, W 32 ++ W 2 ++ [65, 66] ++ B 30, W 1 ++ W 2, W 64 ++ W 7 ++ W 1 ++ W 1, W 5 ++ W 1 ++ W 0].zipIdx do
    obs "c54_determines" s!"{reprStr p} gevs[{i}] {k} {q}" (match genParseLog (·.map Char.toUpper) theHash p e ⟨ts, d⟩ with | .ok a => s!"ok {(toTokens _ a).map showT}" | .err x => "err " ++ showErr x | .panic => "-")
#eval do for (e, i) in gevs.zipIdx do obsLog .debug e i; obsLog .release e i -- c54_determines
#eval IO.println "DONE"
'''
RHS = {}
for l in open(os.path.join(HERE, 'determined.txt')):
    w = l.split(); RHS[w[0]] = set(w[1:])
def run(cmd):
    try:
        r = subprocess.run(cmd, cwd=DST, shell=True, capture_output=True, text=True, timeout=900)
        return r.stdout + r.stderr
    except subprocess.TimeoutExpired: return 'TIMEOUT'
def inputs(claim):
    """the input file with the evaluations that concern the claim, or all"""
    blocks = re.split(r'^(?=#eval|def |partial def |/-!|open |import )', INPUTS.replace('IMPORTS', '\n'.join('import ' + x for x in MODULES.split())), flags=re.M)
    return ''.join(b for b in blocks if not b.startswith('#eval') or claim is None or 'DONE' in b or re.search(r'c%s_determines' % claim[1:], b))
def evaluate(m, claim=None):
    """results by theorem and input, and the edited definitions"""
    for ed in m.get('edits', [m] if 'old' in m else []):
        p = os.path.join(SRC, 'Verif', ed['file']); subprocess.run(['cp', p, os.path.join(DST, 'Verif', ed['file'])], check=True)
    names = set()
    for ed in m.get('edits', [m] if 'old' in m else []):
        p = os.path.join(DST, 'Verif', ed['file']); t = open(p).read()
        if t.count(ed['old']) != 1: return 'edit does not apply', None, None
        before = t[:t.index(ed['old']) + len(ed['old'])]
        start = t[:t.index(ed['old'])]
        heads = list(re.finditer(r'^(?:private )?(?:def|abbrev|structure|inductive|instance|theorem) +([\w.\']+)', before, re.M))
        inside = [h.group(1) for h in heads if h.start() >= len(start)] + ([h.group(1) for h in heads if h.start() < len(start)] or ['?'])[-1:]
        space = []
        for h in re.finditer(r'^(namespace|end) +([\w.]+)', before, re.M):
            if h.group(1) == 'namespace': space.append(h.group(2))
            elif space and space[-1] == h.group(2): space.pop()
        names |= {'.'.join(space + [n]) for n in inside}
        open(p, 'w').write(t.replace(ed['old'], ed['new']))
    out = run('lake build ' + MODULES + ' 2>&1')
    if 'Build completed successfully' not in out: return 'does not build', out[-300:], names
    open(os.path.join(DST, 'Cmp.lean'), 'w').write(inputs(claim))
    out = run('lake env lean Cmp.lean 2>&1')
    if '\nDONE' not in out: return 'evaluation failed', out[-300:] + ' '.join(l for l in out.split('\n') if 'error' in l)[:600], names
    return 'ok', {tuple(l.split('\t')[1:3]): l.split('\t')[3] for l in out.split('\n') if l.startswith('OBS\t')}, names
def used(thm, names):
    return any(c == n or c.startswith(n + '.') for n in names for c in RHS[thm])
shutil.rmtree(DST, ignore_errors=True); subprocess.run(['cp', '-a', SRC, DST], check=True)
st, BASE, _ = evaluate({})
if st != 'ok': sys.exit(f'unedited: {st} {BASE}')
print(json.dumps({'id': 'unedited', 'inputs': len(BASE)}), flush=True)
for m in json.load(open(BATCH)):
    if ids and m['id'] not in ids: continue
    st, res, names = evaluate(m, m.get('claim')); r = {'id': m['id'], 'claim': m.get('claim'), 'outcome': st}
    if st == 'ok':
        ref = {}
        for k, v in BASE.items():
            thm, claim = k[0], k[0].split('_')[0].upper()
            if claim not in ref and k in res and res[k] != v and not used(thm, names):
                cut = lambda s: s if len(s) < 200 else s[:200] + '…'
                ref[claim] = f'{thm}: {cut(k[1])} gives {cut(res[k])} instead of {cut(v)}'
        r['outcome'] = 'refuted' if ref else 'none refuted'; r['refuted'] = ref
    elif res: r['out'] = res
    print(json.dumps(r, ensure_ascii=False), flush=True)
    for ed in m.get('edits', [m] if 'old' in m else []):
        subprocess.run(['cp', os.path.join(SRC, 'Verif', ed['file']), os.path.join(DST, 'Verif', ed['file'])], check=True)

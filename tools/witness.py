#!/usr/bin/env python3
"""Look for counterexamples to property statements in edited models.

usage: witness.py SRC DST MUTATIONS.json [ID ...]

For each edit, builds Tests/Checkers.lean, CheckersText.lean, CheckersMore.lean, CheckersCalls.lean, CheckersDepth.lean, CheckersRest.lean and CheckersLast.lean (models and specifications only, no proofs) in a scratch copy DST of SRC and evaluates
the checkers on the inputs below.  A checker that is false there refutes the statement of its theorem for the edited model, since
Tests/Checkers*Sound.lean derive the checkers from the theorems.  With OWN=1 only the claim named in the edit is tested.  Prints a JSON line per edit: the refuted claims, each with one input.
"""
import re, json, os, shutil, subprocess, sys
SRC, DST, BATCH = sys.argv[1:4]; ids = sys.argv[4:]
INPUTS = r'''
import Verif.Tests.Checkers
import Verif.Tests.CheckersText
import Verif.Tests.CheckersMore
import Verif.Tests.CheckersCalls
import Verif.Tests.CheckersDepth
import Verif.Tests.CheckersRest
import Verif.Tests.CheckersLast
open Ethabi Ethabi.Spec Ethabi.Checkers
def profs : List Profile := [.debug, .release]
def B (n : Nat) : Bytes := (List.range n).map fun i => UInt8.ofNat (i * 7 + 1)
def addr : Token := .address ⟨(List.range 20).map fun i => UInt8.ofNat (i * 7 + 1), by simp⟩
def theHash (b : Bytes) : Word := ⟨(List.range 32).map fun i => UInt8.ofNat (i * 5 + b.length + (b.map UInt8.toNat).sum), by simp⟩
def vals : List (List ParamType × List Token) := [
  ([.address], [addr]), ([.address, .bytes], [addr, .bytes (B 3)]), ([.int 256], [.int (2 ^ 255 + 2 ^ 200 + 9)]), ([.fixedBytes 4, .uint 256], [.fixedBytes (B 4), .uint 6]),
  ([.tuple [.array (.uint 256), .bool]], [.tuple [.array [.uint 4], .bool true]]), ([.uint 256], [.uint 5]), ([.uint 256], [.uint (2 ^ 255 + 3)]), ([.int 64], [.int 77]), ([.bool], [.bool true]), ([.bool], [.bool false]),
  ([.bytes], [.bytes []]), ([.bytes], [.bytes (B 1)]), ([.bytes], [.bytes (B 31)]), ([.bytes], [.bytes (B 32)]), ([.bytes], [.bytes (B 33)]),
  ([.bytes], [.bytes (B 64)]), ([.string], [.string (lit "é")]), ([.string], [.string (lit "gavofyork")]), ([.fixedBytes 4], [.fixedBytes (B 4)]),
  ([.fixedBytes 32], [.fixedBytes (B 32)]), ([.array .bool], [.array []]), ([.array .bool], [.array [.bool true, .bool false]]),
  ([.fixedArray (.uint 8) 2, .bytes], [.fixedArray [.uint 1, .uint 2], .bytes (B 5)]),
  ([.fixedArray .string 2], [.fixedArray [.string (lit "a"), .string (lit "bc")]]),
  ([.array .string, .uint 256], [.array [.string (lit "a"), .string []], .uint 9]),
  ([.tuple [.uint 256, .bool], .bytes], [.tuple [.uint 3, .bool true], .bytes (B 2)]),
  ([.tuple [.uint 256, .string], .bool], [.tuple [.uint 3, .string (lit "x")], .bool true]),
  ([.array (.tuple [.string, .bool])], [.array [.tuple [.string (lit "x"), .bool true], .tuple [.string (lit "y"), .bool false]]]),
  ([.bool, .bytes, .string, .array (.uint 256)], [.bool true, .bytes (B 3), .string (lit "zz"), .array [.uint 1, .uint 2, .uint 3]]),
  ([.string], [.string [Char.ofNat 0xFFFF, Char.ofNat 0x10000, Char.ofNat 0x7FF, Char.ofNat 0x800]]), ([.uint 256], [.uint 256]),
  ([.array (.array (.uint 256))], [.array [.array [.uint 1], .array []]])]
def datas : List Bytes := (vals.map fun v => encodeArgs v.2 v.1) ++ [[], B 31, B 64, word 0, word 2, word 256, word 32 ++ word 1 ++ word 300,
  word (2 ^ 32) ++ word 0, word 32 ++ word (2 ^ 32), word 32 ++ word 2 ++ word 1 ++ word 1, word 32 ++ word 40]
def types : List (List ParamType) := [[.tuple []], [.uint 8], [.fixedBytes 3, .bool], [.fixedArray .string 1]] ++ vals.map (·.1)
def report (name : String) (l : List (String × Bool)) : IO Unit :=
  match l.find? (fun x => !x.2) with | some x => IO.println s!"REFUTED {name} {x.1}" | none => pure ()
def idx {α} (l : List α) : List (Nat × α) := (List.range l.length).zip l
def fn (v : List ParamType × List Token) : Function := ⟨lit "f", v.1.map fun t => ⟨lit "a", t, none⟩, [⟨lit "b", .bool, none⟩], false, .nonPayable⟩
#eval report "C01" ((idx vals).flatMap fun v => profs.map fun p => (s!"vals[{v.1}]", c01 p p v.2.1 v.2.2))
#eval report "C02" ((idx vals).flatMap fun v => profs.map fun p => (s!"vals[{v.1}]", c02 p v.2.1 v.2.2))
#eval report "C03" ((idx vals).flatMap fun v => profs.map fun p => (s!"vals[{v.1}]", c03 p v.2.2))
#eval report "C10" ([ParamType.bool, .uint 256, .string, .tuple [.bool]].flatMap fun t => (idx datas).map fun d => (s!"datas[{d.1}]", c10 .debug t d.2))
#eval report "C05" ((idx types).flatMap fun t => (idx datas).map fun d => (s!"types[{t.1}] datas[{d.1}]", c05 .debug t.2 d.2))
#eval report "C07" ((idx types).flatMap fun t => (idx datas).map fun d => (s!"types[{t.1}] datas[{d.1}]", c07 .debug t.2 d.2 (B 40)))
#eval report "C12" ([0, 1, 2, 255, 256, 257, 2 ^ 255, 2 ^ 256 - 1].map fun n => (s!"{n}", c12 .debug n))
#eval report "C13" ((idx datas).map fun d => (s!"datas[{d.1}]", c13 .debug d.2))
#eval report "C17" ((idx types).flatMap fun t => (idx (vals ++ [([], [.fixedBytes (B 2), .bool true]), ([], [.fixedBytes (B 4), .bool true])])).map fun v => (s!"types[{t.1}] vals[{v.1}]", c17 v.2.2 t.2))
#eval report "C19" ((idx vals).flatMap fun v => (idx datas).map fun d => (s!"vals[{v.1}] datas[{d.1}]", c19 .debug (fn v.2) d.2))
#eval report "C13" ((idx (types ++ [[], [.bytes], [.string], [.fixedBytes 0], [.fixedArray .bool 0], [.bytes, .bool]])).map fun t => (s!"types[{t.1}]", c13e .debug t.2))
#eval report "C17" [("long tuple", c17p), ("ill-typed argument before a long tuple", c17w)]
#eval report "C17" ((idx (types ++ [[.bool, .bool], [.uint 8, .string]])).flatMap fun t => (idx (vals ++ [([], [.uint 1, .bool true]), ([], [.bool true, .uint 2]), ([], [.array [.bool true, .uint 1]])])).map fun v => (s!"types[{t.1}] vals[{v.1}]", c17f v.2.2 t.2))
#eval report "C19" ((idx vals).map fun v => (s!"vals[{v.1}]", c19s theHash .debug (fn v.2) v.2.2))
def single : List ParamType := (types.flatMap id) ++ [.int 8, .fixedBytes 7, .array (.tuple [.bool, .string]), .fixedArray (.tuple [.bool]) 3, .tuple [.tuple []],
  .tuple [.tuple [.bool, .uint 256], .bool], .tuple [.array (.tuple [.bool])], .tuple [.tuple [.tuple [.bool]]], .tuple [.tuple [.tuple [.tuple [.bool]]]],
  .tuple [.address, .tuple [.bool, .tuple [.bool, .uint 256], .bool]], .tuple [.tuple [.bool, .uint 256], .tuple [.address, .tuple [.string]]],
  .fixedArray (.array (.fixedArray .bool 2)) 0, .uint (2 ^ 64), .array (.array (.tuple [.bool, .array .string])), .fixedArray .bool (2 ^ 64 - 1)]
def texts : List Str := ["", "bool", "uint", "int", "uint8", "int256", "bytes", "bytes32", "bytes+4", "string", "address", "tuple", "x", "uintx", "(bool)", "(bool,uint256)",
  "()", "(", ")", "]", "5]", "bool[]", "bool[3]", "bool[x]", "uint99999999999999999999", "(bool,7])", "((bool),string)", "bool[][2]", " bool", "Bool"].map String.toList
def nums : List Str := ["", "0", "1", "-1", "-0", "+1", "007", "12a", "-", "a", "0x10", " 1", "1 ", "115792089237316195423570985008687907853269984665640564039457584007913129639935",
  "115792089237316195423570985008687907853269984665640564039457584007913129639936", "57896044618658097711785492504343953926634992332820282019728792003956564819967",
  "57896044618658097711785492504343953926634992332820282019728792003956564819968", "-57896044618658097711785492504343953926634992332820282019728792003956564819968",
  "-57896044618658097711785492504343953926634992332820282019728792003956564819969",
  "11111111111111111111111111111111111111111111111111111111111111111"].map String.toList
def W (n : Nat) : Word := ⟨(List.range 32).map fun i => UInt8.ofNat (i * 9 + n * 37), by simp⟩
def events : List Event := [⟨lit "E", [], false⟩, ⟨lit "E", [], true⟩, ⟨lit "E", [⟨lit "a", .bool, true⟩, ⟨lit "b", .string, false⟩], false⟩,
  ⟨lit "E", [⟨lit "a", .string, true⟩, ⟨lit "b", .uint 256, true⟩], true⟩, ⟨lit "E", [⟨lit "b", .uint 8, false⟩], false⟩, ⟨lit "F", [⟨lit "b", .uint 8, true⟩], false⟩]
def sigOf (e : Event) : Word := theHash ((signature (String.ofList e.name) (e.inputs.map (·.kind))).toList.flatMap String.utf8EncodeChar)
def one : Word := ⟨List.replicate 31 0 ++ [1], by simp⟩
def logs (e : Event) : List RawLog := do
  let ts ← [[], [sigOf e], [sigOf e, one], [sigOf e, one, one], [one, one], [one], [W 3], [W 3, one], [one, sigOf e], [sigOf e, one, one, one], [sigOf { e with inputs := e.inputs.filter (·.indexed) }], [sigOf { e with inputs := e.inputs.filter (·.indexed) }, one], [sigOf { e with inputs := e.inputs.filter (!·.indexed) }, one], [theHash (e.name.flatMap String.utf8EncodeChar)], [theHash (e.name.flatMap String.utf8EncodeChar), one]]
  let d ← [[], word 7, word 32 ++ word 1 ++ word 0]
  pure ⟨ts, d⟩
def topics : List (Topic Word) := [.any, .this (W 1), .oneOf [], .oneOf [W 2], .oneOf [W 1, W 5]]
#eval report "C23" ((idx vals).flatMap fun v => [[], [⟨lit "b", .bool, none⟩], [⟨[], .bool, none⟩, ⟨[], .string, none⟩]].map fun o => (s!"vals[{v.1}]", c23 { fn v.2 with outputs := o }))
#eval report "C24" ((idx single).map fun t => (s!"single[{t.1}]", c24 t.2))
#eval report "C25" ((idx single).map fun t => (s!"single[{t.1}]", c25 t.2))
#eval report "C27" ((idx texts).flatMap fun s => [0, 1, 12, 2 ^ 64 - 1].map fun k => (s!"texts[{s.1}] {k}", c27 s.2 k))
#eval report "C27" ((idx (["é", "éx", "éxbool", "boolé", "(é((bool)x)", "bool€€€€", "uint256é", "(é(bool)x"].map String.toList)).flatMap fun s => (List.range 9).flatMap fun n => [0, 12].map fun k => (s!"unicode[{s.1}] {n} {k}", c27u s.2 n k))
#eval report "C28" ((idx single).flatMap fun t => [Mode.buffered, Mode.direct].flatMap fun m => [none, some (lit "T")].map fun i => (s!"single[{t.1}]", c28 m ⟨lit "p", t.2, i⟩))
#eval report "C28" ((idx single).flatMap fun t => [Mode.buffered, Mode.direct].flatMap fun m => [true, false].map fun i => (s!"event param single[{t.1}]", c28e m ⟨lit "p", t.2, i⟩))
#eval report "C28" ((idx single).flatMap fun t => [Mode.buffered, Mode.direct].flatMap fun m => [none, some (lit "T")].flatMap fun i => [none, some (lit "n")].map fun n => (s!"tuple param single[{t.1}]", c28t m { name := n, kind := t.2, internalType := i }))
#eval report "C34" ((idx events).flatMap fun e => (idx (logs e.2)).map fun l => (s!"events[{e.1}] logs[{l.1}]", c34 theHash .debug e.2 l.2))
#eval report "C42" (topics.flatMap fun a => topics.flatMap fun b => topics.map fun c => ("topics", c42 ⟨a, b, c, .any⟩))
#eval report "C43" ([Tokenizer.strict, .lenient].flatMap fun m => (idx vals).flatMap fun v => (v.2.2.zip v.2.1).map fun x => (s!"vals[{v.1}]", c43 m x.1 x.2))
#eval report "C43" ([Tokenizer.strict, .lenient].flatMap fun m => [(Token.array [.array [.bool true], .array []], ParamType.array (.array .bool)), (.array [addr, addr], .array .address), (.fixedArray [.bytes (B 2), .bytes (B 1)], .fixedArray .bytes 2), (.fixedBytes (B 2), .fixedBytes 2)].map fun x => ("nested", c43 m x.1 x.2))
#eval report "C43" ([Tokenizer.strict, .lenient].flatMap fun m => ["", "a\"b", "[a]", "a,b", " é "].map fun s => (s, c43s m s.toList))
#eval report "C44" ((idx nums).map fun s => (s!"nums[{s.1}]", c44 256 s.2))
#eval report "C45" ((idx nums).map fun s => (s!"nums[{s.1}]", c45 256 s.2))
def values : List Str := nums ++ (["true", "false", "1", "0", "True", "[]", "[true,false]", "[1,2]", "[[1],[2]]", "[true", "true]", "[\"a\",\"b\"]", "a\"b", "[a]", "[,]", "[1,]", "abcd", "0xabcd", "0xab", "zz", "abc",
  "1111111111111111111111111111111111111111", "0x1111111111111111111111111111111111111111", "1ether", "2 gwei", "1.5ether", "[(1,2)]", "(1,true)", "(true,\"a,b\")", "1 wei", "((1,true),2)", "[(1,true),(2,false)]",
  "abababababababababababababababababababababababababababababababab", "ABCDEFABCDEFABCDEFABCDEFABCDEFABCDEFABCDEFABCDEFABCDEFABCDEFABCD", "0xabababababababababababababababababababababababababababababababab"].map String.toList)
def toks : List (List Token) := vals.map (·.2) ++ [[.uint 1, .tuple []], [.array (List.replicate 40 (.bool true))], [.fixedArray [], .bytes (B 65)]]
#eval report "C46" ((idx single).flatMap fun t => (idx values).map fun s => (s!"single[{t.1}] values[{s.1}]", c46 t.2 s.2))
#eval report "C47" ([Tokenizer.strict, .lenient].flatMap fun m => (idx single).flatMap fun t => (idx values).map fun s => (s!"single[{t.1}] values[{s.1}]", c47 m t.2 s.2))
#eval report "C66" ((idx toks).map fun v => (s!"toks[{v.1}]", c66 [] v.2 []))
#eval report "C66" ((idx (vals.map (·.1))).flatMap fun t => (idx datas).map fun d => (s!"vals[{t.1}] datas[{d.1}]", c66 t.2 [] d.2))
#eval report "C75" ((idx (vals.map (·.1))).flatMap fun t => [[ParamType.bool], [.uint 256, .bytes]].flatMap fun u => (idx datas).map fun d => (s!"vals[{t.1}] datas[{d.1}]", c75 .debug u t.2 d.2 && c75 .debug t.2 u d.2))
#eval report "C87" ((idx (vals.map (·.1))).flatMap fun t => (idx datas).flatMap fun d => profs.map fun p => (s!"vals[{t.1}] datas[{d.1}]", c87 p t.2 d.2))
#eval report "C94" ((idx (texts ++ ["uint4294967295", "uint4294967296", "bool[4294967296]", "bytes18446744073709551616", "(bool[4294967296],x)"].map String.toList)).map fun s => (s!"texts[{s.1}]", c94 s.2))
#eval report "C95" ((idx (texts ++ ["(((bool)))", "((((bool))))", "(((((bool)))))", "bool[][][]", "bool[][][][]", "((bool[]))[]", "(((bool),bool),bool)", "((bool,(bool)),bool)", "((bool,bool,bool),(bool),((bool),bool))", "(bool,(bool,(bool,(bool,bool))))"].map String.toList)).map fun s => (s!"texts[{s.1}]", c95 s.2))
#eval report "C103" ((idx toks).flatMap fun v => profs.map fun p => (s!"toks[{v.1}]", c103 p v.2))
#eval report "C107" ((idx (texts ++ ["(((bool)))", "bool[][][]", "((bool[]))[]", "(bool,bool,(bool,bool),uint256[2][])[]", "(bool[],bool[],bool[],bool[],bool[],bool[],bool[],bool[],bool[],bool[])"].map String.toList)).map fun s => (s!"texts[{s.1}]", c107 s.2))
#eval report "C109" ((idx (vals.map (·.1))).flatMap fun t => (idx datas).flatMap fun d => profs.map fun p => (s!"vals[{t.1}] datas[{d.1}]", c109 p t.2 d.2))
#eval report "C116" ((idx (vals.map (·.1))).flatMap fun t => (idx datas).map fun d => (s!"vals[{t.1}] datas[{d.1}]", c116 .debug .debug t.2 d.2))
def pads : List (List ParamType × Bytes) := [([.bool, .fixedBytes 2], word 2 ++ [1, 2] ++ List.replicate 30 7), ([.bool, .fixedBytes 2], word 1 ++ [1, 2] ++ List.replicate 30 0),
  ([.fixedBytes 2], [1, 2] ++ List.replicate 30 7), ([.fixedBytes 2], [1, 2] ++ List.replicate 30 0), ([.address], word (2 ^ 200 + 5)), ([.address], word 5), ([.address], word 5 ++ [0]), ([.bool], word 0), ([.bool], word 3),
  ([.fixedArray .address 2, .uint 8], word 5 ++ word (2 ^ 170) ++ word 9), ([.tuple [.fixedBytes 32, .bool], .int 8], B 32 ++ word 1 ++ B 32), ([.fixedArray (.tuple [.bool, .fixedBytes 1]) 2], word 1 ++ word (2 ^ 248) ++ word 0 ++ word (2 ^ 248)),
  ([.fixedArray (.tuple [.bool, .fixedBytes 1]) 2], word 1 ++ word (2 ^ 248) ++ word 0 ++ word (2 ^ 248 + 1))]
#eval report "C116" ((idx pads).flatMap fun d => profs.map fun p => (s!"pads[{d.1}]", c116s p p d.2.1 d.2.2))
#eval report "C116" ((idx pads).flatMap fun d => profs.map fun p => (s!"pads[{d.1}]", c116 p p d.2.1 d.2.2))
#eval report "C115" ((idx (vals.map (·.1))).flatMap fun t => (idx datas).flatMap fun d => profs.map fun p => (s!"vals[{t.1}] datas[{d.1}]", c115 p t.2 d.2 && c115x p t.2 d.2))
#eval report "C115" ([Tokenizer.strict, .lenient].flatMap fun m => (idx single).flatMap fun t => (idx values).map fun s => (s!"single[{t.1}] values[{s.1}]", c115t m t.2 s.2))
def deep : List Token := [.tuple [.tuple [.tuple []]], .tuple [.bool true, .bool true, .bool true], .fixedArray [.fixedArray [.uint 1, .uint 2], .fixedArray [.uint 1, .uint 2]], .array [.tuple [.array [.fixedArray [.string (lit "s")]]]], .fixedArray [.array []], .tuple [.string (lit "a"), .fixedArray [.bytes (B 2)]]]
#eval report "C117" ((idx vals).flatMap fun v => profs.map fun p => (s!"vals[{v.1}]", c117 p v.2.2))
#eval report "C117" ((idx deep).flatMap fun v => profs.map fun p => (s!"deep[{v.1}]", c117 p [v.2]))
#eval report "C117" ((idx (deep ++ vals.flatMap (·.2))).map fun v => (s!"{v.1}", c117d v.2))
#eval report "C117" ((idx single).map fun v => (s!"single[{v.1}]", c117w v.2))
#eval report "C117" ((idx single).flatMap fun t => (idx (deep ++ vals.flatMap (·.2))).map fun v => (s!"single[{t.1}] {v.1}", c117c v.2 t.2))
#eval report "C15" ((idx (vals ++ [([.fixedBytes 4, .bool], [.fixedBytes (B 2), .bool true]), ([.array (.fixedBytes 32)], [.array [.fixedBytes (B 1), .fixedBytes (B 31)]]), ([.tuple [.fixedBytes 8]], [.tuple [.fixedBytes (B 8)]])])).map fun v => (s!"vals[{v.1}]", c15 .debug .release v.2.1 v.2.2))
#eval report "C18" ((idx vals).map fun v => (s!"vals[{v.1}]", c18 theHash .debug .release (fn v.2) v.2.2))
#eval report "C20" ((idx vals).flatMap fun v => (idx ([] :: [.bool true, .bool true] :: toks)).map fun w => (s!"vals[{v.1}] toks[{w.1}]", c20 theHash .debug (fn v.2) ⟨(fn v.2).inputs⟩ (B 3) w.2))
#eval report "C21" ((idx vals).map fun v => (s!"vals[{v.1}]", c21 .debug .release ⟨(fn v.2).inputs⟩ (B 5) v.2.2))
def S (s : String) : Json := .str s.toList
def O (l : List (String × Json)) : Json := .obj (l.map fun x => (x.1.toList, x.2))
def P (n t : String) : Json := O [("name", S n), ("type", S t)]
def fnJson (n : String) (ins : List Json) : Json := O [("type", S "function"), ("name", S n), ("inputs", .arr ins), ("outputs", .arr [])]
def evJson (n : String) (ins : List Json) : Json := O [("type", S "event"), ("name", S n), ("inputs", .arr ins), ("anonymous", .bool false)]
def abis : List (List Json) := [[], [fnJson "f" []], [fnJson "f" [P "a" "bool"], fnJson "g" [], fnJson "f" [P "a" "uint8"], fnJson "f(x)" []],
  [evJson "f" [], evJson "e" [O [("name", S "p"), ("type", S "bool"), ("indexed", .bool true)]], evJson "f" [O [("name", S "p"), ("type", S "bool"), ("indexed", .bool false)]], fnJson "e" []],
  [O [("type", S "receive")], fnJson "f" []], [O [("type", S "fallback")]], [O [("type", S "constructor"), ("inputs", .arr [])], O [("type", S "constructor"), ("inputs", .arr [P "a" "bool"])]],
  [O [("type", S "receive")], O [("type", S "fallback")], evJson "g(1)" [], fnJson "g(" [], fnJson "(" []],
  [O [("type", S "constructor"), ("inputs", .arr [P "b" "string"])], O [("type", S "event"), ("name", S "f"), ("inputs", .arr []), ("anonymous", .bool true)], evJson "f" [P "a" "bool"], O [("type", S "constructor"), ("inputs", .arr [])], O [("type", S "event"), ("name", S "f"), ("inputs", .arr []), ("anonymous", .bool true)]],
  [fnJson " f " [], fnJson "f (x)" [P " a " "bool"], evJson "e " [], fnJson "f\t(" []]]
#eval report "C30" ((idx abis).map fun a => (s!"abis[{a.1}]", c30c a.2))
#eval report "C30" ((idx abis).flatMap fun a => ["f", "g", "e", "f(x)", "", "h"].map fun n => (s!"abis[{a.1}] {n}", c30 a.2 n.toList))
#eval report "C31" ((idx abis).flatMap fun a => ["f", "g", "e", "f(x)", "", "h"].map fun n => (s!"abis[{a.1}] {n}", c31 a.2 n.toList))
#eval report "C32" (["", "f", "f(", "f()", "(", "f(a)(b)", "é(", "f)g(h", " ", " f", "f ", "f (x)", " f( "].map fun s => (s, c32 s.toList))
#eval report "C32" ((idx abis).map fun a => (s!"abis[{a.1}]", c32l (.arr a.2)))
def emitted : List (List Emitted) := [[], [⟨lit "a", .bool, true, .bool true⟩], [⟨lit "a", .bool, false, .bool true⟩], [⟨lit "a", .bool, false, .bool true⟩, ⟨lit "b", .uint 8, true, .uint 9⟩, ⟨lit "c", .string, false, .string (lit "xyz")⟩],
  [⟨lit "a", .string, true, .string (lit "s")⟩, ⟨lit "b", .address, true, addr⟩, ⟨lit "c", .fixedBytes 4, true, .fixedBytes (B 4)⟩], [⟨lit "z", .int 256, true, .int 7⟩, ⟨lit "b", .uint 8, false, .uint 1⟩, ⟨lit "a", .uint 8, false, .uint 2⟩],
  [⟨lit "a", .array .bool, true, .array [.bool true]⟩, ⟨lit "b", .tuple [.bool, .string], true, .tuple [.bool true, .string (lit "q")]⟩, ⟨lit "c", .array .bool, false, .array [.bool false]⟩, ⟨lit "d", .fixedArray (.uint 8) 2, true, .fixedArray [.uint 1, .uint 2]⟩],
  [⟨lit "a", .uint 8, true, .uint 1⟩, ⟨lit "b", .uint 8, true, .uint 2⟩, ⟨lit "c", .uint 8, true, .uint 3⟩, ⟨lit "d", .uint 8, true, .uint 4⟩], [⟨lit "a", .uint 8, true, .uint 1⟩, ⟨lit "b", .bool, true, .bool false⟩, ⟨lit "c", .uint 8, true, .uint 3⟩]]
def raws : List RawTopicFilter := do
  let a ← [Topic.any, .this (.uint 1), .this (.bool true), .oneOf [.uint 1, .uint 2], .oneOf []]
  let b ← [Topic.any, .this (.uint 2), .this (.bool false), .oneOf [.bool true, .bool false], .this addr]
  let c ← [Topic.any, .this (.uint 3), .this (.fixedBytes (B 4)), .oneOf [.uint 7, .uint 3]]
  pure ⟨a, b, c⟩
def evOf (ps : List Emitted) (an : Bool) : Event := ⟨lit "E", ps.map fun p => { name := p.name, kind := p.kind, indexed := p.indexed }, an⟩
#eval report "C33" ((idx emitted).flatMap fun e => [true, false].flatMap fun an => profs.map fun p => (s!"emitted[{e.1}] {an}", c33 theHash p (lit "E") an e.2))
#eval report "C35" ((idx events).flatMap fun e => (idx (logs e.2)).map fun l => (s!"events[{e.1}] logs[{l.1}]", c35 theHash .debug e.2 l.2))
#eval report "C35" ((idx emitted).flatMap fun e => [true, false].flatMap fun an => match toWords (emitTopics theHash (lit "E") an e.2) with | some ws => [(s!"emitted[{e.1}] {an}", c35 theHash .debug (evOf e.2 an) ⟨ws, emitData e.2⟩)] | none => [])
#eval report "C37" ((idx emitted).flatMap fun e => [true, false].flatMap fun an => (idx raws).map fun r => (s!"emitted[{e.1}] {an} raws[{r.1}]", c37 theHash .debug (evOf e.2 an) r.2))
#eval report "C38" ((idx emitted).flatMap fun e => [true, false].flatMap fun an => (idx raws).map fun r => (s!"emitted[{e.1}] {an} raws[{r.1}]", c38 theHash (evOf e.2 an) r.2))
#eval report "C39" ((idx emitted).flatMap fun e => [true, false].flatMap fun an => (idx raws).map fun r => (s!"emitted[{e.1}] {an} raws[{r.1}]", c39 theHash .debug (lit "E") an e.2 r.2))
#eval report "C41" ([Topic.any, .this 3, .oneOf [], .oneOf [1], .oneOf [1, 2, 3]].flatMap fun t => (List.range 5).flatMap fun i => (List.range 5).map fun a => ("topics", c41 t i a))
#eval report "C41" ((List.range 3).flatMap fun a => [none, some 1, some 0].flatMap fun o => [[], [1], [1, 2], [2, 2, 3]].map fun l => (s!"{a} {o} {l}", c41c a o l))
def zws : List (List ParamType × Bytes) := [([.array (.tuple [])], word 32 ++ word 3), ([.array (.fixedArray .bool 0)], word 32 ++ word 2 ++ word 1), ([.array (.tuple []), .bool], word 64 ++ word 1 ++ word 0), ([.fixedArray (.tuple []) 3, .uint 8], word 9)]
#eval report "C87" ((idx (vals.map (·.1))).flatMap fun t => (idx datas).flatMap fun d => profs.map fun p => (s!"vals[{t.1}] datas[{d.1}]", c87v p t.2 d.2))
#eval report "C87" ((idx zws).flatMap fun d => profs.map fun p => (s!"zws[{d.1}]", c87v p d.2.1 d.2.2))
#eval report "C87" [("the two examples", c87x)]
#eval report "C94" ((idx (texts ++ ["uint4294967295", "uint4294967296", "int4294967296", "bool[4294967295]", "bool[4294967296]", "bytes4294967296", "bytes4294967295", "bool[4294967296][]", "bool[][4294967296]", "(uint4294967296)", "(bool[4294967296],bool)", "((int4294967296[2]))", "bytes18446744073709551616"].map String.toList)).map fun s => (s!"texts[{s.1}]", c94x s.2))
#eval report "C103" ((idx vals).flatMap fun v => (idx toks).flatMap fun w => profs.map fun p => (s!"vals[{v.1}] toks[{w.1}]", c103f theHash p (fn v.2) ⟨(fn v.2).inputs⟩ (B 3) w.2))
#eval report "C107" ((List.range 9).map fun k => (s!"{k}", c107r k))
#eval report "C107" ((idx texts).map fun s => (s!"texts[{s.1}]", c107l s.2))
#eval report "C109" ((idx (vals.map (·.1))).flatMap fun t => (idx datas).flatMap fun d => profs.map fun p => (s!"vals[{t.1}] datas[{d.1}]", c109w p t.2 d.2))
#eval report "C109" ((idx zws).flatMap fun d => profs.map fun p => (s!"zws[{d.1}]", c109w p d.2.1 d.2.2))
#eval report "C14" (((["", "a", "abc", "é", "€uro", "𝄞", "naïve 漢字"].map String.toList) ++ [0x7F, 0x80, 0x7FF, 0x800, 0xD7FF, 0xE000, 0xFFFD, 0xFFFF, 0x10000, 0xFFFFF, 0x100000, 0x10FFFF].map fun (n : Nat) => [Char.ofNat n, 'x']).flatMap fun s => profs.map fun p => (String.ofList s, c14s p s))
#eval report "C14" (([[], [65], [0x80], [0xC0, 0x80], [0xC1, 0xBF], [0xC3], [0xC3, 0xA9], [0xC3, 0x41], [0xC3, 0xC0], [0xE0, 0x80, 0x80], [0xE0, 0x9F, 0xBF], [0xED, 0xA0, 0x80], [0xED, 0xBF, 0xBF], [0xEF, 0xBF, 0xBD], [0xF0, 0x80, 0x80, 0x80], [0xF0, 0x8F, 0xBF, 0xBF], [0xF4, 0x90, 0x80, 0x80], [0xF4, 0x8F, 0xBF, 0xBF], [0xF5, 0x80, 0x80, 0x80], [0xFF], [0xFE], [65, 0xFF, 66], [0xE2, 0x82], [0xE2, 0x82, 0xAC], [0xE2, 0x82, 0xC0], [0xE2, 0xC0, 0x80], [0xF1, 0x80, 0xC0, 0x80], [0xF3, 0x80, 0x80, 0x80], [0xC3, 0xFF], B 31, B 32, B 33] : List Bytes).flatMap fun b => profs.map fun p => (s!"{b}", c14b p b))
#eval report "C26" (texts ++ (["]", "[]", "5]", "[5]", "(]", "a]", "bool]", "(bool", "bool)", ")", "(", "())", "((bool)", "(bool))", "bool[-5]", "bool[-1]", "int", "int]", "x)", "(int,)", "é", "é)", "()é", "uint-8", "(bool,int)", "bool[", "bool[)", "(bool[)", "([bool])", "bool[]]", "[]]", ",", "(,)", "()[]", "(é)", "(é]"].map String.toList)|>.map fun s => (String.ofList s, c26 s))
#eval report "C26" [("the five examples", c26x)]
def out (n t : String) : Json := O [("type", S "function"), ("name", S n), ("inputs", .arr [P "a" t]), ("outputs", .arr [P "" t, P "b" "uint8"]), ("constant", .bool true), ("stateMutability", S "view")]
def moreAbis : List (List Json) := abis ++ [[out "f" "bool", O [("type", S "receive")]], [out "g" "uint8[]", O [("type", S "fallback")]], [O [("type", S "receive")], O [("type", S "fallback")], out "f" "string"],
  [O [("type", S "event"), ("name", S "e"), ("inputs", .arr [O [("name", S "x"), ("type", S "bool"), ("indexed", .bool true)]]), ("anonymous", .bool true)], O [("type", S "constructor"), ("inputs", .arr [P "k" "address"])]],
  [O [("type", S "constructor"), ("inputs", .arr [P "k" "bool"])], O [("type", S "constructor"), ("inputs", .arr [])], out "f" "int8", out "f" "int8"], [O [("type", S "x")], out "f" "bool"], [out "f" "bool", .null, O [("type", S "constructor"), ("inputs", .arr [])]],
  [O [("type", S "function"), ("name", S "t"), ("inputs", .arr [O [("name", S "a"), ("type", S "tuple[2]"), ("components", .arr [P "x" "bool", P "y" "string"])]]), ("outputs", .arr []), ("stateMutability", S "pure")]], [O [("type", S "fallback")], out "f" "bool", evJson "e" []]]
def lookups : List String := ["f", "g", "e", "t", "f(x)", "", "h"]
#eval report "C29" ((idx moreAbis).flatMap fun a => lookups.map fun n => (s!"moreAbis[{a.1}] {n}", c29 (.arr a.2) n.toList))
#eval report "C108" ((idx moreAbis).flatMap fun a => (idx moreAbis).flatMap fun b => lookups.map fun n => (s!"moreAbis[{a.1}] moreAbis[{b.1}] {n}", c108 a.2 b.2 n.toList))
#eval report "C51" ((idx (moreAbis ++ [[out "f" "bool", out "f" "uint8", evJson "e" [P "a" "bool"]]])).flatMap fun a => ["f", "g", "e", "t", "", "h"].flatMap fun n => [")", "bool)", "uint8)", "bool):(bool,uint8)", "uint8):(uint8,uint8)", "string):(string,uint8)", "x)", "bool", " )", " bool )", "bool,uint8)", "(", "bool)("].map fun r => (s!"{a.1} {n} {r}", c51 theHash a.2 n.toList r.toList))
def fOf (ts : List ParamType) : Function := ⟨lit "f", ts.map fun t => ⟨lit "a", t, none⟩, [], false, .view⟩
def cOf (ts : List ParamType) : Constructor := ⟨ts.map fun t => ⟨lit "a", t, none⟩⟩
def ad : Address := ⟨(List.range 20).map fun i => UInt8.ofNat (i * 7 + 1), by simp⟩
#eval report "C55" (profs.flatMap fun p => [("bool, uint8", c55 theHash p (fOf [.bool, .uint 8]) (cOf [.bool, .uint 8]) (B 3) (true, (7 : U256), ()) (false, (300 : U256), ())), ("int8", c55 theHash p (fOf [.int 8]) (cOf [.int 8]) (B 3) ((5 : U256), ()) ((5 : U256), ())), ("none", c55 theHash p (fOf []) (cOf []) (B 3) () ()), ("string, bytes", c55 theHash p (fOf [.string, .bytes]) (cOf [.bytes]) (B 3) (lit "é", B 40, ()) (B 2, ())),
  ("address", c55 theHash p (fOf [.address]) (cOf [.address]) (B 1) (ad, ()) (ad, ())), ("bool[]", c55 theHash p (fOf [.array .bool]) (cOf [.array .bool]) [] (([true, false] : List Bool), ()) (([] : List Bool), ())), ("int8[]", c55 theHash p (fOf [.array (.int 8)]) (cOf [.array (.uint 8)]) [] (([1, 2] : List U256), ()) (([1] : List U256), ()))])
#eval report "C55" [("bool", c55t .bool true), ("int8", c55t (.int 8) (5 : U256)), ("uint8", c55t (.uint 8) (5 : U256)), ("string", c55t .string (lit "a")), ("bytes", c55t .bytes (B 3)), ("address", c55t .address ad), ("bool[]", c55t (.array .bool) ([true] : List Bool)), ("int8[]", c55t (.array (.int 8)) ([1, 2] : List U256)), ("string[][]", c55t (.array (.array .string)) ([[lit "a"], []] : List (List Str)))]
def shown : List (ParamType × List Token) := [(.bool, [.bool true, .bool false]), (.uint 256, [.uint 0, .uint 1, .uint 16, .uint 256]), (.int 256, [.int 0, .int 1, .int (BitVec.ofNat 256 (2 ^ 256 - 1)), .int (BitVec.ofNat 256 (2 ^ 255)), .int (BitVec.ofNat 256 (2 ^ 256 - 16))]), (.bytes, [.bytes [], .bytes [0], .bytes [0, 1], .bytes [1], .bytes [16], .bytes [1, 0]]), (.fixedBytes 2, [.fixedBytes [0, 1], .fixedBytes [1, 0], .fixedBytes [16, 0]]),
  (.address, [addr, .address ⟨(List.range 20).map fun i => UInt8.ofNat (i * 7 + 2), by simp⟩, .address ⟨List.replicate 19 0 ++ [1], by simp⟩, .address ⟨1 :: List.replicate 19 0, by simp⟩, .address ⟨[1, 2] ++ List.replicate 16 9 ++ [3, 4], by simp⟩, .address ⟨[1, 2] ++ List.replicate 16 8 ++ [3, 4], by simp⟩]), (.array (.uint 8), [.array [], .array [.uint 1], .array [.uint 1, .uint 2], .array [.uint 12], .array [.uint 1, .uint 3], .array [.uint 0x12]]),
  (.array (.array .bool), [.array [], .array [.array []], .array [.array [.bool true]], .array [.array [.bool true], .array [.bool false]], .array [.array [.bool true, .bool false]]]), (.tuple [.uint 8, .uint 8], [.tuple [.uint 1, .uint 0x23], .tuple [.uint 0x12, .uint 3], .tuple [.uint 1, .uint 2]]), (.tuple [.bool, .array .bool], [.tuple [.bool true, .array []], .tuple [.bool true, .array [.bool true]]]), (.string, [.string [], .string (lit "a"), .string (lit "a\nb"), .string (lit "ab"), .string (lit "a,b"), .string (lit "[a]"), .string (lit "true"), .string (lit "é")]),
  (.array .bytes, [.array [], .array [.bytes []], .array [.bytes [], .bytes []], .array [.bytes [1]]]), (.fixedArray .bool 2, [.fixedArray [.bool true, .bool false], .fixedArray [.bool true, .bool true], .fixedArray [.bool false, .bool true]]), (.fixedArray (.fixedBytes 1) 2, [.fixedArray [.fixedBytes [1], .fixedBytes [2]], .fixedArray [.fixedBytes [1], .fixedBytes [3]]]), (.array (.tuple [.uint 8]), [.array [.tuple [.uint 1], .tuple [.uint 2]], .array [.tuple [.uint 0x12]], .array [.tuple [.uint 1], .tuple [.uint 3]]])]
#eval report "C97" (shown.flatMap fun x => x.2.flatMap fun a => x.2.map fun b => (s!"{String.ofList a.display} {String.ofList b.display}", c97 x.1 a b))
#eval report "C98" ((idx toks).flatMap fun t => profs.map fun p => (s!"toks[{t.1}]", c98e p t.2))
#eval report "C98" ((idx types).flatMap fun ts => [ParamType.bool, .string, .tuple [.string, .bool], .array (.uint 8), .fixedArray .bytes 1, .tuple [.bool, .uint 8]].flatMap fun t => [0, 1, 2].flatMap fun k => [(32 : Nat), 0, 1, 64, 33, 96, 2 ^ 31].flatMap fun o => [([] : Bytes), word 1, word 32 ++ word 2 ++ B 32, word 64 ++ word 96 ++ word 1 ++ B 32 ++ word 2 ++ B 32].map fun r => (s!"types[{ts.1}] {reprStr t} {k} {o} {r.length}", c98d .debug ts.2 t k o r))
#eval report "C98" ([ParamType.bool, .string, .tuple [.string, .bool], .array (.uint 8), .fixedArray .bytes 1, .tuple [.bool, .uint 8], .fixedArray (.uint 8) 2].flatMap fun t => [0, 1, 2, 3, 100].flatMap fun n => [word 1, word 1 ++ word 0, word 32 ++ word 2 ++ B 32, word 64 ++ word 96 ++ word 1 ++ B 32 ++ word 2 ++ B 32, word 1 ++ word 2 ++ word 3 ++ word 4 ++ word 5 ++ word 6].map fun d => (s!"{reprStr t} {n} {d.length}", c98a .debug t n d))
#eval report "C101" (topics.flatMap fun a => topics.flatMap fun b => topics.flatMap fun c => (topics ++ [Topic.this one]).map fun d => ("topics", c101 ⟨a, b, c, d⟩))
#eval report "C104" ((idx vals).flatMap fun v => (idx datas).flatMap fun d => profs.map fun p => (s!"vals[{v.1}] datas[{d.1}]", c104 p { fn v.2 with outputs := (fn v.2).inputs, inputs := (fn v.2).outputs } d.2 && c104 p (fn v.2) d.2))
#eval report "C104" ((idx emitted).flatMap fun e => [true, false].flatMap fun an => (idx (raws.take 40)).flatMap fun r => match toWords (emitTopics theHash (lit "E") an e.2) with | some ws => [(s!"emitted[{e.1}] {an} raws[{r.1}]", c104e theHash .debug (evOf e.2 an) r.2 ⟨ws, emitData e.2⟩)] | none => [])
#eval report "C104" ((idx events).flatMap fun e => (idx (logs e.2)).map fun l => (s!"events[{e.1}] logs[{l.1}]", c104e theHash .debug e.2 ⟨.any, .any, .any⟩ l.2))
#eval report "C104" ((idx raws).map fun r => (s!"raws[{r.1}]", c104e theHash .release ⟨lit "E", [⟨lit "a", .uint 8, true⟩, ⟨lit "b", .bool, true⟩, ⟨lit "c", .fixedBytes 4, true⟩], false⟩ r.2 ⟨[], []⟩ && c104e theHash .release ⟨lit "E", [⟨lit "a", .uint 8, true⟩, ⟨lit "b", .bool, true⟩, ⟨lit "c", .fixedBytes 4, true⟩], true⟩ r.2 ⟨[], []⟩))
#eval report "C106" ((texts ++ ["((((((bool))))))", "(((bool),bool),((string),bool))", "(((bool)),((string)))", "((bool[])[],(string)[2])", "((((bool[][])[])))[]"].map String.toList).map fun s => (String.ofList s, c106 s))
#eval report "C106" ((List.range 6).flatMap fun k => (List.range 8).map fun n => (s!"{k} {n}", c106n k n))
#eval report "C110" ((idx (toks ++ deep.map (fun t => [t]) ++ deep.map (fun t => [t, t]) ++ [[.array [.array [.array [.array [.array [.bytes (B 100)]]]]]], [.bytes (B 300)], [.array (List.replicate 30 (.string (lit "abc")))], [.array (List.replicate 12 (.array (List.replicate 12 (.bytes []))))], [(List.range 12).foldl (fun t _ => Token.array [t, t]) (.bytes [])].take 0, [(List.range 40).foldl (fun t _ => Token.array [t]) (.array [])], [(List.range 14).foldl (fun t _ => Token.tuple [t]) (.bytes (B 33))]])).flatMap fun t => profs.map fun p => (s!"tokens[{t.1}]", c110 p t.2))
def shapes : List (ParamType × ParamType) := [(.uint 8, .uint 256), (.int 8, .int 256), (.uint 7, .uint 1000), (.int 16, .int 24), (.array (.uint 8), .array (.uint 32)), (.tuple [.uint 8, .int 8], .tuple [.uint 16, .int 256]), (.fixedArray (.int 8) 1, .fixedArray (.int 64) 1), (.bool, .bool)]
#eval report "C113" (shapes.flatMap fun x => [[], word 1, word 200, word 256, word (2 ^ 255), word (2 ^ 256 - 1), word (2 ^ 64), word 32 ++ word 1 ++ word 300, word 500 ++ word 600].flatMap fun d => [[Token.uint 1], [.uint 300], [.int 300], [.int (BitVec.ofNat 256 (2 ^ 255))], [.uint (BitVec.ofNat 256 (2 ^ 255))], [.array [.uint 300]], [.tuple [.uint 300, .int 300]]].flatMap fun t => [Tokenizer.strict, .lenient].map fun m => (s!"{reprStr x.1} {d.length}", c113 .debug x.1 x.2 d t m (lit "300") && c113 .debug x.1 x.2 d t m ((String.ofList ((word 300).flatMap fun b => Nat.toDigits 16 (b.toNat / 16) ++ Nat.toDigits 16 (b.toNat % 16)))).toList && c113 .debug x.1 x.2 d t m (lit "-300") && c113 .debug x.1 x.2 d t m (lit "[300]")))
#eval report "C113" ([8, 16, 256, 0, 1000].flatMap fun n => [(0 : Nat), 1, 128, 255, 256, 2 ^ 16, 2 ^ 255, 2 ^ 256 - 1].flatMap fun v => profs.map fun p => (s!"{n} {v}", c113v p n (BitVec.ofNat 256 v)))
#eval IO.println "DONE"
'''
def run(cmd):
    try:
        r = subprocess.run(cmd, cwd=DST, shell=True, capture_output=True, text=True, timeout=600)
        return r.stdout + r.stderr
    except subprocess.TimeoutExpired: return 'TIMEOUT'
def attempt(m):
    shutil.rmtree(DST, ignore_errors=True); subprocess.run(['cp', '-a', SRC, DST], check=True)
    for ed in m.get('edits', [m] if 'old' in m else []):
        p = os.path.join(DST, 'Verif', ed['file']); t = open(p).read()
        if t.count(ed['old']) != 1: return {'id': m['id'], 'outcome': 'edit does not apply'}
        open(p, 'w').write(t.replace(ed['old'], ed['new']))
    out = run('lake build Verif.Tests.Checkers Verif.Tests.CheckersText Verif.Tests.CheckersMore Verif.Tests.CheckersCalls Verif.Tests.CheckersDepth Verif.Tests.CheckersRest Verif.Tests.CheckersLast 2>&1')
    if 'Build completed successfully' not in out: return {'id': m['id'], 'outcome': 'does not build', 'out': out[-300:]}
    blocks = re.split(r'^(?=#eval|def |import |open )', INPUTS, flags=re.M)
    own = [b for b in blocks if not b.startswith('#eval report') or not os.environ.get('OWN') or m.get('claim') is None or f'report "{m["claim"]}"' in b]
    open(os.path.join(DST, 'Wit.lean'), 'w').write(''.join(own))
    out = run('lake env lean Wit.lean 2>&1')
    ref = {l.split()[1]: ' '.join(l.split()[2:]) for l in out.split('\n') if l.startswith('REFUTED')}
    return {'id': m['id'], 'claim': m.get('claim'), 'outcome': 'evaluation failed' if 'DONE' not in out or 'error' in out else 'refuted' if ref else 'none refuted',
            'refuted': ref, **({'out': out[:300]} if 'DONE' not in out or 'error' in out else {})}
for m in [{'id': 'unedited'}] + json.load(open(BATCH)):
    if ids and m['id'] not in ids and m['id'] != 'unedited': continue
    r = attempt(m); print(json.dumps(r, ensure_ascii=False), flush=True)
    if m['id'] == 'unedited' and r['outcome'] != 'none refuted': sys.exit('the checkers do not hold of the unedited model')

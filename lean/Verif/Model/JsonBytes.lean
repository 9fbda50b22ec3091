import Verif.Model.JsonText
import Verif.Model.Files
import Verif.Model.Utf8
/-!
# JSON files as bytes: `serde_json::from_reader`

ethabi/src/contract.rs:140-142 gives the reader to `serde_json`, which looks at single bytes.  Only strings may contain bytes that are
not ASCII; the bytes of a string are collected, escapes written out, and handed to `str::from_utf8` when the closing quotation mark is
reached.  `parse_str` is called for every string of an ABI: an operation is buffered (`#[serde(tag = "type")]`,
ethabi/src/operation.rs:15-33) before it is looked at.

The functions of Model/JsonText.lean that look at ASCII only are used again: here a `Str` stands for bytes, one character for each, with
the byte as its number (`b as char`).
-/
namespace Ethabi

/-- `str::from_utf8`, as an option: the text of the bytes, if they are UTF-8 -/
def fromUtf8 (bs : Bytes) : Option Str := if utf8 (fromUtf8Lossy bs) = bs then some (fromUtf8Lossy bs) else none

namespace JsonBytes
open JsonText

/-- bytes, each as the character with its number -/
def latin (bs : Bytes) : Str := bs.map fun b => Char.ofNat b.toNat

/-- `parse_str` of `IoRead`, after the opening quotation mark: `scratch` are the bytes of the string so far -/
def string : Nat → Str → Bytes → Option (Str × Str)
  | 0, _, _ => none
  | _ + 1, [], _ => none
  | n + 1, c :: s, scratch =>
      if c = '"' then (fromUtf8 scratch).map fun t => (t, s)
      else if c = '\\' then
        match escape s with
        | none => none
        | some (d, s) => string n s (scratch ++ utf8Char d)
      else if c.toNat < 32 then none
      else string n s (scratch ++ [UInt8.ofNat c.toNat])

mutual
/-- `deserialize_any`, as in Model/JsonText.lean -/
def value (fits : Str → Bool) : Nat → Nat → Str → Option (Json × Str)
  | 0, _, _ => none
  | n + 1, depth, s =>
      match skipWs s with
      | [] => none
      | c :: s =>
          if c = 'n' then (word (lit "ull") s).map fun r => (.null, r)
          else if c = 't' then (word (lit "rue") s).map fun r => (.bool true, r)
          else if c = 'f' then (word (lit "alse") s).map fun r => (.bool false, r)
          else if c = '"' then (string n s []).map fun (t, r) => (.str t, r)
          else if c = '[' then
            if depth ≤ 1 then none
            else if (skipWs s).head? = some ']' then some (.arr [], (skipWs s).tail)
            else (items fits n (depth - 1) s).map fun (xs, r) => (.arr xs, r)
          else if c = '{' then
            if depth ≤ 1 then none
            else if (skipWs s).head? = some '}' then some (.obj [], (skipWs s).tail)
            else (entries fits n (depth - 1) s).map fun (fs, r) => (.obj fs, r)
          else number fits (c :: s)
/-- `SeqAccess`: values with commas between them, up to the closing bracket -/
def items (fits : Str → Bool) : Nat → Nat → Str → Option (List Json × Str)
  | 0, _, _ => none
  | n + 1, depth, s =>
      match value fits n depth s with
      | none => none
      | some (x, s) =>
          match skipWs s with
          | [] => none
          | c :: s =>
              if c = ',' then (items fits n depth s).map fun (xs, r) => (x :: xs, r)
              else if c = ']' then some ([x], s) else none
/-- `MapAccess`: keys and values, up to the closing brace -/
def entries (fits : Str → Bool) : Nat → Nat → Str → Option (List (Str × Json) × Str)
  | 0, _, _ => none
  | n + 1, depth, s =>
      match skipWs s with
      | [] => none
      | c :: s =>
          if c ≠ '"' then none
          else match string n s [] with
            | none => none
            | some (k, s) =>
                match skipWs s with
                | [] => none
                | c :: s =>
                    if c ≠ ':' then none
                    else match value fits n depth s with
                      | none => none
                      | some (x, s) =>
                          match skipWs s with
                          | [] => none
                          | c :: s =>
                              if c = ',' then (entries fits n depth s).map fun (fs, r) => ((k, x) :: fs, r)
                              else if c = '}' then some ([(k, x)], s) else none
end

/-- contract.rs:53-82: `next_element` reads one element and deserialises it before the next one is read -/
def loadLoop (fits : Str → Bool) : Nat → Str → Contract → Res (Contract × Str)
  | 0, _, _ => .err .serdeJson
  | n + 1, s, c =>
      match value fits (fuel s) 127 s with
      | none => .err .serdeJson
      | some (j, s) => do
          let op ← deOperation j
          match skipWs s with
          | [] => .err .serdeJson
          | d :: s =>
              if d = ',' then loadLoop fits n s (c.add op)
              else if d = ']' then .ok (c.add op, s) else .err .serdeJson

/-- ethabi/src/contract.rs:140-142 `Contract::load`, on bytes.  The first byte that is no white space must be `[`; behind the closing
bracket there may be white space only. -/
def load (fits : Str → Bool) (bs : Bytes) : Res Contract :=
  match skipWs (latin bs) with
  | [] => .err .serdeJson
  | d :: s =>
      if d ≠ '[' then .err .serdeJson
      else do
        let (c, r) ← if (skipWs s).head? = some ']' then .ok ({}, (skipWs s).tail) else loadLoop fits s.length s {}
        if skipWs r = [] then .ok c else .err .serdeJson

end JsonBytes

/-- cli/src/main.rs:96-97, 129-130 and derive/src/lib.rs:38-40: `File::open` and `Contract::load`, on a file of bytes -/
def loadBytes (fits : Str → Bool) (file : Str → Option Bytes) (path : Str) : Res Contract :=
  match file path with
  | none => .err .other
  | some bs => JsonBytes.load fits bs

/-- cli/src/main.rs:73-93 `execute`, on files of bytes -/
def executeBytes (hash : Bytes → Word) (parseHash : Str → Res Word) (prof : Profile) (fits : Str → Bool) (file : Str → Option Bytes) :
    Command → Res Str
  | .encodeFunction path name params lenient => do
      let contract ← loadBytes fits file path
      let function ← selectFunction contract name
      encodeInputOf hash prof function params lenient
  | .encodeParams params lenient => cliEncodeParams prof params lenient
  | .decodeFunction path name data => do
      let contract ← loadBytes fits file path
      let function ← selectFunction contract name
      decodeOutputOf prof function data
  | .decodeParams types data => cliDecodeParams prof types data
  | .decodeLog path name topics data => do
      let contract ← loadBytes fits file path
      let event ← selectEvent hash contract name
      decodeLogOf hash parseHash prof event topics data

/-- derive/src/lib.rs:34-43 `impl_ethabi_derive`, on files of bytes; `manifestDir` is the variable CARGO_MANIFEST_DIR -/
def implEthabiDeriveBytes (nm : Naming) (fits : Str → Bool) (manifestDir : Option Str) (file : Str → Option Bytes)
    (attrs : List Attribute) : Res Code := do
  let options ← getOptions attrs (lit "ethabi_contract_options")
  let path ← getOption options (lit "path")
  let normalized ← normalizePath { manifestDir := manifestDir, file := fun _ => none } path
  let contract ← loadBytes fits file normalized
  generateContract nm contract

/-- derive/src/lib.rs:27-32 `ethabi_derive` after `syn::parse` of the item, on files of bytes -/
def ethabiDeriveBytes (nm : Naming) (fits : Str → Bool) (manifestDir : Option Str) (file : Str → Option Bytes)
    (attrs : List Attribute) : Res Code :=
  match implEthabiDeriveBytes nm fits manifestDir file attrs with
  | .ok code => .ok code
  | _ => .panic

end Ethabi

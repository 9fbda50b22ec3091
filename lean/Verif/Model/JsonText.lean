import Verif.Model.Contract
import Verif.Model.Hex
/-!
# JSON texts: `serde_json`

ethabi/src/contract.rs:140-142 reads an ABI with `serde_json::from_reader`.  The source of the crate is not in the repository; what
follows is its published behaviour (version 1, without optional features): the grammar of RFC 8259, strings with paired surrogates
only, at most 127 nested arrays and objects.

Texts are sequences of characters; files of bytes, UTF-8 or not, are in Model/JsonBytes.lean.  All errors of the crate are `Error::SerdeJson`.  Which
numbers are out of the range of `f64`, and therefore rejected, is a parameter `fits`.
-/
namespace Ethabi.JsonText

/-- white space: `parse_whitespace` -/
def isWs (c : Char) : Bool := c = ' ' || c = '\n' || c = '\t' || c = '\r'

/-- `parse_whitespace`: the text behind the white space at its start -/
def skipWs (s : Str) : Str := s.dropWhile isWs

/-- `decode_hex_escape`: four hexadecimal digits -/
def hex4 : Str → Option (Nat × Str)
  | a :: b :: c :: d :: s =>
      match hexVal a, hexVal b, hexVal c, hexVal d with
      | some w, some x, some y, some z => some (((w * 16 + x) * 16 + y) * 16 + z, s)
      | _, _, _, _ => none
  | _ => none

/-- the escapes of one character -/
def shortEscape (c : Char) : Option Char :=
  if c = '"' then some '"' else if c = '\\' then some '\\' else if c = '/' then some '/'
  else if c = 'b' then some (Char.ofNat 8) else if c = 'f' then some (Char.ofNat 12) else if c = 'n' then some '\n'
  else if c = 'r' then some '\r' else if c = 't' then some '\t' else none

/-- `parse_escape`, after the backslash -/
def escape : Str → Option (Char × Str)
  | [] => none
  | c :: s =>
      if c = 'u' then
        match hex4 s with
        | none => none
        | some (n, s) =>
            if 0xDC00 ≤ n ∧ n ≤ 0xDFFF then none
            else if 0xD800 ≤ n ∧ n ≤ 0xDBFF then
              match s with
              | '\\' :: 'u' :: s =>
                  match hex4 s with
                  | none => none
                  | some (m, s) =>
                      if 0xDC00 ≤ m ∧ m ≤ 0xDFFF then some (Char.ofNat ((n - 0xD800) * 0x400 + (m - 0xDC00) + 0x10000), s) else none
              | _ => none
            else some (Char.ofNat n, s)
      else (shortEscape c).map fun d => (d, s)

/-- `parse_str`, after the opening quotation mark: the string and the text behind the closing one.  Control characters are errors. -/
def string : Nat → Str → Option (Str × Str)
  | 0, _ => none
  | _ + 1, [] => none
  | n + 1, c :: s =>
      if c = '"' then some ([], s)
      else if c = '\\' then
        match escape s with
        | none => none
        | some (d, s) => (string n s).map fun (t, r) => (d :: t, r)
      else if c.toNat < 32 then none
      else (string n s).map fun (t, r) => (c :: t, r)

/-- at least one digit -/
def digits (s : Str) : Option (Str × Str) :=
  if (s.takeWhile isDigit).isEmpty then none else some (s.takeWhile isDigit, s.dropWhile isDigit)

/-- `.` and digits, if there is a `.` -/
def fraction : Str → Option (Str × Str)
  | '.' :: s => (digits s).map fun (ds, r) => ('.' :: ds, r)
  | s => some ([], s)

/-- the sign of an exponent, if there is one -/
def expSign : Str → Str × Str
  | '+' :: s => (['+'], s)
  | '-' :: s => (['-'], s)
  | s => ([], s)

/-- `e` or `E`, a sign or none, and digits, if there is an `e` or `E` -/
def exponent : Str → Option (Str × Str)
  | c :: s =>
      if c = 'e' || c = 'E' then (digits (expSign s).2).map fun (ds, r) => (c :: (expSign s).1 ++ ds, r)
      else some ([], c :: s)
  | [] => some ([], [])

/-- `parse_integer`, `parse_number`, `parse_decimal`, `parse_exponent`: the text of a number without its sign, and its whole part;
no zeros in front. -/
def unsigned (s : Str) : Option (Str × Nat × Str) := do
  let (ds, s) ← digits s
  if ds.head? = some '0' ∧ ds.length ≠ 1 then none
  else
    let (fs, s) ← fraction s
    let (es, s) ← exponent s
    some (ds ++ fs ++ es, digitsVal ds, s)

/-- numbers.  Their values are not used by the crate; the model keeps the whole part. -/
def number (fits : Str → Bool) : Str → Option (Json × Str)
  | '-' :: s => (unsigned s).bind fun (t, n, r) => if fits ('-' :: t) then some (.num (-n), r) else none
  | s => (unsigned s).bind fun (t, n, r) => if fits t then some (.num n, r) else none

/-- a given word -/
def word : Str → Str → Option Str
  | [], s => some s
  | _ :: _, [] => none
  | w :: ws, c :: s => if c = w then word ws s else none

mutual
/-- `deserialize_any`: the value at the start of the text, and the text behind it.  `depth` is `remaining_depth`; an array or object
takes one of it and must leave some.  The first argument is for the termination of the model only. -/
def value (fits : Str → Bool) : Nat → Nat → Str → Option (Json × Str)
  | 0, _, _ => none
  | n + 1, depth, s =>
      match skipWs s with
      | [] => none
      | c :: s =>
          if c = 'n' then (word (lit "ull") s).map fun r => (.null, r)
          else if c = 't' then (word (lit "rue") s).map fun r => (.bool true, r)
          else if c = 'f' then (word (lit "alse") s).map fun r => (.bool false, r)
          else if c = '"' then (string n s).map fun (t, r) => (.str t, r)
          else if c = '[' then
            if depth ≤ 1 then none
            else if (skipWs s).head? = some ']' then some (.arr [], (skipWs s).tail)
            else (items fits n (depth - 1) s).map fun (xs, r) => (.arr xs, r)
          else if c = '{' then
            if depth ≤ 1 then none
            else if (skipWs s).head? = some '}' then some (.obj [], (skipWs s).tail)
            else (entries fits n (depth - 1) s).map fun (fs, r) => (.obj fs, r)
          else number fits (c :: s)
/-- `SeqAccess`: values with commas between them, up to the closing bracket -/
def items (fits : Str → Bool) : Nat → Nat → Str → Option (List Json × Str)
  | 0, _, _ => none
  | n + 1, depth, s =>
      match value fits n depth s with
      | none => none
      | some (x, s) =>
          match skipWs s with
          | [] => none
          | c :: s =>
              if c = ',' then (items fits n depth s).map fun (xs, r) => (x :: xs, r)
              else if c = ']' then some ([x], s) else none
/-- `MapAccess`: keys and values, up to the closing brace -/
def entries (fits : Str → Bool) : Nat → Nat → Str → Option (List (Str × Json) × Str)
  | 0, _, _ => none
  | n + 1, depth, s =>
      match skipWs s with
      | [] => none
      | c :: s =>
          if c ≠ '"' then none
          else match string n s with
            | none => none
            | some (k, s) =>
                match skipWs s with
                | [] => none
                | c :: s =>
                    if c ≠ ':' then none
                    else match value fits n depth s with
                      | none => none
                      | some (x, s) =>
                          match skipWs s with
                          | [] => none
                          | c :: s =>
                              if c = ',' then (entries fits n depth s).map fun (fs, r) => ((k, x) :: fs, r)
                              else if c = '}' then some ([(k, x)], s) else none
end

/-- enough for every text of this length -/
def fuel (s : Str) : Nat := 2 * s.length + 2

/-- `serde_json::from_str` of a value without demands on its shape: one value, white space around it -/
def parse (fits : Str → Bool) (s : Str) : Option Json :=
  match value fits (fuel s) 128 s with
  | some (j, r) => if skipWs r = [] then some j else none
  | none => none

/-- contract.rs:53-82 on a text: `next_element` reads the text of one element and deserialises it before the next one is read.
`c` is the contract so far; the text starts at an element. -/
def loadLoop (fits : Str → Bool) : Nat → Str → Contract → Res (Contract × Str)
  | 0, _, _ => .err .serdeJson
  | n + 1, s, c =>
      match value fits (fuel s) 127 s with
      | none => .err .serdeJson
      | some (j, s) => do
          let op ← deOperation j
          match skipWs s with
          | [] => .err .serdeJson
          | d :: s =>
              if d = ',' then loadLoop fits n s (c.add op)
              else if d = ']' then .ok (c.add op, s) else .err .serdeJson

/-- ethabi/src/contract.rs:140-142 `Contract::load`, on a text.  A text that does not start with `[` is not an array and is refused by
the visitor, whatever follows. -/
def load (fits : Str → Bool) (s : Str) : Res Contract :=
  match skipWs s with
  | [] => .err .serdeJson
  | d :: s =>
      if d ≠ '[' then .err .serdeJson
      else do
        let (c, r) ← if (skipWs s).head? = some ']' then .ok ({}, (skipWs s).tail) else loadLoop fits s.length s {}
        if skipWs r = [] then .ok c else .err .serdeJson

end Ethabi.JsonText

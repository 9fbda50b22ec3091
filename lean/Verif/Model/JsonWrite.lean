import Verif.Model.Json
/-!
# Writing JSON texts

`serde_json::to_string`: the compact writer.  The library leaves the choice of the writer to its user (ethabi/src/contract.rs:84-136
is generic in the serializer); its own tests use this one (ethabi/src/tests.rs:22-29).
-/
namespace Ethabi.JsonText

/-- lower case hexadecimal digit -/
def hexDigit (n : Nat) : Char := "0123456789abcdef".toList.getD n '0'

/-- one character of a string (`format_escaped_str_contents`) -/
def writeChar (c : Char) : Str :=
  if c = '"' then lit "\\\""
  else if c = '\\' then lit "\\\\"
  else if c.toNat = 8 then lit "\\b"
  else if c.toNat = 9 then lit "\\t"
  else if c.toNat = 10 then lit "\\n"
  else if c.toNat = 12 then lit "\\f"
  else if c.toNat = 13 then lit "\\r"
  else if c.toNat < 32 then lit "\\u00" ++ [hexDigit (c.toNat / 16), hexDigit (c.toNat % 16)]
  else [c]

/-- a string with its quotation marks -/
def writeStr (s : Str) : Str := '"' :: (s.flatMap writeChar ++ ['"'])

/-- an integer -/
def writeInt : Int → Str
  | .ofNat n => natText n
  | .negSucc n => '-' :: natText (n + 1)

mutual
/-- a value, without white space -/
def write : Json → Str
  | .null => lit "null"
  | .bool b => if b then lit "true" else lit "false"
  | .num n => writeInt n
  | .str s => writeStr s
  | .arr xs => '[' :: (writeItems xs ++ [']'])
  | .obj fs => '{' :: (writeEntries fs ++ ['}'])
/-- the elements of an array with commas between them -/
def writeItems : List Json → Str
  | [] => []
  | [x] => write x
  | x :: y :: xs => write x ++ ',' :: writeItems (y :: xs)
/-- the entries of an object with commas between them -/
def writeEntries : List (Str × Json) → Str
  | [] => []
  | [(k, x)] => writeStr k ++ ':' :: write x
  | (k, x) :: f :: fs => writeStr k ++ ':' :: (write x ++ ',' :: writeEntries (f :: fs))
end

end Ethabi.JsonText

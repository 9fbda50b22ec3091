import Verif.Model.Contract
/-!
# Specification: JSON texts

The grammar of RFC 8259 as a relation between values and texts, without a parser.  Objects keep the order of their entries and
repeated keys.  Of numbers only the whole part is kept.
-/
namespace Ethabi.JsonGrammar

/-- white space -/
def Blank (w : Str) : Prop := ∀ c ∈ w, c = ' ' ∨ c = '\n' ∨ c = '\t' ∨ c = '\r'

/-- `c` is a hexadecimal digit for `v` -/
def HexDigit (c : Char) (v : Nat) : Prop :=
  "0123456789abcdef".toList[v]? = some c ∨ "0123456789ABCDEF".toList[v]? = some c

/-- four hexadecimal digits for `n` -/
inductive Hex4 : Nat → Str → Prop
  | mk {a b c d : Char} {w x y z : Nat} (ha : HexDigit a w) (hb : HexDigit b x) (hc : HexDigit c y) (hd : HexDigit d z) :
      Hex4 (4096 * w + 256 * x + 16 * y + z) [a, b, c, d]

/-- a backslash and the first character stand for the second one -/
def shorts : List (Char × Char) :=
  [('"', '"'), ('\\', '\\'), ('/', '/'), ('b', Char.ofNat 8), ('f', Char.ofNat 12), ('n', '\n'), ('r', '\r'), ('t', '\t')]

/-- the ways to write a character in a string -/
inductive Escaped : Char → Str → Prop
  | plain {c : Char} (h1 : c ≠ '"') (h2 : c ≠ '\\') (h3 : 32 ≤ c.toNat) : Escaped c [c]
  | short {e c : Char} (h : (e, c) ∈ shorts) : Escaped c ['\\', e]
  | code {n : Nat} {h : Str} (hh : Hex4 n h) (hn : n < 0xD800 ∨ 0xDFFF < n) : Escaped (Char.ofNat n) ('\\' :: 'u' :: h)
  | pair {n m : Nat} {h k : Str} (hh : Hex4 n h) (hk : Hex4 m k) (hn : 0xD800 ≤ n ∧ n ≤ 0xDBFF) (hm : 0xDC00 ≤ m ∧ m ≤ 0xDFFF) :
      Escaped (Char.ofNat (0x10000 + 0x400 * (n - 0xD800) + (m - 0xDC00))) ('\\' :: 'u' :: h ++ '\\' :: 'u' :: k)

/-- the ways to write a string, without its quotation marks -/
inductive Chars : Str → Str → Prop
  | nil : Chars [] []
  | cons {c : Char} {t e s : Str} (h : Escaped c e) (ht : Chars t s) : Chars (c :: t) (e ++ s)

/-- one or more digits -/
def Digits (s : Str) : Prop := s ≠ [] ∧ ∀ c ∈ s, c ∈ "0123456789".toList

/-- digits without zeros in front -/
def Whole (s : Str) : Prop := s = ['0'] ∨ (Digits s ∧ s.head? ≠ some '0')

/-- nothing, or a point and digits -/
def Fraction (s : Str) : Prop := s = [] ∨ ∃ d, Digits d ∧ s = '.' :: d

/-- nothing, or `e` or `E`, a sign or none, and digits -/
def Exponent (s : Str) : Prop :=
  s = [] ∨ ∃ e sign d, (e = 'e' ∨ e = 'E') ∧ (sign = [] ∨ sign = ['+'] ∨ sign = ['-']) ∧ Digits d ∧ s = e :: sign ++ d

/-- numbers -/
inductive Number : Int → Str → Prop
  | plus {w f e : Str} (hw : Whole w) (hf : Fraction f) (he : Exponent e) : Number (digitsVal w) (w ++ f ++ e)
  | minus {w f e : Str} (hw : Whole w) (hf : Fraction f) (he : Exponent e) : Number (-(digitsVal w)) ('-' :: (w ++ f ++ e))

mutual
/-- The texts of a value, without white space around them, in which at most `d` arrays and objects are nested; `fits` are the texts of
numbers that are allowed. -/
inductive Value (fits : Str → Bool) : Nat → Json → Str → Prop
  | null (d : Nat) : Value fits d .null "null".toList
  | true (d : Nat) : Value fits d (.bool Bool.true) "true".toList
  | false (d : Nat) : Value fits d (.bool Bool.false) "false".toList
  | number {d : Nat} {n : Int} {s : Str} (h : Number n s) (hf : fits s = Bool.true) : Value fits d (.num n) s
  | string {d : Nat} {t s : Str} (h : Chars t s) : Value fits d (.str t) ('"' :: (s ++ ['"']))
  | noItems {d : Nat} {w : Str} (h : Blank w) : Value fits (d + 1) (.arr []) ('[' :: (w ++ [']']))
  | array {d : Nat} {xs : List Json} {s : Str} (h : Items fits d xs s) : Value fits (d + 1) (.arr xs) ('[' :: (s ++ [']']))
  | noEntries {d : Nat} {w : Str} (h : Blank w) : Value fits (d + 1) (.obj []) ('{' :: (w ++ ['}']))
  | object {d : Nat} {fs : List (Str × Json)} {s : Str} (h : Entries fits d fs s) : Value fits (d + 1) (.obj fs) ('{' :: (s ++ ['}']))
/-- one or more values with commas between them -/
inductive Items (fits : Str → Bool) : Nat → List Json → Str → Prop
  | one {d : Nat} {x : Json} {a s b : Str} (ha : Blank a) (h : Value fits d x s) (hb : Blank b) : Items fits d [x] (a ++ (s ++ b))
  | more {d : Nat} {x : Json} {xs : List Json} {a s b t : Str} (ha : Blank a) (h : Value fits d x s) (hb : Blank b)
      (ht : Items fits d xs t) : Items fits d (x :: xs) (a ++ (s ++ (b ++ ',' :: t)))
/-- one or more entries with commas between them -/
inductive Entries (fits : Str → Bool) : Nat → List (Str × Json) → Str → Prop
  | one {d : Nat} {k : Str} {x : Json} {a q b c s e : Str} (ha : Blank a) (hk : Chars k q) (hb : Blank b) (hc : Blank c)
      (h : Value fits d x s) (he : Blank e) : Entries fits d [(k, x)] (a ++ '"' :: (q ++ '"' :: (b ++ ':' :: (c ++ (s ++ e)))))
  | more {d : Nat} {k : Str} {x : Json} {fs : List (Str × Json)} {a q b c s e t : Str} (ha : Blank a) (hk : Chars k q)
      (hb : Blank b) (hc : Blank c) (h : Value fits d x s) (he : Blank e) (ht : Entries fits d fs t) :
      Entries fits d ((k, x) :: fs) (a ++ '"' :: (q ++ '"' :: (b ++ ':' :: (c ++ (s ++ (e ++ ',' :: t))))))
end

/-- a text of a value: white space around it, at most 127 arrays and objects nested -/
def Text (fits : Str → Bool) (j : Json) (s : Str) : Prop :=
  ∃ a v b, Blank a ∧ Value fits 127 j v ∧ Blank b ∧ s = a ++ (v ++ b)

/-- the texts of values each followed by a comma: what stands before a later element of an array that is an ABI -/
inductive Begun (fits : Str → Bool) : List Json → Str → Prop
  | nil : Begun fits [] []
  | cons {x : Json} {xs : List Json} {a s b t : Str} (ha : Blank a) (h : Value fits 126 x s) (hb : Blank b) (ht : Begun fits xs t) :
      Begun fits (x :: xs) (a ++ (s ++ (b ++ ',' :: t)))

mutual
/-- how many arrays and objects are nested -/
def nest : Json → Nat
  | .arr xs => nestItems xs + 1
  | .obj fs => nestEntries fs + 1
  | _ => 0
def nestItems : List Json → Nat
  | [] => 0
  | x :: xs => max (nest x) (nestItems xs)
def nestEntries : List (Str × Json) → Nat
  | [] => 0
  | (_, x) :: fs => max (nest x) (nestEntries fs)
end

mutual
/-- `p` holds for all numbers -/
def NumbersAre (p : Int → Prop) : Json → Prop
  | .num n => p n
  | .arr xs => NumbersAreItems p xs
  | .obj fs => NumbersAreEntries p fs
  | _ => True
def NumbersAreItems (p : Int → Prop) : List Json → Prop
  | [] => True
  | x :: xs => NumbersAre p x ∧ NumbersAreItems p xs
def NumbersAreEntries (p : Int → Prop) : List (Str × Json) → Prop
  | [] => True
  | (_, x) :: fs => NumbersAre p x ∧ NumbersAreEntries p fs
end

mutual
/-- how many objects and arrays are nested in the JSON of a parameter: one object, and for a tuple the array of its members -/
def layers : ParamType → Nat
  | .array t => layers t
  | .fixedArray t _ => layers t
  | .tuple ts => mostLayers ts + 2
  | _ => 1
def mostLayers : List ParamType → Nat
  | [] => 0
  | t :: ts => max (layers t) (mostLayers ts)
end

/-- `t` is the type of a parameter declared in the contract -/
def Declares (c : Contract) (t : ParamType) : Prop :=
  (∃ k p, c.constructor = some k ∧ p ∈ k.inputs ∧ p.kind = t) ∨
  (∃ e f p, e ∈ c.functions ∧ f ∈ e.2 ∧ p ∈ f.inputs ++ f.outputs ∧ p.kind = t) ∨
  (∃ e f p, e ∈ c.events ∧ f ∈ e.2 ∧ p ∈ f.inputs ∧ p.kind = t)

end Ethabi.JsonGrammar

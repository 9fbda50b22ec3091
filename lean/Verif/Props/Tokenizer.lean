import Verif.Proofs.TokenizeNumbers
import Verif.Proofs.TokenizeShow
import Verif.Proofs.TokenizeTypes
/-!
# C43–C50, C57: text and tokens

`tokenize m p s` models `StrictTokenizer::tokenize` / `LenientTokenizer::tokenize`; `Token.display` models `Display`.
-/
namespace Ethabi.Props
open Ethabi Spec

/-! ## C43 hex text round trip -/

/-- **C43**: for values built from addresses, byte strings, bools and arrays of them (any nesting, either tokenizer)
the display text tokenizes back to the value.  Only one-element arrays holding an empty byte string are left out. -/
theorem C43_round_trip (m : Tokenizer) (t : Token) (p : ParamType) (h : arrayShown t p = true) :
    tokenize m p t.display = .ok t := (arrayShown_ok m t p h).2

/-- The exception is real: the array of one empty byte string prints as `[]` and reads back as the empty array. -/
theorem C43_empty_element (m : Tokenizer) :
    tokenize m (.array .bytes) (Token.array [.bytes []]).display = .ok (.array []) := by cases m <;> decide

/-- any string at top level reads back -/
theorem C43_string (m : Tokenizer) (s : Str) : tokenize m .string (Token.string s).display = .ok (.string s) := rfl

example : arrayShown (.array [.fixedArray [.bytes [1, 0xab], .bytes []], .fixedArray [.bytes [], .bytes [255]]])
    (.array (.fixedArray .bytes 2)) = true := by decide +kernel
example : (Token.array [.fixedArray [.bytes [1, 0xab], .bytes []], .fixedArray [.bytes [], .bytes [255]]]).display =
    lit "[[01ab,],[,ff]]" := by decide +kernel

/-- **C57**: the same for (nested) tuples of addresses, byte strings and bools. -/
theorem C57_tuple_round_trip (m : Tokenizer) (t : Token) (p : ParamType) (h : tupleShown t p = true) :
    tokenize m p t.display = .ok t := (tupleShown_ok m t p h).2

example : tupleShown (.tuple [.bool true, .tuple [.bytes [1], .fixedBytes [2, 3]], .bool false])
    (.tuple [.bool, .tuple [.bytes, .fixedBytes 2], .bool]) = true := by decide +kernel

/-- **C57** does not extend to arrays of tuples or tuples of arrays: the text of `[(true,false)]` and of
`([true,false])` is split at the inner comma and rejected. -/
theorem C57_mixed_fail (m : Tokenizer) :
    tokenize m (.array (.tuple [.bool, .bool])) (Token.array [.tuple [.bool true, .bool false]]).display =
      .err .invalidData ∧
    tokenize m (.tuple [.array .bool]) (Token.tuple [.array [.bool true, .bool false]]).display = .err .invalidData := by
  cases m <;> decide

/-! ## C44 lenient uint -/

/-- **C44**, every text: exactly 64 hexadecimal digits are read as hexadecimal. -/
theorem C44_hex (bits : Nat) (s : Str) (v : Nat) (hl : s.length = 64) (hv : hexadecimal s = some v) :
    tokenize .lenient (.uint bits) s = .ok (.uint (BitVec.ofNat 256 v)) := tokenize_hex_uint .lenient bits s v hl hv

/-- **C44**, every other text: the decimal value if all characters are digits and it is below `2^256`, otherwise an
error. -/
theorem C44_decimal (bits : Nat) (s : Str) (h : isFullHex s = false) :
    tokenize .lenient (.uint bits) s = match decimal s with
      | some v => if v < 2 ^ 256 then .ok (.uint (BitVec.ofNat 256 v)) else .err .other
      | none => .err .other := tokenize_lenient_uint bits s h

/-- **C44** for the decimal text of a number.  Missing from the full claim: numbers with exactly 64 digits. -/
theorem C44_number_partial (bits n : Nat) (hn : n < 2 ^ 256) (h64 : ¬ (10 ^ 63 ≤ n ∧ n < 10 ^ 64)) :
    tokenize .lenient (.uint bits) (toString n).toList = .ok (.uint (BitVec.ofNat 256 n)) := by
  rw [C44_decimal _ _ (text_not_full h64), decimal_text]
  simp only [if_pos hn]

/-- **C44**: decimal text of a number that does not fit is rejected. -/
theorem C44_too_big (bits n : Nat) (hn : 2 ^ 256 ≤ n) :
    tokenize .lenient (.uint bits) (toString n).toList = .err .other := by
  rw [C44_decimal _ _ (text_not_full (by omega)), decimal_text]
  simp only [if_neg (Nat.not_lt.2 hn)]

/-- **C44**: a text that is not 64 hexadecimal digits and has a character that is not a digit is rejected. -/
theorem C44_non_digit (bits : Nat) (s : Str) (h : isFullHex s = false)
    (hc : ∃ c ∈ s, c ∉ ['0', '1', '2', '3', '4', '5', '6', '7', '8', '9']) :
    tokenize .lenient (.uint bits) s = .err .other := by
  rw [C44_decimal _ _ h, decimal_eq, if_neg]
  intro hd
  obtain ⟨c, hc, hn⟩ := hc
  have h1 := List.all_eq_true.1 hd c hc
  have h2 := decDigit_eq c
  rw [if_pos h1, decDigit, List.idxOf?_eq_none_iff.2 hn] at h2
  cases h2

/-- The full claim is false: the decimal text of `10^63` (64 digits) is read as the hexadecimal number `16^63`. -/
theorem C44_false : tokenize .lenient (.uint 256) (toString (10 ^ 63)).toList = .ok (.uint (BitVec.ofNat 256 (16 ^ 63))) ∧
    (16 : Nat) ^ 63 ≠ 10 ^ 63 ∧ (16 : Nat) ^ 63 < 2 ^ 256 := by
  refine ⟨?_, by decide +kernel, by decide +kernel⟩
  refine C44_hex 256 _ _ ((text_length _).2 (by decide +kernel)) ?_
  have e : (toString (10 ^ 63)).toList = '1' :: List.replicate 63 '0' := by decide +kernel
  rw [e]; decide +kernel

example : ¬ (10 ^ 63 ≤ 2 ^ 256 - 1 ∧ 2 ^ 256 - 1 < 10 ^ 64) ∧ isFullHex (lit "12a") = false ∧
    decimal (lit "0042") = some 42 ∧ hexadecimal (lit "fF") = some 255 := by decide +kernel
example : tokenize .lenient (.uint 256) (lit "") = .ok (.uint 0) := by decide +kernel

/-! ## C45 lenient int -/

/-- **C45**, every text: exactly 64 hexadecimal digits are read as the two's complement bit pattern. -/
theorem C45_hex (bits : Nat) (s : Str) (v : Nat) (hl : s.length = 64) (hv : hexadecimal s = some v) :
    tokenize .lenient (.int bits) s = .ok (.int (BitVec.ofNat 256 v)) := tokenize_hex_int .lenient bits s v hl hv

/-- **C45**, every other text: the signed decimal value if it is in `[-2^255, 2^255)`, otherwise an error. -/
theorem C45_decimal (bits : Nat) (s : Str) (h : isFullHex s = false) :
    tokenize .lenient (.int bits) s = match signedDecimal s with
      | some z => if -2 ^ 255 ≤ z ∧ z < 2 ^ 255 then .ok (.int (BitVec.ofInt 256 z)) else .err .other
      | none => .err .other := tokenize_lenient_int bits s h

theorem signedDecimal_text (z : Int) : signedDecimal (toString z).toList = some z := by
  cases z with
  | ofNat n =>
    have e : (toString (Int.ofNat n)).toList = (toString n).toList := rfl
    have hd := decimal_text n
    rw [e]
    unfold signedDecimal
    split
    · rename_i r hr
      rw [hr, decimal_eq] at hd
      simp [isDigit] at hd
    · rw [hd]
  | negSucc n =>
    have e : (toString (Int.negSucc n)).toList = '-' :: (toString (n + 1)).toList := by
      show (String.append "-" (Nat.repr (n + 1))).toList = _
      have : String.append "-" (Nat.repr (n + 1)) = "-" ++ Nat.repr (n + 1) := rfl
      rw [this, String.toList_append]; rfl
    have hd := decimal_text (n + 1)
    rw [e, signedDecimal]
    have hdw : ('-' :: (toString (n + 1)).toList).dropWhile (· == '-') = (toString (n + 1)).toList := by
      rw [List.dropWhile_cons, if_pos (by decide)]
      refine dropWhile_minus ?_
      cases hs : (toString (n + 1)).toList with
      | nil => rfl
      | cons c r =>
        rw [startsWith_minus, decide_eq_false_iff_not]
        rintro rfl
        rw [hs, decimal_eq] at hd
        simp [isDigit] at hd
    rw [hdw, hd]
    rfl

theorem int_text_not_full {z : Int} (h : ¬ (10 ^ 63 ≤ z ∧ z < 10 ^ 64)) : isFullHex (toString z).toList = false := by
  cases z with
  | ofNat n =>
    have e : (toString (Int.ofNat n)).toList = (toString n).toList := rfl
    rw [e]
    refine text_not_full ?_
    have : Int.ofNat n = (n : Int) := rfl
    omega
  | negSucc n =>
    have e : (toString (Int.negSucc n)).toList = '-' :: (toString (n + 1)).toList := by
      show (String.append "-" (Nat.repr (n + 1))).toList = _
      have : String.append "-" (Nat.repr (n + 1)) = "-" ++ Nat.repr (n + 1) := rfl
      rw [this, String.toList_append]; rfl
    rw [e]
    exact minus_not_full _

/-- **C45** for the decimal text of an integer: its two's complement.  Missing from the full claim: numbers written
with exactly 64 digits and no sign. -/
theorem C45_number_partial (bits : Nat) (z : Int) (h1 : -2 ^ 255 ≤ z) (h2 : z < 2 ^ 255)
    (h64 : ¬ (10 ^ 63 ≤ z ∧ z < 10 ^ 64)) :
    ∃ v : U256, tokenize .lenient (.int bits) (toString z).toList = .ok (.int v) ∧ v.toInt = z := by
  refine ⟨BitVec.ofInt 256 z, ?_, ?_⟩
  · rw [C45_decimal _ _ (int_text_not_full h64), signedDecimal_text]
    simp only [if_pos (And.intro h1 h2)]
  · rw [BitVec.toInt_ofInt, Int.bmod_eq_of_le] <;> omega

/-- **C45**: integers outside `[-2^255, 2^255)` are rejected. -/
theorem C45_out_of_range (bits : Nat) (z : Int) (h : z < -2 ^ 255 ∨ 2 ^ 255 ≤ z) :
    tokenize .lenient (.int bits) (toString z).toList = .err .other := by
  rw [C45_decimal _ _ (int_text_not_full (by omega)), signedDecimal_text]
  simp only [if_neg (show ¬ (-2 ^ 255 ≤ z ∧ z < 2 ^ 255) by omega)]

/-- The full claim is false: `10^63` is read as `16^63`. -/
theorem C45_false : tokenize .lenient (.int 256) (toString (10 ^ 63)).toList = .ok (.int (BitVec.ofNat 256 (16 ^ 63))) ∧
    (BitVec.ofNat 256 (16 ^ 63)).toInt ≠ 10 ^ 63 := by
  refine ⟨?_, by decide +kernel⟩
  refine C45_hex 256 _ _ ((text_length _).2 (by decide +kernel)) ?_
  have e : (toString (10 ^ 63)).toList = '1' :: List.replicate 63 '0' := by decide +kernel
  rw [e]; decide +kernel

example : (toString (-5 : Int)).toList = lit "-5" ∧ signedDecimal (lit "---5") = some (-5) ∧
    signedDecimal (lit "-") = some 0 ∧ signedDecimal (lit "1-") = none := by decide +kernel

/-! ## C46 lenient extends strict -/

/-- **C46** -/
theorem C46_lenient_extends_strict (p : ParamType) (s : Str) (t : Token) (h : tokenize .strict p s = .ok t) :
    tokenize .lenient p s = .ok t := lenient_of_strict p s t h

example : tokenize .strict (.fixedArray (.tuple [.bool, .string]) 1) (lit "[(true)]") =
    .ok (.fixedArray [.tuple [.bool true]]) := by decide +kernel
/-- and strictly so -/
example : tokenize .strict (.uint 8) (lit "5") = .err .hex ∧ tokenize .lenient (.uint 8) (lit "5") = .ok (.uint 5) := by
  decide +kernel

/-! ## C47 types -/

/-- **C47**: whatever is accepted passes the type check, for every type and text and both tokenizers. -/
theorem C47_type_checks (m : Tokenizer) (p : ParamType) (s : Str) (t : Token) (h : tokenize m p s = .ok t) :
    t.typeCheck p = .ok true := typeCheck_of_prefixType t p (tokenize_prefixType p s t h)

/-- **C47**: more exactly, the token has the type's shape; only tuples may have too few members. -/
theorem C47_shape (m : Tokenizer) (p : ParamType) (s : Str) (t : Token) (h : tokenize m p s = .ok t) :
    prefixType t p = true := tokenize_prefixType p s t h

/-- **C47**: for types without tuples the token is a value of the type (exact lengths everywhere). -/
theorem C47_has_type (m : Tokenizer) (p : ParamType) (hp : tupleFree p = true) (s : Str) (t : Token)
    (h : tokenize m p s = .ok t) : hasType t p = true := hasType_of_prefixType t p hp (tokenize_prefixType p s t h)

theorem zipCheck_of (m : Tokenizer) : ∀ (ps : List ParamType) (ss : List Str) (ts : List Token),
    List.Forall₂ (fun x t => tokenize m x.1 x.2 = .ok t) (ps.zip ss) ts → ps.length = ss.length →
    Token.zipCheck ps ts = .ok true ∧ ps.length = ts.length
  | [], [], ts, h, _ => by cases h; exact ⟨rfl, rfl⟩
  | [], _ :: _, _, _, h => by cases h
  | _ :: _, [], _, _, h => by cases h
  | p :: ps, s :: ss, ts, h, hl => by
      rw [List.zip_cons_cons] at h
      cases h with
      | cons h1 h2 =>
        obtain ⟨h3, h4⟩ := zipCheck_of m ps ss _ h2 (by simpa using hl)
        refine ⟨?_, by simp [h4]⟩
        rw [Token.zipCheck, C47_type_checks m p s _ h1, Res.ok_bind, if_pos rfl]
        exact h3

/-- **C47**: so an argument list read from text passes the check made by `encode_input`. -/
theorem C47_args (m : Tokenizer) (ps : List ParamType) (ss : List Str) (ts : List Token) (hl : ps.length = ss.length)
    (h : List.Forall₂ (fun x t => tokenize m x.1 x.2 = .ok t) (ps.zip ss) ts) : Token.typesCheck ts ps = .ok true := by
  obtain ⟨h1, h2⟩ := zipCheck_of m ps ss ts h hl
  rw [Token.typesCheck, if_pos (by simp [h2])]
  exact h1

example : tokenize .lenient (.array (.fixedBytes 2)) (lit "[0102,aabb]") =
    .ok (.array [.fixedBytes [1, 2], .fixedBytes [0xaa, 0xbb]]) ∧
    hasType (.array [.fixedBytes [1, 2], .fixedBytes [0xaa, 0xbb]]) (.array (.fixedBytes 2)) = true := by decide +kernel

/-! ## C48 panics -/

/-- **C48** for ASCII text.  Missing from the full claim: other text in arrays and tuples. -/
theorem C48_no_panic_partial (m : Tokenizer) (p : ParamType) (s : Str) (h : isAscii s = true) :
    tokenize m p s ≠ .panic := tokenize_noPanic m p s ((ascii_iff s).1 h)

/-- **C48** for elementary types: every string. -/
theorem C48_no_panic_elementary (m : Tokenizer) (p : ParamType) (s : Str)
    (hp : p ∈ [.address, .bytes, .bool, .string] ∨ ∃ n, p = .int n ∨ p = .uint n ∨ p = .fixedBytes n) :
    tokenize m p s ≠ .panic := by
  refine tokenize_leaf_noPanic m p s ?_
  rcases hp with hp | ⟨n, rfl | rfl | rfl⟩
  · simp only [List.mem_cons, List.not_mem_nil, or_false] at hp
    rcases hp with rfl | rfl | rfl | rfl <;> trivial
  all_goals trivial

/-- The full claim is false: `[é,a]` as `string[]` and `(é,a)` as a tuple panic, because character positions are used
as byte positions. -/
theorem C48_false (m : Tokenizer) : tokenize m (.array .string) (lit "[é,a]") = .panic ∧
    tokenize m (.tuple [.string, .string]) (lit "(é,a)") = .panic := by cases m <;> decide +kernel

example : isAscii (lit "[[1,\"]") = true := by decide

/-! ## C49 splitting arrays -/

/-- **C49**: the elements of `[p1,...,pn]` are exactly the tokens of the pieces, in order, where the pieces are texts
whose commas are all inside brackets or quotes.  Missing from the full claim: non-ASCII text. -/
theorem C49_split_partial (m : Tokenizer) (p : ParamType) (pieces : List Str) (hne : pieces ≠ [])
    (hne2 : pieces ≠ [[]]) (hp : ∀ s ∈ pieces, elementText '[' ']' 0 false s = true)
    (ha : isAscii (listText '[' ']' pieces) = true) (t : Token) :
    tokenize m (.array p) (listText '[' ']' pieces) = .ok t ↔
      ∃ ts, t = .array ts ∧ List.Forall₂ (fun s t => tokenize m p s = .ok t) pieces ts := by
  rw [tokenize, map_eq_ok, tokenizeArray, tokenizePieces_listText square hne hne2 hp ((ascii_iff _).1 ha)]
  constructor
  · rintro ⟨ts, h, rfl⟩; exact ⟨ts, rfl, eachPiece_const.1 h⟩
  · rintro ⟨ts, rfl, h⟩; exact ⟨ts, eachPiece_const.2 h, rfl⟩

/-- **C49** for fixed arrays: also the number of pieces must be the declared length. -/
theorem C49_split_fixed_partial (m : Tokenizer) (p : ParamType) (n : Nat) (pieces : List Str) (hne : pieces ≠ [])
    (hne2 : pieces ≠ [[]]) (hp : ∀ s ∈ pieces, elementText '[' ']' 0 false s = true)
    (ha : isAscii (listText '[' ']' pieces) = true) (t : Token) :
    tokenize m (.fixedArray p n) (listText '[' ']' pieces) = .ok t ↔ pieces.length = n ∧
      ∃ ts, t = .fixedArray ts ∧ List.Forall₂ (fun s t => tokenize m p s = .ok t) pieces ts := by
  rw [tokenize, map_eq_ok, tokenizeFixedArray, tokenizeArray,
    tokenizePieces_listText square hne hne2 hp ((ascii_iff _).1 ha)]
  constructor
  · rintro ⟨ts, h, rfl⟩
    obtain ⟨us, hu, h⟩ := Res.bind_eq_ok.1 h
    have hf := eachPiece_const.1 hu
    split at h
    · rename_i hl
      rw [← Res.ok.inj h]
      exact ⟨by rw [hf.length_eq, hl], us, rfl, hf⟩
    · cases h
  · rintro ⟨hl, ts, rfl, h⟩
    refine ⟨ts, ?_, rfl⟩
    rw [eachPiece_const.2 h, Res.ok_bind, if_pos (by rw [← h.length_eq, hl])]

/-- `[]` is the empty array -/
theorem C49_empty (m : Tokenizer) (p : ParamType) : tokenize m (.array p) (lit "[]") = .ok (.array []) := by
  rw [tokenize, tokenizeArray, tokenizePieces]; rfl

/-- The full claim is false for non-ASCII text: `[éa,bc]` as `string[]` is read as the strings `é` and `,b`. -/
theorem C49_false (m : Tokenizer) : [lit "éa", lit "bc"].all (elementText '[' ']' 0 false) = true ∧
    tokenize m (.array .string) (listText '[' ']' [lit "éa", lit "bc"]) =
      .ok (.array [.string (lit "é"), .string (lit ",b")]) := by cases m <;> decide +kernel

/-- Texts that are not a bracketed list can be accepted: `[a][b]` as `string[]` is read as `a` and `[b`. -/
theorem C49_malformed_accepted (m : Tokenizer) : tokenize m (.array .string) (lit "[a][b]") =
    .ok (.array [.string (lit "a"), .string (lit "[b")]) := by cases m <;> decide +kernel

example : [lit "[1,0]", lit "\"[,\"", lit ""].all (elementText '[' ']' 0 false) = true ∧
    isAscii (listText '[' ']' [lit "[1,0]", lit "\"[,\"", lit ""]) = true ∧
    elementText '[' ']' 0 false (lit "1,0") = false ∧ elementText '[' ']' 0 false (lit "[") = false := by decide

/-! ## C50 tuples -/

/-- **C50**: never more members than declared, and every member was read with its own type.  Missing from the full
claim: never fewer. -/
theorem C50_members_partial (m : Tokenizer) (ps : List ParamType) (s : Str) (t : Token)
    (h : tokenize m (.tuple ps) s = .ok t) : ∃ ts, t = .tuple ts ∧ ts.length ≤ ps.length ∧
      ∀ (i : Nat) u, ts[i]? = some u → ∃ p sub, ps[i]? = some p ∧ tokenize m p sub = .ok u := by
  rw [tokenize, map_eq_ok, tokenizeStruct_eq] at h
  obtain ⟨ts, h, rfl⟩ := h
  have hi := tokenizePieces_inv (fun i u => ∃ p sub, ps[i]? = some p ∧ tokenize m p sub = .ok u) (by
    intro i sub u hu
    rw [memberItem] at hu
    cases hp : ps[i]? with
    | none => rw [hp] at hu; cases hu
    | some p => rw [hp] at hu; exact ⟨p, sub, rfl, hu⟩) h
  refine ⟨ts, rfl, ?_, hi⟩
  by_contra hc
  obtain ⟨p, -, hp, -⟩ := hi ps.length _ (List.getElem?_eq_getElem (by omega))
  simp at hp

/-- **C50** for well-formed text: `(p1,...,pn)` is read member by member; too many members are an error, and the
result has exactly `n` members. -/
theorem C50_split_partial (m : Tokenizer) (ps : List ParamType) (pieces : List Str) (hne : pieces ≠ [])
    (hne2 : pieces ≠ [[]]) (hp : ∀ s ∈ pieces, elementText '(' ')' 0 false s = true)
    (ha : isAscii (listText '(' ')' pieces) = true) (t : Token) :
    tokenize m (.tuple ps) (listText '(' ')' pieces) = .ok t ↔ pieces.length ≤ ps.length ∧
      ∃ ts, t = .tuple ts ∧ List.Forall₂ (fun x t => tokenize m x.1 x.2 = .ok t) (ps.zip pieces) ts := by
  have key := fun ts => eachPiece_members (m := m) (ps := pieces) (i := 0) (qs := ps) (qs' := ps) (ts := ts)
    (by simp) (by simp)
  rw [tokenize, map_eq_ok, tokenizeStruct_eq, tokenizePieces_listText round hne hne2 hp ((ascii_iff _).1 ha)]
  constructor
  · rintro ⟨ts, h, rfl⟩
    obtain ⟨h1, h2⟩ := (key ts).1 h
    exact ⟨h1, ts, rfl, h2⟩
  · rintro ⟨h1, ts, rfl, h2⟩
    exact ⟨ts, (key ts).2 ⟨h1, h2⟩, rfl⟩

/-- The full claim is false: `(1)` is accepted for `(bool,bool)` with one member, and `()` for every tuple type. -/
theorem C50_false (m : Tokenizer) : tokenize m (.tuple [.bool, .bool]) (lit "(1)") = .ok (.tuple [.bool true]) ∧
    ∀ ps, tokenize m (.tuple ps) (lit "()") = .ok (.tuple []) := by
  refine ⟨by cases m <;> decide, ?_⟩
  intro ps
  rw [tokenize, tokenizeStruct, tokenizePieces]; rfl

example : [lit "(1,0)", lit "[1"].all (elementText '(' ')' 0 false) = true ∧
    tokenize .strict (.tuple [.tuple [.bool, .bool], .string]) (lit "((1,0),[1)") =
      .ok (.tuple [.tuple [.bool true, .bool false], .string (lit "[1")]) ∧
    tokenize .strict (.tuple [.bool]) (lit "(1,0)") = .err .invalidData := by decide +kernel

end Ethabi.Props

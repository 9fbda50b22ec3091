import Verif.Proofs.ReaderPanic
import Verif.Proofs.Json
import Verif.Proofs.ReaderExact
/-! # Properties C24–C27: type strings -/
namespace Ethabi.Props
open Spec

/-! ## C24 -/

/-- **C24, partial.** `Reader::read(Writer::write(t)) = Ok(t)`, and the text is the specified one, for every type in the class `readable`: any
nesting of arrays, tuples of tuple-free members, tuples containing (arrays of) such tuples, and tuples whose
members are tuples with one more nested tuple in last position.
Missing: all other tuple nestings; for every one of them the claim is false (`C24_exactly`). -/
theorem C24_type_string_round_trip_partial (t : ParamType) (h : readable t = true) (hu : t.usizeOk = true) :
    write t = (typeName t).toList ∧ read (write t) = .ok t :=
  ⟨write_eq_typeName t, read_readable t h hu⟩

/-- **C24, exactly.** The round trip succeeds for the types in the class `readable` and for no others. -/
theorem C24_exactly (t : ParamType) (hu : t.usizeOk = true) :
    read (write t) = .ok t ↔ readable t = true :=
  ⟨readable_of_read t hu, fun h => read_readable t h hu⟩

/-- `(bool,(string,(int8),bool))` is not in the class, nor is any tuple with a member `()` -/
example : readable (.tuple [.bool, .tuple [.string, .tuple [.int 8], .bool]]) = false ∧
    readable (.tuple [.bool, .tuple []]) = false := by decide

/-- **C24** in full for types without tuples, any array nesting. -/
theorem C24_tuple_free (t : ParamType) (h : tupleFree t = true) (hu : t.usizeOk = true) :
    read (write t) = .ok t := read_write_tupleFree t h hu

/-- a type in the class: `(uint8[2],(bool,(string[],int8)[3]),(bool)[])[4][]` -/
example : readable (.array (.fixedArray (.tuple [.fixedArray (.uint 8) 2,
      .tuple [.bool, .fixedArray (.tuple [.array .string, .int 8]) 3], .array (.tuple [.bool])]) 4)) = true := by
  decide

/-- An empty inner tuple is dropped. -/
theorem C24_counterexample_empty : write (.tuple [.tuple []]) = lit "(())" ∧ read (lit "(())") = .ok (.tuple []) := by
  decide +kernel

/-- Four levels of tuples lose one level. -/
theorem C24_counterexample_depth :
    read (write (.tuple [.tuple [.tuple [.tuple [.bool]]]])) = .ok (.tuple [.tuple [.tuple [.bool]]]) := by
  decide +kernel

/-- A member after a doubly nested tuple makes parsing fail. -/
theorem C24_counterexample_error :
    read (write (.tuple [.address, .tuple [.bool, .tuple [.bool, .uint 256], .bool]]))
      ≠ .ok (.tuple [.address, .tuple [.bool, .tuple [.bool, .uint 256], .bool]]) ∧
    read (write (.tuple [.address, .tuple [.bool, .tuple [.bool, .uint 256], .bool]])) ≠ .panic := by
  decide +kernel

/-- Members of one inner tuple leak into a later one: a wrong type is returned without an error. -/
theorem C24_counterexample_leak :
    read (write (.tuple [.tuple [.bool, .uint 256], .tuple [.address, .tuple [.string]]]))
      = .ok (.tuple [.tuple [.bool, .uint 256], .tuple [.bool, .address, .tuple [.string]]]) := by
  decide +kernel

/-! ## C25 -/

/-- **C25.** The ABI-JSON type string of any type reads back as the type with its innermost tuple emptied; adding
the components gives the type back. -/
theorem C25_abi_type_string (t : ParamType) (hu : t.usizeOk = true) :
    ∃ e, read (writeForAbi false t) = .ok e ∧ emptied t = e ∧
      setTupleComponents e (innerTuple t) = .ok t := by
  refine ⟨_, read_writeForAbi t (sizesFit_of_usizeOk t hu), ?_, ?_⟩
  · exact emptied_eq t
  · exact setTupleComponents_erase t

/-- **C25.** The string itself: `tuple` in place of the member list. -/
theorem C25_text (t : ParamType) : writeForAbi false t = (abiTypeName t).toList := writeForAbi_false t

example : read (writeForAbi false (.array (.fixedArray (.tuple [.bool, .tuple [.tuple []]]) 3)))
    = .ok (.array (.fixedArray (.tuple []) 3)) ∧ abiTypeName (.array (.fixedArray (.tuple [.bool]) 3)) = "tuple[3][]" := by
  decide +kernel

/-! ## C26 -/

/-- **C26, partial.** `Reader::read` returns `Ok` or `Err` on every ASCII string in which every `]` is preceded by
a `[` with none of `( ) , [ ]` in between.
Missing: strings with an unmatched `]` and non-ASCII strings, for which `read` can panic (`C26_counterexample_*`). -/
theorem C26_no_panic_partial (s : Str) (hs : s.all (fun c => decide (c.toNat < 128)) = true)
    (hb : bracketsClose false s = true) : read s ≠ .panic :=
  read_noPanic_aux _ s rfl (ascii_of_all hs) hb

/-- **C26** for every string, ASCII or not, that does not end in `)` or `]`. -/
theorem C26_no_panic_elementary (s : Str) (h1 : s.getLast? ≠ some ')') (h2 : s.getLast? ≠ some ']') :
    read s ≠ .panic := by
  rw [read_plain h1 h2]; exact readElementary_noPanic s

/-- **C26**, termination: `read` satisfies the recursive equation of the source, and its value on a string depends
only on its values on strings of fewer bytes. -/
theorem C26_terminates (name : Str) : read name = readStep read name ∧
    ∀ r : Str → Res ParamType, (∀ s, (s.flatMap String.utf8EncodeChar).length < (name.flatMap String.utf8EncodeChar).length →
      r s = read s) → readStep r name = read name := by
  refine ⟨read_eq name, fun r hr => ?_⟩
  rw [read_eq name]
  apply readStep_congr
  intro s hs
  apply hr
  rw [← utf8_eq_core, ← utf8_eq_core, ← byteLen_utf8, ← byteLen_utf8]; exact hs

example : bracketsClose false (lit "(a[2][],(b[x],)c]") = false ∧ bracketsClose false (lit "(a[2][],(b[x],)c[") = true
    ∧ (lit "(a[2][],(b[x],)c[").all (fun c => decide (c.toNat < 128)) = true := by decide +kernel

/-- every type text satisfies the hypotheses -/
theorem C26_type_texts (t : ParamType) : (write t).all (fun c => decide (c.toNat < 128)) = true ∧
    bracketsClose false (write t) = true := by
  refine ⟨?_, brackets_write t⟩
  rw [List.all_eq_true]
  intro c hc
  simpa using ascii_write true t c hc

theorem C26_counterexample_bracket : read (lit "]") = .panic ∧ read (lit "5]") = .panic ∧ read (lit "(bool,7])") = .panic := by
  decide +kernel

theorem C26_counterexample_unicode : read (lit "é[]") = .panic ∧ read (lit "(é)") = .panic := by decide +kernel

/-! ## C27 -/

/-- **C27.** Array suffixes bind outermost-last, and errors (and panics) of the element type are kept. -/
theorem C27_array_suffix (s : Str) (hs : s.all (fun c => decide (c.toNat < 128)) = true) (k : Nat) (hk : k < 2 ^ 64) :
    read (s ++ lit "[]") = (match read s with | .ok t => .ok (.array t) | .err e => .err e | .panic => .panic) ∧
    read (s ++ (s!"[{k}]").toList) =
      (match read s with | .ok t => .ok (.fixedArray t k) | .err e => .err e | .panic => .panic) := by
  constructor
  · rw [read_array (ascii_of_all hs)]
    cases read s <;> rfl
  · have e : (s!"[{k}]").toList = '[' :: (natText k ++ [']']) := by
      have hs : ∀ s : String, toString s = s := fun _ => rfl
      simp [natText, hs]
    rw [e, read_fixedArray_nat (ascii_of_all hs) hk]
    cases read s <;> rfl

example : read (lit "(bool,uint8)[3]" ++ lit "[]") = .ok (.array (.fixedArray (.tuple [.bool, .uint 8]) 3)) := by
  decide +kernel

/-- for non-ASCII strings the suffix is cut at the wrong place -/
theorem C27_counterexample_unicode : read (lit "é") = .err (.invalidName (lit "é")) ∧ read (lit "é[]") = .panic := by
  decide +kernel

/-! ## C78 -/

/-- **C78.** No ASCII text without the letter `p` (no type name but `tuple` contains one) is read as a type with
tuples nested more than three deep, whatever the nesting of its parentheses. -/
theorem C78_depth (s : Str) (hs : s.all (fun c => decide (c.toNat < 128)) = true) (hp : 'p' ∉ s) (t : ParamType)
    (h : read s = .ok t) : tupleDepth t ≤ 3 :=
  read_depth (ascii_of_all hs) hp h

/-- **C78**, the shape: under its arrays the type is elementary or a tuple, and the members of that tuple are free of
tuples, or arrays over a nonempty tuple of tuple-free members, or a tuple whose last member alone is such. -/
theorem C78_members (s : Str) (hs : s.all (fun c => decide (c.toNat < 128)) = true) (hp : 'p' ∉ s) (t : ParamType)
    (h : read s = .ok t) :
    tupleFree t = true ∨ ∃ ts, arrayBase t = .tuple ts ∧
      ∀ m ∈ ts, tupleFree m = true ∨ flatTuple m = true ∨ lastNested m = true := by
  rcases read_shape t s (ascii_of_all hs) hp h with h | ⟨ts, h, hm⟩
  · exact Or.inl h
  · exact Or.inr ⟨ts, by rw [arrayBase_eq]; exact h, hm⟩

/-- depth three is reached; four levels in the text give three in the type; `p` is needed for more -/
example : read (lit "((bool,(string)[])[])") ≠ .panic ∧ read (lit "(int8,(bool,(string)[]))") =
      .ok (.tuple [.int 8, .tuple [.bool, .array (.tuple [.string])]]) ∧
    tupleDepth (.tuple [.int 8, .tuple [.bool, .array (.tuple [.string])]]) = 3 ∧
    read (lit "(((tuple)))") = .ok (.tuple [.tuple [.tuple [.tuple []]]]) := by
  decide +kernel

end Ethabi.Props

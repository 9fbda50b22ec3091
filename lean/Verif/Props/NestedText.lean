import Verif.Proofs.NestedText
/-! # Property C86: tuple strings with tuples inside -/
namespace Ethabi.Props
open Spec

/-- **C86.** A tuple string whose members are ASCII texts with at most one parenthesised list each, the list free
of further parentheses, is accepted exactly if every member stands for something (`PieceMembers`), and the result
is the tuple of what the members stand for. -/
theorem C86_accepts_exactly (ps : List Piece) (hp : ∀ p ∈ ps, p.Plain) (t : ParamType) :
    read (tupleText ps) = .ok t ↔ ∃ ts, NestedMembers ps ts ∧ t = .tuple ts := by
  rw [NestedText.read_tupleText hp, Res.bind_eq_ok]
  constructor
  · rintro ⟨ts, h, h'⟩
    exact ⟨ts, (NestedText.piecesRead_ok hp ts).1 h, (Res.ok.inj h').symm⟩
  · rintro ⟨ts, h, rfl⟩
    exact ⟨ts, (NestedText.piecesRead_ok hp ts).2 h, rfl⟩

/-- **C86.** On the same strings `read` panics exactly if, after members that stand for something, a member (or a
piece of its list, or the text after a dropped list) starts with a suffix `]` or `5]` without its `[`. -/
theorem C86_panics_exactly (ps : List Piece) (hp : ∀ p ∈ ps, p.Plain) :
    read (tupleText ps) = .panic ↔ ∃ xs p ys ts, ps = xs ++ p :: ys ∧ NestedMembers xs ts ∧ PieceUnopened p := by
  rw [NestedText.read_tupleText hp, ← NestedText.piecesRead_panic hp]
  cases NestedText.piecesRead ps with
  | ok ts => exact ⟨nofun, nofun⟩
  | err e => exact ⟨nofun, nofun⟩
  | panic => exact ⟨fun _ => rfl, fun _ => rfl⟩

/-- **C86** for well-formed lists: a member `(T1,…,Tn)` with array suffixes is read as that tuple. -/
theorem C86_inner_tuple (before : Str) (inside : List Str) (last after : Str) (t : ParamType)
    (hp : (Piece.group before inside last after).Plain) (hl : last ≠ []) :
    read (tupleText [.group before inside last after]) = .ok (.tuple [t]) ↔
      FlatText ("(".toList ++ commaSeparated (inside ++ [last]) ++ ")".toList ++ after) t := by
  rw [C86_accepts_exactly _ (by simpa using hp)]
  constructor
  · rintro ⟨ts, h, e⟩
    cases h with
    | cons h1 h2 =>
      cases h2
      cases h1 with
      | group _ h => simp at e; rw [e]; exact h
      | dropped _ => exact absurd rfl hl
      | after _ _ => exact absurd rfl hl
  · intro h
    exact ⟨[t], .cons (.group hl h) .nil, rfl⟩

/-- **C86**: text before an inner parenthesis is ignored, whatever it is. -/
theorem C86_prefix_ignored (before other : Str) (hb : NoDelimiter before) (ho : NoDelimiter other) (inside : List Str)
    (last after : Str) (h1 : ∀ p ∈ inside, NoDelimiter p) (h2 : NoDelimiter last) (h3 : NoDelimiter after)
    (ps qs : List Piece) (hps : ∀ p ∈ ps, p.Plain) (hqs : ∀ p ∈ qs, p.Plain) (t : ParamType) :
    read (tupleText (ps ++ .group before inside last after :: qs)) = .ok t ↔
      read (tupleText (ps ++ .group other inside last after :: qs)) = .ok t := by
  have hp : ∀ b : Str, NoDelimiter b → ∀ p ∈ ps ++ .group b inside last after :: qs, p.Plain := by
    intro b hb p hp
    rcases List.mem_append.1 hp with hp | hp
    · exact hps p hp
    · rcases List.mem_cons.1 hp with rfl | hp
      · exact ⟨hb, h1, h2, h3⟩
      · exact hqs p hp
  have swap : ∀ b b' : Str, ∀ ts, NestedMembers (ps ++ .group b inside last after :: qs) ts →
      NestedMembers (ps ++ .group b' inside last after :: qs) ts := by
    intro b b'
    clear hps hp
    induction ps with
    | nil =>
      intro ts h
      cases h with
      | cons h h' =>
        refine .cons ?_ h'
        cases h with
        | group h1 h2 => exact .group h1 h2
        | dropped h => exact .dropped h
        | after h1 h2 => exact .after h1 h2
    | cons p ps ih =>
      intro ts h
      cases h with
      | cons h h' => exact .cons h (ih _ h')
  rw [C86_accepts_exactly _ (hp before hb), C86_accepts_exactly _ (hp other ho)]
  exact ⟨fun ⟨ts, h, e⟩ => ⟨ts, swap _ _ ts h, e⟩, fun ⟨ts, h, e⟩ => ⟨ts, swap _ _ ts h, e⟩⟩

/-- `(bool,(uint8,string)[2],x(int),(address,))`: the pieces, what they stand for, and the result -/
example : tupleText [.plain (lit "bool"), .group [] [lit "uint8"] (lit "string") (lit "[2]"),
      .group (lit "x") [] (lit "int") [], .group [] [lit "address"] [] []] =
        lit "(bool,(uint8,string)[2],x(int),(address,))" ∧
    read (lit "(bool,(uint8,string)[2],x(int),(address,))") =
      .ok (.tuple [.bool, .fixedArray (.tuple [.uint 8, .string]) 2, .tuple [.int 256]]) := by
  refine ⟨by decide +kernel, by decide +kernel⟩

example : ∀ p ∈ [Piece.plain (lit "bool"), .group [] [lit "uint8"] (lit "string") (lit "[2]"),
      .group (lit "x") [] (lit "int") [], .group [] [lit "address"] [] []], p.Plain := by
  have h : ∀ s ∈ [lit "bool", lit "uint8", lit "string", lit "[2]", lit "x", lit "int", lit "address", []],
      NoDelimiter s := by
    unfold NoDelimiter; decide
  intro p hp
  simp only [List.mem_cons, List.not_mem_nil, or_false] at hp
  rcases hp with rfl | rfl | rfl | rfl
  · exact h _ (by simp)
  · exact ⟨h _ (by simp), by intro q hq; simp at hq; subst hq; exact h _ (by simp), h _ (by simp), h _ (by simp)⟩
  · exact ⟨h _ (by simp), by intro q hq; simp at hq, h _ (by simp), h _ (by simp)⟩
  · exact ⟨h _ (by simp), by intro q hq; simp at hq; subst hq; exact h _ (by simp), h _ (by simp), h _ (by simp)⟩

example : NestedMembers [.plain (lit "bool"), .group [] [lit "uint8"] (lit "string") (lit "[2]"),
      .group (lit "x") [] (lit "int") [], .group [] [lit "address"] [] []]
    [.bool, .fixedArray (.tuple [.uint 8, .string]) 2, .tuple [.int 256]] :=
  .cons (ts := [.bool]) (.plain (.elementary .bool)) (.cons (ts := [_])
    (.group (by decide) (.fixedArray (s := lit "(uint8,string)") (d := lit "2") (n := 2)
      (.tuple (ps := [lit "uint8", lit "string"])
        (.cons (.elementary (.uintN (d := lit "8") (n := 8) ⟨lit "8", Or.inl rfl, by decide, by decide, by decide, by decide⟩))
          (.cons (.elementary .string) .nil)))
      ⟨lit "2", Or.inl rfl, by decide, by decide, by decide, by decide⟩))
    (.cons (ts := [_]) (.group (by decide) (.tuple (ps := [lit "int"]) (.cons (.elementary .int) .nil)))
      (.cons (ts := []) (.dropped (.cons (.elementary .address) .nil)) .nil)))

/-- a panic: `((bool,5]),x)` -/
example : PieceUnopened (.group [] [lit "bool"] (lit "5]") []) ∧ read (lit "((bool,5]),x)") = .panic := by
  refine ⟨.group (by decide) (.tuple (ps := [lit "bool"]) (p := lit "5]") (qs := []) (.cons (.elementary .bool) .nil)
    (.number (d := lit "5") (n := 5) ⟨lit "5", Or.inl rfl, by decide, by decide, by decide, by decide⟩) nofun), by decide +kernel⟩

/-- one level deeper the rule stops to hold: `((uint8,(bool),int8))` is refused though its members are well formed -/
theorem C86_counterexample_depth : (∃ e, read (lit "((uint8,(bool),int8))") = .err e) ∧
    read (lit "((uint8,(bool)))") = .ok (.tuple [.tuple [.uint 8, .tuple [.bool]]]) := by
  refine ⟨⟨.invalidName (lit "(bool),int8)"), by decide +kernel⟩, by decide +kernel⟩

end Ethabi.Props

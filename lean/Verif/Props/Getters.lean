import Verif.Spec.Getters
import Verif.Props.Derive
import Verif.Props.Tokenizer
/-! # C119: taking values out of tokens -/
namespace Ethabi.Props
open Spec Event

/-- **C119.** `into_…` returns the contents of its own variant and nothing else. -/
theorem C119_contents (t : Token) :
    (∀ a, t.intoAddress = some a ↔ t = .address a) ∧ (∀ b, t.intoFixedBytes = some b ↔ t = .fixedBytes b) ∧
    (∀ b, t.intoBytes = some b ↔ t = .bytes b) ∧ (∀ v, t.intoInt = some v ↔ t = .int v) ∧
    (∀ v, t.intoUint = some v ↔ t = .uint v) ∧ (∀ b, t.intoBool = some b ↔ t = .bool b) ∧
    (∀ s, t.intoString = some s ↔ t = .string s) ∧ (∀ l, t.intoFixedArray = some l ↔ t = .fixedArray l) ∧
    (∀ l, t.intoArray = some l ↔ t = .array l) := by
  cases t <;> simp [Token.intoAddress, Token.intoFixedBytes, Token.intoBytes, Token.intoInt, Token.intoUint, Token.intoBool,
    Token.intoString, Token.intoFixedArray, Token.intoArray]

/-- **C119.** Of the nine functions exactly one returns a value, unless the token is a tuple, from which none does. -/
theorem C119_one (t : Token) : (∃! g : Getter, g.answers t) ∨ ((∃ ts, t = .tuple ts) ∧ ∀ g : Getter, ¬ g.answers t) := by
  obtain ⟨h1, h2, h3, h4, h5, h6, h7, h8, h9⟩ := C119_contents t
  cases t with
  | tuple ts =>
    refine Or.inr ⟨⟨ts, rfl⟩, fun g => ?_⟩
    cases g <;> simp [Getter.answers, h1, h2, h3, h4, h5, h6, h7, h8, h9]
  | address a => exact Or.inl ⟨.address, ⟨a, rfl⟩, fun g h => by cases g <;> simp_all [Getter.answers]⟩
  | fixedBytes a => exact Or.inl ⟨.fixedBytes, ⟨a, rfl⟩, fun g h => by cases g <;> simp_all [Getter.answers]⟩
  | bytes a => exact Or.inl ⟨.bytes, ⟨a, rfl⟩, fun g h => by cases g <;> simp_all [Getter.answers]⟩
  | int a => exact Or.inl ⟨.int, ⟨a, rfl⟩, fun g h => by cases g <;> simp_all [Getter.answers]⟩
  | uint a => exact Or.inl ⟨.uint, ⟨a, rfl⟩, fun g h => by cases g <;> simp_all [Getter.answers]⟩
  | bool a => exact Or.inl ⟨.bool, ⟨a, rfl⟩, fun g h => by cases g <;> simp_all [Getter.answers]⟩
  | string a => exact Or.inl ⟨.string, ⟨a, rfl⟩, fun g h => by cases g <;> simp_all [Getter.answers]⟩
  | fixedArray a => exact Or.inl ⟨.fixedArray, ⟨a, rfl⟩, fun g h => by cases g <;> simp_all [Getter.answers]⟩
  | array a => exact Or.inl ⟨.array, ⟨a, rfl⟩, fun g h => by cases g <;> simp_all [Getter.answers]⟩

/-- **C119.** A token that passes `type_check` for a type is answered by the function for that type and by no other. -/
theorem C119_checked (t : Token) (p : ParamType) (h : t.typeCheck p = .ok true) (g : Getter) :
    g.answers t ↔ getterFor p = some g := by
  obtain ⟨h1, h2, h3, h4, h5, h6, h7, h8, h9⟩ := C119_contents t
  cases t <;> cases p <;> simp [Token.typeCheck] at h <;>
    cases g <;> simp [Getter.answers, getterFor, h1, h2, h3, h4, h5, h6, h7, h8, h9]

private theorem zip_checked : ∀ (ps : List ParamType) (ts : List Token) (i : Nat) (t : Token) (p : ParamType),
    Token.zipCheck ps ts = .ok true → ts[i]? = some t → ps[i]? = some p → t.typeCheck p = .ok true
  | [], _, _, _, _, _, _, h => by simp at h
  | _ :: _, [], _, _, _, _, h, _ => by simp at h
  | q :: ps, u :: ts, i, t, p, h, ht, hp => by
    simp only [Token.zipCheck] at h
    cases hc : u.typeCheck q with
    | err e => rw [hc] at h; cases h
    | panic => rw [hc] at h; cases h
    | ok b =>
      rw [hc, Res.ok_bind] at h
      cases b with
      | false => cases h
      | true =>
        cases i with
        | zero =>
          simp only [List.getElem?_cons_zero, Option.some.injEq] at ht hp
          rw [← ht, ← hp, hc]
        | succ i =>
          simp only [List.getElem?_cons_succ] at ht hp
          exact zip_checked ps ts i t p h ht hp

private theorem list_checked {ps : List ParamType} {ts : List Token} (h : Token.typesCheck ts ps = .ok true) {i : Nat} {t : Token}
    {p : ParamType} (ht : ts[i]? = some t) (hp : ps[i]? = some p) : t.typeCheck p = .ok true := by
  unfold Token.typesCheck at h
  split at h
  · exact zip_checked _ _ i t p h ht hp
  · cases h

/-- **C119.** Decoded values are answered by the functions for their types and by no others. -/
theorem C119_decoded (prof : Profile) (ts : List ParamType) (data : Bytes) (toks : List Token)
    (hu : ParamType.usizeOkAll ts = true) (hd : data.length < 2 ^ 63) (h : decode prof ts data = .ok toks)
    (i : Nat) (t : Token) (p : ParamType) (ht : toks[i]? = some t) (hp : ts[i]? = some p) (g : Getter) :
    g.answers t ↔ getterFor p = some g :=
  C119_checked t p (list_checked (C05_decoded_typed prof ts data toks hu hd h).2.2 ht hp) g

/-- **C119.** So are tokens made from texts. -/
theorem C119_tokenized (m : Tokenizer) (p : ParamType) (s : Str) (t : Token) (h : tokenize m p s = .ok t) (g : Getter) :
    g.answers t ↔ getterFor p = some g := C119_checked t p (C47_type_checks m p s t h) g

/-- **C119.** So are the parameters of a log whose names differ; an indexed parameter that is not of a value type is a hash
and answers to `into_fixed_bytes` only. -/
theorem C119_logged (hash : Bytes → Word) (prof : Profile) (e : Event) (log : RawLog) (l : Log)
    (hn : (e.inputs.map (·.name)).Nodup) (hu : ParamType.usizeOkAll (e.inputs.map (·.kind)) = true)
    (hk : log.topics.length < 2 ^ 58) (hd : log.data.length < 2 ^ 63) (h : e.parseLog hash prof log = .ok l)
    (i : Nat) (v : LogParam) (p : EventParam) (hv : l.params[i]? = some v) (hp : e.inputs[i]? = some p) (g : Getter) :
    g.answers v.value ↔
      if p.indexed = true ∧ valueType p.kind = false then g = .fixedBytes else getterFor p.kind = some g := by
  have ht := parsed_typed hash prof e log l hn hu hk hd h
  have hc := list_checked (typesCheck_of_valuesOf (haveTypes_valuesOf _ _ ht)) (i := i) (t := v.value)
    (p := if p.indexed then topicType p.kind else p.kind) (by simp [hv]) (by simp [hp])
  rw [C119_checked _ _ hc g]
  cases hi : p.indexed with
  | false => simp
  | true =>
    simp only [if_true, true_and, topicType]
    cases hvt : valueType p.kind with
    | true => simp
    | false => simp [getterFor, eq_comm]

/-- a decoded pair of values of different types -/
example : decode .release [.bool, .array (.uint 8)] (List.replicate 31 0 ++ [1] ++ List.replicate 31 0 ++ [64] ++
    List.replicate 31 0 ++ [1] ++ List.replicate 31 0 ++ [7]) = .ok [.bool true, .array [.uint 7]] := by decide +kernel
/-- a log with the hash of a string and a flag -/
example : (Event.mk (lit "E") [⟨lit "text", .string, true⟩, ⟨lit "flag", .bool, false⟩] true).parseLog
    (fun _ => ⟨List.replicate 32 0, rfl⟩) .release ⟨[⟨List.replicate 32 9, rfl⟩], List.replicate 31 0 ++ [1]⟩ =
    .ok ⟨[⟨lit "text", .fixedBytes (List.replicate 32 9)⟩, ⟨lit "flag", .bool true⟩]⟩ := by decide +kernel
example : tokenize .strict (.tuple [.bool]) (lit "(true)") = .ok (.tuple [.bool true]) := by decide +kernel
/-- an integer is not answered by the function for the other sign -/
example : (Token.uint 7).intoInt = none ∧ (Token.int 7).intoUint = none ∧ (Token.fixedBytes [7]).intoBytes = none ∧
    (Token.fixedArray []).intoArray = none := by decide

end Ethabi.Props

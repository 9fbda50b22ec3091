import Verif.Proofs.ReadingExact
import Verif.Proofs.Event
import Verif.Props.Codec
/-!
# What the decoder does on arbitrary data: C06 and C74, C75

`Spec/Reading.lean` says, without reference to the decoder, what it means that the data hold a value at a position
(`reads`) and that one meets a dynamic `T[k]` with an offset behind the end of the data (`overruns`).
-/
namespace Ethabi.Props
open Spec

/-! ## C74 -/

/-- **C74**, success: `decode` returns the tokens that the data hold, and nothing else. -/
theorem C74_decodes_exactly (prof : Profile) (ts : List ParamType) (data : Bytes) (toks : List Token)
    (hn : narrowAll ts = true) (hd : data.length < 2 ^ 63) :
    decode prof ts data = .ok toks ↔ (data ≠ [] ∨ zeroTypes ts) ∧ readsAll ts data 0 toks := by
  have hx := (exact_params prof ts hn data hd).ok 0 (by simp) toks
  rw [← zeroTypes_iff]
  constructor
  · intro h
    obtain ⟨h1, o, h2⟩ := decode_eq_ok h
    exact ⟨h1, ((hx o).1 h2).1⟩
  · rintro ⟨h1, h2⟩
    exact decode_of_params ((hx _).2 ⟨h2, rfl⟩) h1

/-- **C74**, the data hold at most one list of values. -/
theorem C74_unique (ts : List ParamType) (data : Bytes) (a b : List Token) (hn : narrowAll ts = true)
    (hd : data.length < 2 ^ 63) (ha : readsAll ts data 0 a) (hb : readsAll ts data 0 b) : a = b := by
  have hx := (exact_params .debug ts hn data hd).ok 0 (by simp)
  have h1 := (hx a _).2 ⟨ha, rfl⟩
  have h2 := (hx b _).2 ⟨hb, rfl⟩
  rw [h1] at h2
  cases h2; rfl

/-- **C74**, failure: the error is `InvalidName` for empty data where it is not accepted and `InvalidData` in all other
cases; it is returned exactly if the data do not hold values of the types and there is no overrun. -/
theorem C74_errors_exactly (prof : Profile) (ts : List ParamType) (data : Bytes) (e : Err)
    (hn : narrowAll ts = true) (hd : data.length < 2 ^ 63) :
    decode prof ts data = .err e ↔
      (data = [] ∧ ¬ zeroTypes ts ∧ e = .invalidName emptyDataMsg) ∨
      ((data ≠ [] ∨ zeroTypes ts) ∧ e = .invalidData ∧ (∀ toks, ¬ readsAll ts data 0 toks) ∧ ¬ overrunsAny ts data 0) := by
  have hx := exact_params prof ts hn data hd
  rw [← zeroTypes_iff]
  by_cases hc : (data ≠ [] ∨ ts.all ParamType.isEmptyBytesValidEncoding = true)
  · have hb : (!(ts.all ParamType.isEmptyBytesValidEncoding) && data.isEmpty) = false := by
      rcases hc with h | h
      · simp [h]
      · simp [h]
    have e1 : decode prof ts data = (decodeParams prof ts data 0 >>= fun x => .ok x.1) := by
      rw [decode, hb]; rfl
    rw [e1]
    have hno : ¬ (data = [] ∧ ¬ ts.all ParamType.isEmptyBytesValidEncoding = true ∧ e = .invalidName emptyDataMsg) := by
      rintro ⟨h1, h2, _⟩
      rcases hc with h | h
      · exact h h1
      · exact h2 h
    simp only [hno, hc, false_or, true_and]
    cases hp : decodeParams prof ts data 0 with
    | ok r =>
      refine ⟨nofun, fun h => ?_⟩
      have := ((hx.ok 0 (by simp) r.1 r.2).1 hp).1
      exact absurd this (h.2.1 _)
    | panic =>
      exact ⟨nofun, fun h => absurd ((hx.panic 0 (by simp)).1 hp) h.2.2⟩
    | err e' =>
      have he := onlyInvalid_params prof ts data 0 e' hp
      constructor
      · intro h
        have h : (Res.err e' : Res (List Token)) = .err e := h
        cases h
        refine ⟨he, fun toks h => ?_, fun h => ?_⟩
        · have := (hx.ok 0 (by simp) toks _).2 ⟨h, rfl⟩
          rw [this] at hp; cases hp
        · have := (hx.panic 0 (by simp)).2 h
          rw [this] at hp; cases hp
      · rintro ⟨h, _⟩
        rw [h, he]; rfl
  · have hd0 : data = [] := by
      by_cases h : data = []
      · exact h
      · exact absurd (Or.inl h) hc
    have hz : ¬ ts.all ParamType.isEmptyBytesValidEncoding = true := fun h => hc (Or.inr h)
    have hb : (!(ts.all ParamType.isEmptyBytesValidEncoding) && data.isEmpty) = true := by
      simp [hd0, Bool.eq_false_iff.2 hz]
    rw [decode, hb, if_pos rfl]
    constructor
    · intro h; cases h; exact Or.inl ⟨hd0, hz, rfl⟩
    · rintro (⟨_, _, rfl⟩ | ⟨h, _⟩)
      · rfl
      · exact absurd h hc

/-- data that no encoder produces: both offsets point to the same payload, which lies in front of them -/
example : decode .debug [.bool, .fixedBytes 1, .bytes, .bytes] (word 1 ++ padRight [7] ++ word 0 ++ word 0)
    = .ok [.bool true, .fixedBytes [7], .bytes [7], .bytes [7]] ∧
    narrowAll [.bool, .fixedBytes 1, .bytes, .bytes] = true := by decide +kernel

/-! ## C06 -/

/-- **C06, all inputs**: `decode` panics exactly on an overrun, i.e. where it meets a dynamic `T[k]` with an offset behind
the end of the (remaining) data after reading everything in front of it. -/
theorem C06_panics_exactly (prof : Profile) (ts : List ParamType) (data : Bytes)
    (hn : narrowAll ts = true) (hd : data.length < 2 ^ 63) :
    decode prof ts data = .panic ↔ overrunsAny ts data 0 := by
  have hx := (exact_params prof ts hn data hd).panic 0 (by simp)
  constructor
  · intro h
    rw [decode] at h
    split at h
    · cases h
    · rw [bind_eq_panic] at h
      rcases h with h | ⟨_, _, h⟩
      · exact hx.1 h
      · cases h
  · intro h
    have hne : data ≠ [] := by
      rintro rfl
      exact overrunsAny_data ts 0 h
    rw [decode, if_neg (by simp [hne]), hx.2 h]; rfl

/-- an overrun behind a `bool` and inside the second element of an array -/
example : overrunsAny [.bool, .array (.fixedArray .bytes 1)]
    (word 1 ++ word 64 ++ word 2 ++ word 64 ++ word 1000 ++ word 32 ++ word 0) 0 := by
  rw [← C06_panics_exactly .debug _ _ (by decide) (by decide +kernel)]
  decide +kernel

/-! ## C75 -/

/-- **C75**, prefixes: decoding more types only adds tokens at the end. -/
theorem C75_prefix (prof : Profile) (ts us : List ParamType) (data : Bytes) (toks : List Token)
    (h : decode prof (ts ++ us) data = .ok toks) : decode prof ts data = .ok (toks.take ts.length) := by
  obtain ⟨hw, o, h⟩ := decode_eq_ok h
  rw [decodeParams_append] at h
  simp only [Res.bind_eq_ok, Prod.exists, Res.ok.injEq, Prod.mk.injEq] at h
  obtain ⟨a, o1, h1, b, o2, h2, rfl, rfl⟩ := h
  have hl : a.length = ts.length := decodeParams_length prof ts data 0 a o1 h1
  rw [← hl, List.take_left']
  · refine decode_of_params h1 ?_
    rcases hw with hw | hw
    · exact Or.inl hw
    · rw [List.all_append, Bool.and_eq_true] at hw
      exact Or.inr hw.1
  · rfl

example : decode .debug [.bytes, .bool] (word 64 ++ word 1 ++ word 1 ++ padRight [7]) = .ok [.bytes [7], .bool true] ∧
    decode .debug [.bytes] (word 64 ++ word 1 ++ word 1 ++ padRight [7]) = .ok [.bytes [7]] := by decide +kernel

end Ethabi.Props

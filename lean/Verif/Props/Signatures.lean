import Verif.Proofs.Signature
/-! # Properties C22, C23: signatures are unambiguous -/
namespace Ethabi.Props

/-- **C22.** The text `name(t1,...,tn)` that is hashed determines name and types. -/
theorem C22_signature_injective (a b : Str) (ts us : List ParamType) (ha : '(' ∉ a) (hb : '(' ∉ b)
    (h : signatureText a ts = signatureText b us) : a = b ∧ ts = us := by
  rw [signatureText_tuple, signatureText_tuple] at h
  have := named_inj (r := []) (s := []) ha hb (Or.inl rfl) (Or.inl rfl) (by simp) (by simp) (by simpa using h)
  exact ⟨this.1, this.2.1⟩

/-- **C22.** So the long signature (event topic) of different declarations differs unless the hash collides on
two different byte strings; likewise for selectors with the 4-byte truncated hash. -/
theorem C22_collision (hash : Bytes → Word) (a b : Str) (ts us : List ParamType) (ha : '(' ∉ a) (hb : '(' ∉ b)
    (hne : ¬ (a = b ∧ ts = us)) :
    (longSignature hash a ts = longSignature hash b us →
      ∃ x y : Bytes, x ≠ y ∧ hash x = hash y) ∧
    (shortSignature hash a ts = shortSignature hash b us →
      ∃ x y : Bytes, x ≠ y ∧ (hash x).1.take 4 = (hash y).1.take 4) := by
  have key : strBytes (signatureText a ts) ≠ strBytes (signatureText b us) := by
    intro e
    apply hne
    apply C22_signature_injective a b ts us ha hb
    have := congrArg fromUtf8Lossy e
    simpa [strBytes, lossy_utf8] using this
  exact ⟨fun h => ⟨_, _, key, h⟩, fun h => ⟨_, _, key, h⟩⟩

/-- **C22** for a single type: canonical names are injective. -/
theorem C22_write_injective (t u : ParamType) (h : write t = write u) : t = u := write_inj h

example : signatureText (lit "f") [.tuple [.uint 8, .bool], .array .string] = lit "f((uint8,bool),string[])" := by
  decide +kernel

/-- **C23.** `Function::signature` determines name, input types and output types. -/
theorem C23_signature_injective (f g : Function) (hf : '(' ∉ f.name) (hg : '(' ∉ g.name)
    (h : f.signature = g.signature) :
    f.name = g.name ∧ f.inputs.map (·.kind) = g.inputs.map (·.kind) ∧
      f.outputs.map (·.kind) = g.outputs.map (·.kind) := by
  have key : ∀ f : Function, f.signature = f.name ++ write (.tuple (f.inputs.map (·.kind))) ++
      (if f.outputs.map (·.kind) = [] then [] else ':' :: write (.tuple (f.outputs.map (·.kind)))) := by
    intro f
    have e1 : (f.inputs.map fun p => write p.kind) = (f.inputs.map (·.kind)).map write := by simp
    have e2 : (f.outputs.map fun p => write p.kind) = (f.outputs.map (·.kind)).map write := by simp
    simp only [Function.signature, e1, e2, write_tuple]
    by_cases ho : f.outputs.map (·.kind) = []
    · rw [if_pos ho, if_pos (by rw [(join_eq_nil_iff _).2 ho]; rfl)]; simp [lit]
    · rw [if_neg ho, if_neg]
      · simp [lit]
      · rw [List.length_eq_zero_iff]; intro e; exact ho ((join_eq_nil_iff _).1 e)
  have ends : ∀ us : List ParamType, Ends (if us = [] then [] else ':' :: write (.tuple us)) ∧
      (if us = [] then [] else ':' :: write (.tuple us)).head? ≠ some '[' := by
    intro us
    by_cases h : us = []
    · simp [h, Ends]
    · rw [if_neg h]; exact ⟨ends_cons (by decide), by simp⟩
  rw [key f, key g] at h
  obtain ⟨h1, h2, h3⟩ := named_inj hf hg (ends _).1 (ends _).1 (ends _).2 (ends _).2 h
  refine ⟨h1, h2, ?_⟩
  by_cases e1 : f.outputs.map (·.kind) = [] <;> by_cases e2 : g.outputs.map (·.kind) = []
  · rw [e1, e2]
  · rw [if_pos e1, if_neg e2] at h3; cases h3
  · rw [if_neg e1, if_pos e2] at h3; cases h3
  · rw [if_neg e1, if_neg e2] at h3
    have := write_inj (List.cons.inj h3).2
    simpa using this

/-- **C23.** Shape of the text: the `:(outputs)` suffix is present exactly when there are outputs. -/
theorem C23_suffix (f : Function) :
    f.signature = (Spec.signature (String.ofList f.name) (f.inputs.map (·.kind))).toList ++
      (if f.outputs = [] then [] else (":(".toList ++
        (String.intercalate "," (Spec.typeNames (f.outputs.map (·.kind)))).toList ++ ")".toList)) := by
  rw [← signatureText_eq, signatureText]
  have e1 : (f.inputs.map fun p => write p.kind) = (f.inputs.map (·.kind)).map write := by simp
  have e2 : (f.outputs.map fun p => write p.kind) = (f.outputs.map (·.kind)).map write := by simp
  have e3 := writeAll_eq_typeNames (f.outputs.map (·.kind))
  rw [writeAll_eq_map] at e3
  have e4 : join (lit ",") ((f.outputs.map (·.kind)).map write) =
      (String.intercalate "," (Spec.typeNames (f.outputs.map (·.kind)))).toList := by
    rw [join_eq_intercalate, show (f.outputs.map (·.kind)).map write = _ from e3]; simp [lit]
  simp only [Function.signature, e1, e2]
  by_cases ho : f.outputs = []
  · rw [if_pos ho, if_pos (by rw [ho]; rfl)]; simp
  · rw [if_neg ho, if_neg, e4]
    · simp [lit]
    · rw [List.length_eq_zero_iff]; intro e
      have := (join_eq_nil_iff _).1 e
      exact ho (by simpa using this)

example : (Function.mk (lit "f") [⟨[], .bool, none⟩] [⟨[], .uint 256, none⟩, ⟨[], .string, none⟩] false
    .nonPayable).signature = lit "f(bool):(uint256,string)" := by decide +kernel

end Ethabi.Props

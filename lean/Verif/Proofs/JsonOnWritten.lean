import Verif.Proofs.JsonOn
import Verif.Proofs.Json
import Verif.Proofs.Signature
import Verif.Props.TargetText
/-! Lemmas for C120: the type texts of a written contract. -/
namespace Ethabi.JsonOn
open Ethabi.Spec

theorem below_iff (bits : Nat) : ∀ ts : List ParamType, sizesBelowAll bits ts ↔ ∀ t ∈ ts, sizesBelow bits t
  | [] => by simp [sizesBelowAll]
  | t :: ts => by simp [sizesBelowAll, below_iff bits ts]

theorem below_extend {bits : Nat} : ∀ (k : ParamType) (more : List ParamType), sizesBelow bits k → (∀ m ∈ more, sizesBelow bits m) →
    sizesBelow bits (extendInner more k)
  | .array t, more, hk, hm => by
    simp only [extendInner, sizesBelow] at hk ⊢; exact below_extend t more hk hm
  | .fixedArray t n, more, hk, hm => by
    simp only [extendInner, sizesBelow] at hk ⊢; exact ⟨hk.1, below_extend t more hk.2 hm⟩
  | .tuple ts, more, hk, hm => by
    simp only [extendInner, sizesBelow, below_iff] at hk ⊢
    intro t ht
    rcases List.mem_append.1 ht with ht | ht
    · exact hk t ht
    · exact hm t ht
  | .address, _, hk, _ | .bytes, _, hk, _ | .bool, _, hk, _ | .string, _, hk, _ | .int _, _, hk, _ | .uint _, _, hk, _
  | .fixedBytes _, _, hk, _ => hk

mutual
theorem usizeOk_of_below : ∀ t : ParamType, sizesBelow 32 t → t.usizeOk = true
  | .array t, h => by simp only [sizesBelow] at h; simpa [ParamType.usizeOk] using usizeOk_of_below t h
  | .fixedArray t n, h => by
    simp only [sizesBelow] at h
    have := usizeOk_of_below t h.2
    simp only [ParamType.usizeOk, this, Bool.and_true, decide_eq_true_eq]; omega
  | .tuple ts, h => by simp only [sizesBelow] at h; simpa [ParamType.usizeOk] using usizeOkAll_of_below ts h
  | .int n, h | .uint n, h | .fixedBytes n, h => by
    simp only [sizesBelow] at h; simp only [ParamType.usizeOk, decide_eq_true_eq]; omega
  | .address, _ | .bytes, _ | .bool, _ | .string, _ => rfl
theorem usizeOkAll_of_below : ∀ ts : List ParamType, sizesBelowAll 32 ts → ParamType.usizeOkAll ts = true
  | [], _ => rfl
  | t :: ts, h => by
    simp only [sizesBelowAll] at h
    simp [ParamType.usizeOkAll, usizeOk_of_below t h.1, usizeOkAll_of_below ts h.2]
end

theorem no_paren : ∀ t : ParamType, ')' ∉ writeForAbi false t
  | .array t => by
    have := no_paren t
    simp [writeForAbi, this, lit]
  | .fixedArray t n => by
    have := no_paren t
    have h2 : ')' ∉ natText n := fun h => natText_ne h (by decide) rfl
    simp [writeForAbi, this, lit, h2]
  | .tuple ts => by simp [writeForAbi, lit]
  | .int n | .uint n | .fixedBytes n => by
    have h2 : ')' ∉ natText n := fun h => natText_ne h (by decide) rfl
    simp [writeForAbi, lit, h2]
  | .address | .bytes | .bool | .string => by decide

theorem below_erase {bits : Nat} : ∀ t : ParamType, sizesBelow bits t → sizesBelow bits (eraseTuple t)
  | .array t, h => by simp only [eraseTuple, sizesBelow] at h ⊢; exact below_erase t h
  | .fixedArray t n, h => by simp only [eraseTuple, sizesBelow] at h ⊢; exact ⟨h.1, below_erase t h.2⟩
  | .tuple ts, h => by simp [eraseTuple, sizesBelow, sizesBelowAll]
  | .int _, h | .uint _, h | .fixedBytes _, h | .address, h | .bytes, h | .bool, h | .string, h => h

/-- the text is read alike, to a type whose sizes fit -/
abbrev Fine32 := Fine 32 False (sizesBelow 32)
abbrev FineIn32 := FineIn 32 False (sizesBelow 32)
abbrev FineFields32 := FineFields 32 False (sizesBelow 32)
abbrev FineAll32 := FineAll 32 False (sizesBelow 32)

theorem fine_write {t : ParamType} (h : sizesBelow 32 t) : Fine32 (writeForAbi false t) := by
  have hr : read (writeForAbi false t) = .ok (eraseTuple t) := read_writeForAbi t (sizesFit_of_usizeOk t (usizeOk_of_below t h))
  have hb := below_erase t h
  refine .inl ⟨?_, fun u hu => ?_⟩
  · rw [hr]; exact (Props.C94_without_tuples _ _ (no_paren t)).2 ⟨hr, hb⟩
  · rw [hr] at hu; cases hu; exact hb

theorem fine_obj {fs : List (Str × Json)} (h : FineFields32 fs) : FineIn32 (.obj fs) := by
  intro s hs
  cases hs with
  | here _ h' => exact h.1 s h'
  | inside _ k x h' hx => exact h.2 (k, x) h' s hx

theorem fine_arr {xs : List Json} (h : FineAll32 xs) : FineIn32 (.arr xs) := by
  intro s hs
  cases hs with
  | element _ x h' hx => exact h x h' s hx

theorem fine_str {s : Str} : FineIn32 (.str s) := fun _ h => nomatch h
theorem fine_bool {b : Bool} : FineIn32 (.bool b) := fun _ h => nomatch h

theorem fine_nil : FineFields32 [] := ⟨fun _ h => (nomatch h), fun _ h => (nomatch h)⟩

theorem fine_cons {k : Str} {x : Json} {fs : List (Str × Json)} (hk : k ≠ lit "type") (hx : FineIn32 x) (h : FineFields32 fs) :
    FineFields32 ((k, x) :: fs) := by
  refine ⟨fun s hs => ?_, fun kx hkx => ?_⟩
  · rcases List.mem_cons.1 hs with e | hs
    · cases e; exact absurd rfl hk
    · exact h.1 s hs
  · rcases List.mem_cons.1 hkx with rfl | hkx
    · exact hx
    · exact h.2 kx hkx

theorem fine_type {t : Str} {fs : List (Str × Json)} (ht : Fine32 t) (h : FineFields32 fs) :
    FineFields32 ((lit "type", .str t) :: fs) := by
  refine ⟨fun s hs => ?_, fun kx hkx => ?_⟩
  · rcases List.mem_cons.1 hs with e | hs
    · cases e; exact ht
    · exact h.1 s hs
  · rcases List.mem_cons.1 hkx with rfl | hkx
    · exact fine_str
    · exact h.2 kx hkx

theorem fine_components {o : Option Json} (h : ∀ x, o = some x → FineIn32 x) : FineFields32 (componentsField o) := by
  cases o with
  | none => exact fine_nil
  | some x => exact fine_cons (by decide) (h x rfl) fine_nil

mutual
theorem fine_serComponents : ∀ (t : ParamType), sizesBelow 32 t → ∀ x, serComponents t = some x → FineIn32 x
  | .array t, h, x, hx => by simp only [sizesBelow, serComponents] at h hx; exact fine_serComponents t h x hx
  | .fixedArray t n, h, x, hx => by simp only [sizesBelow, serComponents] at h hx; exact fine_serComponents t h.2 x hx
  | .tuple ts, h, x, hx => by
    simp only [sizesBelow, serComponents] at h hx
    cases hx
    exact fine_arr (fine_serMembers ts h)
  | .int _, _, x, hx | .uint _, _, x, hx | .fixedBytes _, _, x, hx | .address, _, x, hx | .bytes, _, x, hx | .bool, _, x, hx
  | .string, _, x, hx => by simp [serComponents] at hx
theorem fine_serMembers : ∀ (ts : List ParamType), sizesBelowAll 32 ts → FineAll32 (serMembers ts)
  | [], _ => fun x hx => by simp [serMembers] at hx
  | t :: ts, h => fun x hx => by
    simp only [sizesBelowAll] at h
    rw [serMembers] at hx
    rcases List.mem_cons.1 hx with rfl | hx
    · exact fine_obj (fine_type (fine_write h.1) (fine_components (fine_serComponents t h.1)))
    · exact fine_serMembers ts h.2 x hx
end

theorem fine_componentsEntry {t : ParamType} (h : sizesBelow 32 t) : FineFields32 (componentsEntry t) :=
  fine_components (fine_serComponents t h)

theorem fine_serParam (p : Param) (h : sizesBelow 32 p.kind) : FineIn32 (serParam p) := by
  have := fine_cons (k := lit "name") (by decide) (fine_str (s := p.name)) (fine_type (fine_write h) (fine_componentsEntry h))
  unfold serParam
  cases p.internalType with
  | none => exact fine_obj this
  | some i => exact fine_obj (fine_cons (by decide) fine_str this)

theorem fine_serEventParam (p : EventParam) (h : sizesBelow 32 p.kind) : FineIn32 (serEventParam p) :=
  fine_obj (fine_cons (k := lit "name") (by decide) fine_str (fine_type (fine_write h) (fine_cons (by decide) fine_bool (fine_componentsEntry h))))

theorem fine_map {α : Type} {f : α → Json} {G : α → Prop} (hf : ∀ a, G a → FineIn32 (f a)) (l : List α) (h : ∀ a ∈ l, G a) :
    FineIn32 (.arr (l.map f)) := fine_arr fun x hx => by
  obtain ⟨a, ha, rfl⟩ := List.mem_map.1 hx
  exact hf a (h a ha)

theorem fine_mutability (m : StateMutability) : FineIn32 (serStateMutability m) := by cases m <;> exact fine_str

theorem tag {s : Str} (h : readOn 32 s = read s ∧ (match read s with | .ok _ => false | _ => true) = true) : Fine32 s :=
  .inl ⟨h.1, fun t e => by rw [e] at h; exact nomatch h.2⟩

theorem fine_operation (op : Operation) (h : GoodOperation (sizesBelow 32) op) : FineIn32 (serOperation op) := by
  cases op with
  | constructor c => exact fine_obj (fine_type (tag (by decide +kernel)) (fine_cons (by decide) (fine_map fine_serParam _ h) fine_nil))
  | function f =>
    exact fine_obj (fine_type (tag (by decide +kernel)) (fine_cons (by decide) fine_str
      (fine_cons (by decide) (fine_map fine_serParam _ fun p hp => h p (List.mem_append_left _ hp))
      (fine_cons (by decide) (fine_map fine_serParam _ fun p hp => h p (List.mem_append_right _ hp))
      (fine_cons (by decide) fine_bool (fine_cons (by decide) (fine_mutability _) fine_nil))))))
  | event e =>
    exact fine_obj (fine_type (tag (by decide +kernel)) (fine_cons (by decide) fine_str
      (fine_cons (by decide) (fine_map fine_serEventParam _ h) (fine_cons (by decide) fine_bool fine_nil))))
  | fallback => exact fine_obj (fine_type (tag (by decide +kernel)) fine_nil)
  | receive => exact fine_obj (fine_type (tag (by decide +kernel)) fine_nil)

theorem fine_contract (c : Contract) (h : GoodContract (sizesBelow 32) c) : FineIn32 (serContract c) := by
  refine fine_map (G := GoodOperation (sizesBelow 32)) fine_operation _ fun op hop => ?_
  obtain ⟨h1, h2, h3⟩ := h
  simp only [Contract.operations, List.mem_append, List.mem_flatMap, List.mem_map] at hop
  rcases hop with (((hop | ⟨e, he, f, hf, rfl⟩) | ⟨e, he, f, hf, rfl⟩) | hop) | hop
  · cases hc : c.constructor with
    | none => rw [hc] at hop; exact nomatch hop
    | some k =>
      rw [hc] at hop
      rw [List.mem_singleton] at hop
      subst hop
      exact h1 k hc
  · exact h2 e he f hf
  · exact h3 e he f hf
  · split at hop
    · rw [List.mem_singleton] at hop; subst hop; exact trivial
    · exact nomatch hop
  · split at hop
    · rw [List.mem_singleton] at hop; subst hop; exact trivial
    · exact nomatch hop

end Ethabi.JsonOn

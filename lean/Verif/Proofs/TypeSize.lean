import Verif.Spec.TypeSize
import Verif.Spec.AnyText
/-! Types are not larger than the texts they are read from. -/
namespace Ethabi.TypeSize
open Spec Spec.AnyText

theorem numberText_pos {d : Str} {n : Nat} (h : numberText d n) : 1 ≤ d.length := by
  obtain ⟨ds, hd, hne, -⟩ := h
  have : 1 ≤ ds.length := by cases ds with
    | nil => exact absurd rfl hne
    | cons => simp
  rcases hd with rfl | rfl
  · exact this
  · simp

theorem elementary_nodes {s : Str} {t : ParamType} (h : Elementary s t) : nodes t = 1 ∧ 3 ≤ s.length := by
  cases h <;> simp [nodes, nodesAll]

theorem typeText_nodes {s : Str} {t : ParamType} (h : TypeText s t) : 2 * nodes t + 1 ≤ s.length := by
  induction h with
  | elementary h => have := elementary_nodes h; omega
  | array _ ih => simp [nodes]; omega
  | fixedArray _ hd ih => simp [nodes]; omega

/-- what a list of pieces takes: each with a comma or parenthesis behind it -/
def span (ps : List Str) : Nat := (ps.map fun p => p.length + 1).sum

theorem span_append (ps qs : List Str) : span (ps ++ qs) = span ps + span qs := by
  simp [span]

theorem commaSeparated_length : ∀ (ps : List Str), (commaSeparated ps).length = span ps - 1
  | [] => rfl
  | [p] => by simp [commaSeparated, span]
  | p :: q :: ps => by
      have ih := commaSeparated_length (q :: ps)
      unfold commaSeparated at ih ⊢
      rw [List.intercalate_cons_cons]
      simp only [List.length_append, ih]
      simp [span]
      omega

theorem members_nodes {ps : List Str} {ts : List ParamType} (h : Members ps ts) : 2 * nodesAll ts + ps.length ≤ span ps := by
  induction h with
  | nil => simp [nodesAll]
  | skip _ ih => simp [span] at *; omega
  | cons h _ ih => have := typeText_nodes h; simp [span, nodesAll] at *; omega

theorem flatText_nodes {s : Str} {t : ParamType} (h : FlatText s t) : 2 * nodes t ≤ s.length := by
  induction h with
  | elementary h => have := elementary_nodes h; omega
  | @tuple ps ts h =>
    have h1 := members_nodes h
    simp only [List.length_append, commaSeparated_length, nodes]
    cases ps with
    | nil => simp [span] at h1 ⊢; omega
    | cons p ps => simp at h1 ⊢; omega
  | array _ ih => simp [nodes]; omega
  | fixedArray _ hd ih => simp [nodes]; omega

theorem listText_length (ps : List Str) (p after : Str) :
    (listText ps p after).length = span ps + p.length + 2 + after.length := by
  simp only [listText, List.length_append, commaSeparated_length, span_append]
  simp [span]
  omega

/-- nodes of the types that are kept -/
def keptNodes (kept : List (List ParamType)) : Nat := (kept.map nodesAll).sum

/-- what the pieces since the last opening parenthesis take -/
def pending : Place → Nat
  | .inside _ (some ps) => 1 + span ps
  | _ => 0

def cost (cs : List Cut) : Nat := (cs.map fun c => 2 * (c.text.length + 1)).sum

theorem nodesAll_append (ts us : List ParamType) : nodesAll (ts ++ us) = nodesAll ts + nodesAll us := by
  induction ts with
  | nil => simp [nodesAll]
  | cons t ts ih => simp [nodesAll, ih]; omega

theorem keptNodes_set {kept : List (List ParamType)} {n : Nat} {us vs : List ParamType} (h : kept[n]? = some us) :
    keptNodes (kept.set n vs) + nodesAll us = keptNodes kept + nodesAll vs := by
  induction kept generalizing n with
  | nil => simp at h
  | cons a kept ih =>
    cases n with
    | zero => simp at h; subst h; simp [keptNodes]; omega
    | succ n =>
      have := ih (n := n) (by simpa using h)
      simp [keptNodes] at this ⊢
      omega

theorem cost_withoutNext (r : List Cut) : cost (withoutNext r) + 2 * (nextText r).length = cost r := by
  cases r with
  | nil => rfl
  | cons c r => simp [withoutNext, nextText, cost]; omega

theorem understood_nodes {pl : Place} {kept : List (List ParamType)} {cs : List Cut} {o : Option (List ParamType)}
    (h : Understood pl kept cs o) : ∀ ts, o = some ts → 2 * nodesAll ts ≤ 2 * keptNodes kept + pending pl + cost cs := by
  induction h with
  | done => rintro _ ⟨⟩; simp [nodesAll]
  | @skip n g kept r o _ ih =>
    intro ts hts
    have := ih ts hts
    cases g <;> simp [pending, cost, span] at this ⊢ <;> omega
  | @member g kept p t r o ht _ ih =>
    intro ts hts
    obtain ⟨us, rfl, rfl⟩ := Option.map_eq_some_iff.1 hts
    have h1 := ih us rfl
    have h2 := typeText_nodes ht
    cases g <;> simp [pending, cost, span, nodesAll] at h1 ⊢ <;> omega
  | @keep n g kept us p t r o ht hk _ ih =>
    intro ts hts
    have h1 := ih ts hts
    have h2 := typeText_nodes ht
    have h3 := keptNodes_set (vs := us ++ [t]) hk
    rw [nodesAll_append] at h3
    cases g <;> simp [pending, cost, span, nodesAll] at h1 h3 ⊢ <;> omega
  | badMember => rintro _ ⟨⟩
  | «open» _ ih =>
    intro ts hts
    have h1 := ih ts hts
    simp [pending, cost, span, keptNodes, nodesAll] at h1 ⊢
    omega
  | @close n g kept r o _ ih =>
    intro ts hts
    have h1 := ih ts hts
    have h2 : pending (closed n) = 0 := by cases n <;> rfl
    simp [cost] at h1 ⊢
    omega
  | last ht _ ih =>
    intro ts hts
    obtain ⟨us, rfl, rfl⟩ := Option.map_eq_some_iff.1 hts
    have h1 := ih us rfl
    have h2 := typeText_nodes ht
    simp [pending, cost, nodesAll] at h1 ⊢
    omega
  | badLast => rintro _ ⟨⟩
  | @group kept ps p t r o hp _ ht _ ih =>
    intro ts hts
    obtain ⟨us, rfl, rfl⟩ := Option.map_eq_some_iff.1 hts
    have h1 := ih us rfl
    have h2 := flatText_nodes ht
    rw [listText_length] at h2
    have h3 := cost_withoutNext r
    have h4 := List.length_pos_iff.2 hp
    simp [pending, cost, nodesAll] at h1 h3 ⊢
    omega
  | @deepGroup n kept us ps p t r o hp _ ht hk _ ih =>
    intro ts hts
    obtain ⟨vs, rfl, rfl⟩ := Option.map_eq_some_iff.1 hts
    have h1 := ih vs rfl
    have h2 := flatText_nodes ht
    rw [listText_length] at h2
    have h3 := cost_withoutNext r
    have h4 := List.length_pos_iff.2 hp
    have h5 := keptNodes_set (vs := []) hk
    simp [pending, cost, nodesAll, nodes, nodesAll_append] at h1 h3 h5 ⊢
    omega
  | badGroup => rintro _ ⟨⟩
  | passed _ ih =>
    intro ts hts
    have h1 := ih ts hts
    simp [pending, cost] at h1 ⊢
    omega
  | reopen _ ih =>
    intro ts hts
    have h1 := ih ts hts
    simp [pending, cost] at h1 ⊢
    omega
  | again _ ih =>
    intro ts hts
    have h1 := ih ts hts
    simp [pending, cost, span, keptNodes, nodesAll] at h1 ⊢
    omega

theorem cutsText_length (cs : List Cut) : 2 * (cutsText cs).length = cost cs := by
  induction cs with
  | nil => rfl
  | cons c cs ih => simp [cutsText, cost] at ih ⊢; omega

theorem text_nodes {s : Str} {t : ParamType} (h : Text s t) : nodes t ≤ s.length := by
  induction h with
  | elementary h => have := elementary_nodes h; omega
  | tuple _ h =>
    have h1 := understood_nodes h _ rfl
    have h2 := cutsText_length
    simp [pending, span, keptNodes, nodes, ← h2] at h1 ⊢
    omega
  | array _ ih => simp [nodes]; omega
  | fixedArray _ hd ih => simp [nodes]; omega

/-! ### nesting -/

theorem levelsAll_le {ts : List ParamType} {n : Nat} (h : ∀ t ∈ ts, levels t ≤ n) : levelsAll ts ≤ n := by
  induction ts with
  | nil => simp [levelsAll]
  | cons t ts ih =>
    simp only [levelsAll]
    exact Nat.max_le.2 ⟨h t (by simp), (ih fun u hu => h u (by simp [hu]))⟩

theorem levels_tuple {ts : List ParamType} {n : Nat} (h : ∀ t ∈ ts, levels t ≤ n) : levels (.tuple ts) ≤ n + 1 := by
  simp only [levels]
  split
  · omega
  · have := levelsAll_le h
    omega

theorem elementary_levels {s : Str} {t : ParamType} (h : Elementary s t) : levels t = 0 := by
  cases h <;> simp [levels]

theorem typeText_levels {s : Str} {t : ParamType} (h : TypeText s t) : levels t = 0 := by
  induction h with
  | elementary h => exact elementary_levels h
  | array _ ih => simpa [levels] using ih
  | fixedArray _ hd ih => simpa [levels] using ih

theorem members_levels {ps : List Str} {ts : List ParamType} (h : Members ps ts) : ∀ t ∈ ts, levels t ≤ 0 := by
  induction h with
  | nil => simp
  | skip _ ih => exact ih
  | cons h _ ih =>
    intro t ht
    rcases List.mem_cons.1 ht with rfl | ht
    · exact Nat.le_of_eq (typeText_levels h)
    · exact ih t ht

theorem flatText_levels {s : Str} {t : ParamType} (h : FlatText s t) : levels t ≤ 1 := by
  induction h with
  | elementary h => have := elementary_levels h; omega
  | tuple h => exact levels_tuple (members_levels h)
  | array _ ih => simpa [levels] using ih
  | fixedArray _ hd ih => simpa [levels] using ih

theorem understood_levels {pl : Place} {kept : List (List ParamType)} {cs : List Cut} {o : Option (List ParamType)}
    (h : Understood pl kept cs o) : (∀ us ∈ kept, ∀ t ∈ us, levels t ≤ 0) → ∀ ts, o = some ts → ∀ t ∈ ts, levels t ≤ 2 := by
  have cons : ∀ {o : Option (List ParamType)} {t : ParamType}, levels t ≤ 2 →
      (∀ ts, o = some ts → ∀ t ∈ ts, levels t ≤ 2) → ∀ ts, o.map (t :: ·) = some ts → ∀ t ∈ ts, levels t ≤ 2 := by
    intro o t ht ih ts hts
    obtain ⟨us, rfl, rfl⟩ := Option.map_eq_some_iff.1 hts
    intro u hu
    rcases List.mem_cons.1 hu with rfl | hu
    · exact ht
    · exact ih us rfl u hu
  induction h with
  | done => rintro _ _ ⟨⟩; simp
  | skip _ ih => exact ih
  | member ht _ ih => exact fun hk => cons (by have := typeText_levels ht; omega) (ih hk)
  | @keep n g kept us p t r o ht hk _ ih =>
    intro hkept
    refine ih fun vs hvs => ?_
    rcases List.mem_or_eq_of_mem_set hvs with h | rfl
    · exact hkept vs h
    · intro u hu
      rcases List.mem_append.1 hu with hu | hu
      · exact hkept us (List.mem_of_getElem? hk) u hu
      · rw [List.mem_singleton.1 hu]
        exact Nat.le_of_eq (typeText_levels ht)
  | badMember => rintro _ _ ⟨⟩
  | «open» _ ih =>
    intro hk
    refine ih fun us hus => ?_
    rcases List.mem_append.1 hus with h | h
    · exact hk us h
    · rw [List.mem_singleton.1 h]; simp
  | close _ ih => exact ih
  | last ht _ ih => exact fun hk => cons (by have := typeText_levels ht; omega) (ih hk)
  | badLast => rintro _ _ ⟨⟩
  | group _ _ ht _ ih => exact fun hk => cons (by have := flatText_levels ht; omega) (ih hk)
  | @deepGroup n kept us ps p t r o hp _ ht hk _ ih =>
    intro hkept
    refine cons (levels_tuple fun u hu => ?_) (ih fun vs hvs => ?_)
    · rcases List.mem_append.1 hu with hu | hu
      · have := hkept us (List.mem_of_getElem? hk) u hu
        omega
      · rw [List.mem_singleton.1 hu]
        exact flatText_levels ht
    · rcases List.mem_or_eq_of_mem_set hvs with h | rfl
      · exact hkept vs h
      · simp
  | badGroup => rintro _ _ ⟨⟩
  | passed _ ih => exact ih
  | reopen _ ih => exact ih
  | again _ ih =>
    intro hk
    refine ih fun us hus => ?_
    rcases List.mem_append.1 hus with h | h
    · exact hk us h
    · rw [List.mem_singleton.1 h]; simp

theorem text_levels {s : Str} {t : ParamType} (h : Text s t) : levels t ≤ 3 := by
  induction h with
  | elementary h => have := elementary_levels h; omega
  | tuple _ h => exact levels_tuple (understood_levels h (by simp) _ rfl)
  | array _ ih => simpa [levels] using ih
  | fixedArray _ hd ih => simpa [levels] using ih

end Ethabi.TypeSize

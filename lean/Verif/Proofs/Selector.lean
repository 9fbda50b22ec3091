import Verif.Spec.Selector
import Verif.Proofs.AbiJson
import Verif.Proofs.ReaderTuple
import Verif.Proofs.Signature
/-! # Lemmas for C89 -/
namespace Ethabi.Selector
open Spec

/-- arrays around a type, innermost first -/
def wrap : List (Option Nat) → ParamType → ParamType
  | [], t => t
  | none :: ds, t => wrap ds (.array t)
  | some k :: ds, t => wrap ds (.fixedArray t k)

theorem toString_nat (n : Nat) : (toString n).toList = natText n := by
  show (Nat.repr n).toList = _
  simp [Nat.repr, natText]

theorem write_wrap : ∀ (ds : List (Option Nat)) (t : ParamType), write (wrap ds t) = write t ++ suffixText ds
  | [], t => by simp [wrap, suffixText]
  | none :: ds, t => by
      rw [wrap, write_wrap ds]
      simp [write, writeForAbi, suffixText, lit]
  | some k :: ds, t => by
      rw [wrap, write_wrap ds]
      simp [write, writeForAbi, suffixText, lit, natText]

theorem around_wrap : ∀ (ds : List (Option Nat)) (t : ParamType), AroundTuple (wrap ds t) ↔ AroundTuple t
  | [], t => Iff.rfl
  | none :: ds, t => by
      rw [wrap, around_wrap ds]
      exact ⟨fun h => by cases h; assumption, .array⟩
  | some k :: ds, t => by
      rw [wrap, around_wrap ds]
      exact ⟨fun h => by cases h; assumption, .fixedArray k⟩

theorem withMembers_wrap {more : List ParamType} : ∀ (ds : List (Option Nat)) {t u : ParamType},
    WithMembers more t u → WithMembers more (wrap ds t) (wrap ds u)
  | [], _, _, h => h
  | none :: ds, _, _, h => withMembers_wrap ds (.array h)
  | some k :: ds, _, _, h => withMembers_wrap ds (.fixedArray k h)

theorem read_suffix : ∀ (ds : List (Option Nat)) (b : Str) (t : ParamType), SizesFit ds → ascii b → read b = .ok t →
    read (b ++ suffixText ds) = .ok (wrap ds t)
  | [], b, t, _, _, h => by simpa [suffixText, wrap] using h
  | none :: ds, b, t, hs, ha, h => by
      have h1 : read (b ++ lit "[]") = .ok (.array t) := by rw [read_array ha, h]; rfl
      have := read_suffix ds (b ++ lit "[]") _ (fun k hk => hs k (by simp [hk]))
        (ascii_append ha (ascii_of_all (by decide))) h1
      simpa [suffixText, wrap, lit] using this
  | some k :: ds, b, t, hs, ha, h => by
      have h1 : read (b ++ '[' :: (natText k ++ [']'])) = .ok (.fixedArray t k) := by
        rw [read_fixedArray_nat ha (hs k (by simp)), h]; rfl
      have ha' : ascii (b ++ '[' :: (natText k ++ [']'])) := by
        refine ascii_append ha (ascii_append (a := ['[']) (ascii_of_all (by decide)) ?_)
        exact ascii_append (ascii_natText k) (ascii_of_all (by decide))
      have := read_suffix ds _ _ (fun k hk => hs k (by simp [hk])) ha' h1
      simpa [suffixText, wrap, natText] using this

theorem name_read {b c : Str} (h : CanonicalName b c) : ∃ t, read b = .ok t ∧ write t = c ∧ ¬ AroundTuple t ∧ ascii b := by
  cases h with
  | word w hw =>
    simp only [List.mem_cons, List.not_mem_nil, or_false] at hw
    rcases hw with rfl | rfl | rfl | rfl
    · exact ⟨.address, by decide +kernel, by decide, nofun, ascii_of_all (by decide)⟩
    · exact ⟨.bytes, by decide +kernel, by decide, nofun, ascii_of_all (by decide)⟩
    · exact ⟨.bool, by decide +kernel, by decide, nofun, ascii_of_all (by decide)⟩
    · exact ⟨.string, by decide +kernel, by decide, nofun, ascii_of_all (by decide)⟩
  | int => exact ⟨.int 256, by decide +kernel, by decide +kernel, nofun, ascii_of_all (by decide)⟩
  | uint => exact ⟨.uint 256, by decide +kernel, by decide +kernel, nofun, ascii_of_all (by decide)⟩
  | sized w n hw hn =>
    rw [toString_nat]
    simp only [List.mem_cons, List.not_mem_nil, or_false] at hw
    rcases hw with rfl | rfl | rfl
    · exact ⟨.int n, read_num hn (Or.inl ⟨rfl, rfl⟩), by simp [write, writeForAbi, lit], nofun, ascii_lit_natText (by decide) n⟩
    · exact ⟨.uint n, read_num hn (Or.inr (Or.inl ⟨rfl, rfl⟩)), by simp [write, writeForAbi, lit], nofun,
        ascii_lit_natText (by decide) n⟩
    · exact ⟨.fixedBytes n, read_num hn (Or.inr (Or.inr ⟨rfl, rfl⟩)), by simp [write, writeForAbi, lit], nofun,
        ascii_lit_natText (by decide) n⟩

mutual
theorem type_denotes : ∀ {fs : List (Str × Json)} {c : Str}, CanonicalType fs c →
    ∃ t, DenotesType .buffered fs t ∧ write t = c
  | _, _, .plain ds hn hs ho ha => by
    obtain ⟨t, h1, h2, h3, h4⟩ := name_read hn
    exact ⟨wrap ds t, .plain ho (read_suffix ds _ _ hs h4 h1) (by rwa [around_wrap]) ha, by rw [write_wrap, h2]⟩
  | _, _, .tuple ds hs ho hc hm => by
    obtain ⟨ps, h1, h2⟩ := members_denote hm
    refine ⟨wrap ds (.tuple (ps.map (·.kind))), .tuple ho
      (read_suffix ds _ (.tuple []) hs (ascii_of_all (by decide)) (by decide +kernel)) hc h1
      (withMembers_wrap ds (by simpa using WithMembers.tuple (more := ps.map (·.kind)) [])), ?_⟩
    rw [write_wrap, write_tuple, join_eq_intercalate, ← h2]
    simp [commaSeparated, lit, Function.comp_def]
theorem members_denote : ∀ {xs : List Json} {cs : List Str}, CanonicalMembers xs cs →
    ∃ ps : List TupleParam, DenotesMembers .buffered xs ps ∧ ps.map (fun p => write p.kind) = cs
  | _, _, .nil => ⟨[], .nil, rfl⟩
  | _, _, .cons name internal h1 h2 ht hs => by
    obtain ⟨t, h3, h5⟩ := type_denotes ht
    obtain ⟨ps, h4, h6⟩ := members_denote hs
    exact ⟨{ name := name, kind := t, internalType := internal } :: ps, .cons (.mk nofun h1 h2 h3) h4, by simp [h5, h6]⟩
end

theorem params_denote : ∀ {v : Json} {cs : List Str}, CanonicalParams v cs →
    ∃ ps : List Param, DenotesEach (DenotesParam .buffered) v ps ∧ ps.map (fun p => write p.kind) = cs
  | _, _, .nil => ⟨[], .nil, rfl⟩
  | _, _, .cons name internal h1 h2 ht hs => by
      obtain ⟨t, h3, rfl⟩ := type_denotes ht
      obtain ⟨ps, h4, rfl⟩ := params_denote hs
      exact ⟨{ name := name, kind := t, internalType := internal } :: ps, .cons ⟨_, rfl, nofun, h1, h2, h3⟩ h4, rfl⟩

theorem eventParams_denote : ∀ {v : Json} {cs : List Str}, CanonicalEventParams v cs →
    ∃ ps : List EventParam, DenotesEach (DenotesEventParam .buffered) v ps ∧ ps.map (fun p => write p.kind) = cs
  | _, _, .nil => ⟨[], .nil, rfl⟩
  | _, _, .cons name indexed h1 h2 ht hs => by
      obtain ⟨t, h3, rfl⟩ := type_denotes ht
      obtain ⟨ps, h4, rfl⟩ := eventParams_denote hs
      exact ⟨{ name := name, kind := t, indexed := indexed } :: ps, .cons ⟨_, rfl, nofun, h1, h2, h3⟩ h4, rfl⟩

theorem signature_bytes {name : Str} {ts : List ParamType} {cs : List Str} (h : ts.map write = cs) :
    strBytes (signatureText name ts) = signatureBytes name cs := by
  subst h
  rw [strBytes, utf8_eq_core, signatureBytes, signatureText, join_eq_intercalate]
  rfl

theorem commaSeparated_writes (ts : List ParamType) : join (lit ",") (ts.map write) = commaSeparated (ts.map write) := by
  rw [join_eq_intercalate]; rfl

theorem write_ne_nil (t : ParamType) : write t ≠ [] := by
  cases t <;> simp [write, writeForAbi, lit]

theorem function_signature (f : Function) : f.signature = f.name ++ "(".toList ++
    commaSeparated (f.inputs.map fun p => write p.kind) ++ ")".toList ++
    (if f.outputs.map (fun p => write p.kind) = [] then []
      else ":(".toList ++ commaSeparated (f.outputs.map fun p => write p.kind) ++ ")".toList) := by
  have h1 := commaSeparated_writes (f.inputs.map (·.kind))
  have h2 := commaSeparated_writes (f.outputs.map (·.kind))
  simp only [List.map_map, Function.comp_def] at h1 h2
  rw [Function.signature]
  simp only [h1, h2]
  cases ho : f.outputs with
  | nil => simp [commaSeparated, lit]
  | cons p ps =>
    have : (commaSeparated (List.map (fun p => write p.kind) (p :: ps))).length ≠ 0 := by
      rw [← ho, ← h2, ho]
      have := write_ne_nil p.kind
      cases ps <;> simp [join, this]
    rw [if_neg this]
    simp [lit]

end Ethabi.Selector

import Verif.Proofs.DeriveEntry
import Verif.Props.Generate
import Verif.Props.AbiJson
/-!
# C84: which contract the macros generate code for
-/
namespace Ethabi.Props
open Spec DeriveEntry

/-- **C84.** The derive macro produces exactly the text generated for the contract of one file: the file that the first
`ethabi_contract_options` attribute names in its first `path` option, seen from the directory of the manifest.  It does so
exactly if there is such an option, the directory is known, the file can be read, is JSON, loads as a contract and the
contract satisfies the condition of C69. -/
theorem C84_expands (nm : Naming) (w : World) (attrs : List Attribute) (code : Code) :
    ethabiDerive nm w attrs = .ok code ↔ ∃ rel dir path j c, AsksFor attrs rel ∧ w.manifestDir = some dir ∧
      PlacedAt dir rel path ∧ w.file path = some (some j) ∧ deContract j = .ok c ∧ contractOk nm c = true ∧
      generateContract nm c = .ok code := by
  have h : ethabiDerive nm w attrs = .ok code ↔ implEthabiDerive nm w attrs = .ok code := by
    unfold ethabiDerive
    cases implEthabiDerive nm w attrs <;> simp
  rw [h, impl_ok]
  constructor
  · rintro ⟨rel, dir, path, j, c, h1, h2, h3, h4, h5, h6⟩
    refine ⟨rel, dir, path, j, c, h1, h2, h3, h4, h5, ?_, h6⟩
    cases hc : contractOk nm c with
    | true => rfl
    | false => rw [(C69_generates nm c).2 hc] at h6; cases h6
  · rintro ⟨rel, dir, path, j, c, h1, h2, h3, h4, h5, -, h6⟩
    exact ⟨rel, dir, path, j, c, h1, h2, h3, h4, h5, h6⟩

/-- **C84**: in all other cases compilation stops; the macro has no other outcome. -/
theorem C84_stops (nm : Naming) (w : World) (attrs : List Attribute) :
    (∃ code, ethabiDerive nm w attrs = .ok code) ∨ ethabiDerive nm w attrs = .panic := by
  unfold ethabiDerive
  cases implEthabiDerive nm w attrs with
  | ok code => exact .inl ⟨code, rfl⟩
  | err e => exact .inr rfl
  | panic => exact .inr rfl

/-- **C84**: the option and the place are unique, so the file is. -/
theorem C84_one_file (attrs : List Attribute) (dir rel rel' path path' : Str) (h : AsksFor attrs rel) (h' : AsksFor attrs rel')
    (hl : PlacedAt dir rel path) (hl' : PlacedAt dir rel' path') : rel = rel' ∧ path = path' := by
  have hr : rel = rel' := by
    have := ((asksFor_iff attrs rel).2 h).symm.trans ((asksFor_iff attrs rel').2 h')
    simpa using this
  subst hr
  exact ⟨rfl, ((placedAt_iff dir rel path).1 hl).trans ((placedAt_iff dir rel path').1 hl').symm⟩

/-- **C84**: nothing else is read.  Two machines that agree on the directory and on that file generate the same text. -/
theorem C84_reads_only (nm : Naming) (w w' : World) (attrs : List Attribute) (dir rel path : Str) (h : AsksFor attrs rel)
    (hd : w.manifestDir = some dir) (hd' : w'.manifestDir = some dir) (hl : PlacedAt dir rel path)
    (hf : w.file path = w'.file path) : ethabiDerive nm w attrs = ethabiDerive nm w' attrs := by
  have hp := (placedAt_iff dir rel path).1 hl
  unfold ethabiDerive
  have : implEthabiDerive nm w attrs = implEthabiDerive nm w' attrs := by
    rw [impl_eq, impl_eq, (asksFor_iff attrs rel).2 h]
    simp only [Res.ok_bind, normalizePath, hd, hd', ← hp]
    simp only [loadFile, hf]
  rw [this]

/-- **C84**: attributes after the one that names the file change nothing, whatever they are. -/
theorem C84_later_attributes (nm : Naming) (w : World) (attrs more : List Attribute) (rel : Str) (h : AsksFor attrs rel) :
    AsksFor (attrs ++ more) rel ∧ ethabiDerive nm w (attrs ++ more) = ethabiDerive nm w attrs := by
  have h' : AsksFor (attrs ++ more) rel := by
    obtain ⟨ms, nested, items, h1, ⟨before, after, h2, h3, h4⟩, h5, h6⟩ := h
    refine ⟨ms ++ more.filterMap Attribute.parsed, nested, items, ?_, ⟨before, after ++ more.filterMap Attribute.parsed, ?_, h3, h4⟩, h5, h6⟩
    · rw [parsed_iff] at h1 ⊢
      rw [h1, List.filterMap_append]
    · rw [h2]; simp
  refine ⟨h', ?_⟩
  unfold ethabiDerive
  have : implEthabiDerive nm w (attrs ++ more) = implEthabiDerive nm w attrs := by
    rw [impl_eq, impl_eq, (asksFor_iff _ rel).2 h, (asksFor_iff _ rel).2 h']
  rw [this]

/-- **C84** for `use_contract!(name, "rel")`: a module with the text generated for the contract in the file `rel`. -/
theorem C84_use_contract (nm : Naming) (w : World) (name rel : Str) (code : Code) :
    useContract nm w name rel = .ok code ↔ ∃ dir path j c inner, w.manifestDir = some dir ∧ PlacedAt dir rel path ∧
      w.file path = some (some j) ∧ deContract j = .ok c ∧ contractOk nm c = true ∧ generateContract nm c = .ok inner ∧
      code = [.word "pub".toList, .word "mod".toList, .word name, .word "{".toList] ++ inner ++ [.word "}".toList] := by
  have hask : ∀ r, AsksFor (useContractAttrs rel) r ↔ r = rel := by
    intro r
    rw [← asksFor_iff]
    constructor
    · intro h
      have : (Res.ok rel : Res Str) = .ok r := by
        rw [← h]
        simp [useContractAttrs, getOptions, getOption, Meta.name, MetaPath.isIdent, NestedMeta.toMeta, strValueOfMetaItem]
      simpa using this.symm
    · rintro rfl
      simp [useContractAttrs, getOptions, getOption, Meta.name, MetaPath.isIdent, NestedMeta.toMeta, strValueOfMetaItem]
  unfold useContract
  rw [bind_ok]
  constructor
  · rintro ⟨inner, h1, h2⟩
    obtain ⟨r, dir, path, j, c, h3, h4, h5, h6, h7, h8, h9⟩ := (C84_expands nm w _ inner).1 h1
    rw [(hask r).1 h3] at h5
    exact ⟨dir, path, j, c, inner, h4, h5, h6, h7, h8, h9, (Res.ok.inj h2).symm⟩
  · rintro ⟨dir, path, j, c, inner, h4, h5, h6, h7, h8, h9, h10⟩
    exact ⟨inner, (C84_expands nm w _ inner).2 ⟨rel, dir, path, j, c, (hask rel).2 rfl, h4, h5, h6, h7, h8, h9⟩,
      congrArg Res.ok h10.symm⟩

/-- a project with one file -/
def oneFile : World where
  manifestDir := some (lit "/p")
  file s := if s = lit "/p/a.json" then some (some (.arr [])) else none

/-- attributes that do not parse, other attributes and options, and literals among the options are passed over -/
example : AsksFor [⟨none⟩, ⟨some (.path ⟨false, [lit "inline"]⟩)⟩,
    ⟨some (.list ⟨false, [lit "ethabi_contract_options"]⟩ [.lit .other, .item (.path ⟨true, [lit "path"]⟩),
      .item (.nameValue ⟨false, [lit "path"]⟩ (.str (lit "a.json"))), .item (.nameValue ⟨false, [lit "path"]⟩ .other)])⟩] (lit "a.json") := by
  rw [← asksFor_iff]
  rfl

example : PlacedAt (lit "/p") (lit "a.json") (lit "/p/a.json") := .below _ (by decide) (fun d h => by
  have := congrArg List.getLast? h
  simp [lit] at this) (by decide)

/-- `use_contract!(m, "a.json")` in that project succeeds, and with another name it stops -/
example : ∃ code, useContract plainNaming oneFile (lit "m") (lit "a.json") = .ok code := by
  obtain ⟨inner, h⟩ := (C69_generates plainNaming {}).1 (by decide)
  exact ⟨_, (C84_use_contract _ _ _ _ _).2 ⟨lit "/p", lit "/p/a.json", .arr [], {}, inner, rfl,
    (placedAt_iff _ _ _).2 (by decide), by rfl, by rfl, by decide, h, rfl⟩⟩
example : useContract plainNaming oneFile (lit "m") (lit "b.json") = .panic := rfl

end Ethabi.Props

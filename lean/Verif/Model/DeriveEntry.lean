import Verif.Model.Generate
/-!
# The entry point of the code generator

derive/src/lib.rs:27-83 and contract/src/lib.rs.  Parameters of the model: how `syn` parses an attribute (`Attribute.parsed`
is the outcome of `parse_meta`), the environment and the files (`World`), `serde_json`'s parser of JSON texts.
-/
namespace Ethabi

/-- `syn::Path` of a meta item: segments and a leading `::` (paths in meta items have no generic arguments) -/
structure MetaPath where
  leading : Bool
  segments : List Str
deriving DecidableEq, Repr

/-- `Path::is_ident` (syn): one segment, no leading colon -/
def MetaPath.isIdent (p : MetaPath) (name : Str) : Bool := !p.leading && p.segments == [name]

/-- `syn::Lit`: a string literal with its value, or another literal -/
inductive MetaLit where
  | str (value : Str)
  | other
deriving DecidableEq, Repr

mutual
/-- `syn::Meta`: `path`, `path(nested, …)`, `path = literal` -/
inductive Meta where
  | path (p : MetaPath)
  | list (p : MetaPath) (nested : List NestedMeta)
  | nameValue (p : MetaPath) (value : MetaLit)

/-- `syn::NestedMeta`: a meta item or a literal -/
inductive NestedMeta where
  | item (m : Meta)
  | lit (l : MetaLit)
end

/-- `Meta::path` (syn) -/
def Meta.name : Meta → MetaPath
  | .path p => p
  | .list p _ => p
  | .nameValue p _ => p

/-- an attribute of the item, with the outcome of `syn::Attribute::parse_meta`, `none` for an error -/
structure Attribute where
  parsed : Option Meta

/-- what the macro reads: the variable CARGO_MANIFEST_DIR (`none`: not set or not Unicode), the JSON tree of each file that can
be opened (`none`: cannot be opened, `some none`: not JSON) -/
structure World where
  manifestDir : Option Str
  file : Str → Option (Option Json)

/-- derive/src/lib.rs:45-52 `get_options` (`flat_map` over `Result` drops the errors) -/
def getOptions (attrs : List Attribute) (name : Str) : Res (List NestedMeta) :=
  match (attrs.filterMap Attribute.parsed).find? fun m => m.name.isIdent name with
  | some (.list _ nested) => .ok nested
  | _ => .err .other

/-- derive/src/lib.rs:57-60 -/
def NestedMeta.toMeta : NestedMeta → Option Meta
  | .item m => some m
  | .lit _ => none

/-- derive/src/lib.rs:67-75 `str_value_of_meta_item` -/
def strValueOfMetaItem : Meta → Res Str
  | .nameValue _ (.str value) => .ok value
  | _ => .err .other

/-- derive/src/lib.rs:54-65 `get_option` -/
def getOption (options : List NestedMeta) (name : Str) : Res Str :=
  match (options.filterMap NestedMeta.toMeta).find? fun m => m.name.isIdent name with
  | none => .err .other
  | some item => strValueOfMetaItem item

/-- `PathBuf::push` (std, Unix): an absolute path replaces, otherwise a separator is added where missing -/
def pathPush (path relative : Str) : Str :=
  if relative.head? = some '/' then relative
  else if path = [] ∨ path.getLast? = some '/' then path ++ relative
  else path ++ lit "/" ++ relative

/-- derive/src/lib.rs:77-83 `normalize_path` -/
def normalizePath (w : World) (relative : Str) : Res Str :=
  match w.manifestDir with
  | none => .err .other
  | some dir => .ok (pathPush dir relative)

/-- derive/src/lib.rs:38-40: opening the file and `Contract::load` (ethabi/src/contract.rs:140-142) -/
def loadFile (w : World) (path : Str) : Res Contract :=
  match w.file path with
  | none => .err .other
  | some none => .err .serdeJson
  | some (some j) => deContract j

/-- derive/src/lib.rs:34-43 `impl_ethabi_derive` -/
def implEthabiDerive (nm : Naming) (w : World) (attrs : List Attribute) : Res Code := do
  let options ← getOptions attrs (lit "ethabi_contract_options")
  let path ← getOption options (lit "path")
  let normalized ← normalizePath w path
  let contract ← loadFile w normalized
  generateContract nm contract

/-- derive/src/lib.rs:27-32 `ethabi_derive` after `syn::parse` of the item: `expect` panics on an error -/
def ethabiDerive (nm : Naming) (w : World) (attrs : List Attribute) : Res Code :=
  match implEthabiDerive nm w attrs with
  | .ok code => .ok code
  | _ => .panic

/-- contract/src/lib.rs:18-20: the attributes of the struct inside the module that `use_contract!` writes; the derive macro
sees only its helper attribute -/
def useContractAttrs (path : Str) : List Attribute :=
  [⟨some (.list ⟨false, [lit "ethabi_contract_options"]⟩ [.item (.nameValue ⟨false, [lit "path"]⟩ (.str path))])⟩]

/-- contract/src/lib.rs:9-23 `use_contract!`: the module around the generated code (lint attributes and the struct are
left out: they generate no code) -/
def useContract (nm : Naming) (w : World) (name path : Str) : Res Code := do
  let code ← ethabiDerive nm w (useContractAttrs path)
  .ok (r! "pub mod" ++ [.word name] ++ r! "{" ++ code ++ r! "}")

end Ethabi

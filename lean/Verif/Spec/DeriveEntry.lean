import Verif.Model.DeriveEntry
/-!
# Which file a contract is generated from

Uses only the data types of Model/DeriveEntry.lean.
-/
namespace Ethabi.Spec

/-- the item is written `name`, `name(…)` or `name = …` -/
inductive Named (name : Str) : Meta → Prop
  | path : Named name (.path ⟨false, [name]⟩)
  | list (nested) : Named name (.list ⟨false, [name]⟩ nested)
  | nameValue (value) : Named name (.nameValue ⟨false, [name]⟩ value)

/-- `m` is the first item of this name -/
def FirstNamed (name : Str) (ms : List Meta) (m : Meta) : Prop :=
  ∃ before after, ms = before ++ m :: after ∧ Named name m ∧ ∀ x ∈ before, ¬ Named name x

/-- `ms` are the attributes that parse, in order -/
inductive Parsed : List Attribute → List Meta → Prop
  | nil : Parsed [] []
  | good {m as ms} : Parsed as ms → Parsed (⟨some m⟩ :: as) (m :: ms)
  | bad {as ms} : Parsed as ms → Parsed (⟨none⟩ :: as) ms

/-- `ms` are the items among the options that are not mere literals, in order -/
inductive Items : List NestedMeta → List Meta → Prop
  | nil : Items [] []
  | item {m ns ms} : Items ns ms → Items (.item m :: ns) (m :: ms)
  | lit {l ns ms} : Items ns ms → Items (.lit l :: ns) ms

/-- the attributes say `#[ethabi_contract_options(…, path = "rel", …)]`: the first attribute of that name is a list, and its
first item called `path` has a string for a value -/
def AsksFor (attrs : List Attribute) (rel : Str) : Prop :=
  ∃ ms nested items, Parsed attrs ms ∧ FirstNamed "ethabi_contract_options".toList ms (.list ⟨false, ["ethabi_contract_options".toList]⟩ nested) ∧
    Items nested items ∧ FirstNamed "path".toList items (.nameValue ⟨false, ["path".toList]⟩ (.str rel))

/-- the place of `rel` seen from the directory `dir` -/
inductive PlacedAt (dir : Str) : Str → Str → Prop
  | absolute (r) : PlacedAt dir ('/' :: r) ('/' :: r)
  | inside (d rel) : dir = d ++ ['/'] → rel.head? ≠ some '/' → PlacedAt dir rel (d ++ '/' :: rel)
  | below (rel) : dir ≠ [] → (∀ d, dir ≠ d ++ ['/']) → rel.head? ≠ some '/' → PlacedAt dir rel (dir ++ '/' :: rel)
  | empty (rel) : dir = [] → rel.head? ≠ some '/' → PlacedAt dir rel rel

end Ethabi.Spec

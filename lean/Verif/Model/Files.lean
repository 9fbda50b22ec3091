import Verif.Model.CliExecute
import Verif.Model.DeriveEntry
import Verif.Model.JsonText
/-!
# The command line tool and the derive macro on file texts

Both open a file and pass it to `Contract::load`, which reads it piece by piece (Model/JsonText.lean): a crash of one operation comes
before an error in the text behind it.  Here files are texts, `none` when a file cannot be opened.
-/
namespace Ethabi

/-- cli/src/main.rs:96-97, 129-130 and derive/src/lib.rs:38-40: `File::open` and `Contract::load` -/
def loadText (fits : Str → Bool) (file : Str → Option Str) (path : Str) : Res Contract :=
  match file path with
  | none => .err .other
  | some s => JsonText.load fits s

/-- cli/src/main.rs:73-93 `execute` -/
def executeText (hash : Bytes → Word) (parseHash : Str → Res Word) (prof : Profile) (fits : Str → Bool) (file : Str → Option Str) :
    Command → Res Str
  | .encodeFunction path name params lenient => do
      let contract ← loadText fits file path
      let function ← selectFunction contract name
      encodeInputOf hash prof function params lenient
  | .encodeParams params lenient => cliEncodeParams prof params lenient
  | .decodeFunction path name data => do
      let contract ← loadText fits file path
      let function ← selectFunction contract name
      decodeOutputOf prof function data
  | .decodeParams types data => cliDecodeParams prof types data
  | .decodeLog path name topics data => do
      let contract ← loadText fits file path
      let event ← selectEvent hash contract name
      decodeLogOf hash parseHash prof event topics data

/-- derive/src/lib.rs:34-43 `impl_ethabi_derive`; `manifestDir` is the variable CARGO_MANIFEST_DIR -/
def implEthabiDeriveText (nm : Naming) (fits : Str → Bool) (manifestDir : Option Str) (file : Str → Option Str)
    (attrs : List Attribute) : Res Code := do
  let options ← getOptions attrs (lit "ethabi_contract_options")
  let path ← getOption options (lit "path")
  let normalized ← normalizePath { manifestDir := manifestDir, file := fun _ => none } path
  let contract ← loadText fits file normalized
  generateContract nm contract

/-- derive/src/lib.rs:27-32 `ethabi_derive` after `syn::parse` of the item -/
def ethabiDeriveText (nm : Naming) (fits : Str → Bool) (manifestDir : Option Str) (file : Str → Option Str)
    (attrs : List Attribute) : Res Code :=
  match implEthabiDeriveText nm fits manifestDir file attrs with
  | .ok code => .ok code
  | _ => .panic

end Ethabi

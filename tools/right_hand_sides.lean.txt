import Verif.Tests.Determined
import Lean
/-! Prints, for each theorem of `Tests/Determined.lean`, the definitions of the project that its hypotheses use (directly or not). -/
open Lean Meta
partial def collect (env : Environment) : List Name → NameSet → NameSet
  | [], s => s
  | n :: ns, s =>
    if s.contains n then collect env ns s else
    match env.getModuleIdxFor? n with
    | none => collect env ns s
    | some i =>
      if !(`Verif).isPrefixOf env.header.moduleNames[i.toNat]! then collect env ns s else
      match env.find? n with
      | none => collect env ns (s.insert n)
      | some ci =>
        let us := ci.type.getUsedConstants.toList ++ (match ci with
          | .thmInfo _ => []
          | .inductInfo v => v.ctors
          | _ => match ci.value? (allowOpaque := true) with | some v => v.getUsedConstants.toList | none => [])
        collect env (us ++ ns) (s.insert n)
run_meta do
  let env ← getEnv
  for (n, ci) in env.constants.map₁.toList do
    if (`Ethabi.Checkers).isPrefixOf n then
      if let .str _ s := n then
        if let some i := env.getModuleIdxFor? n then
          if env.header.moduleNames[i.toNat]! == `Verif.Tests.Determined && s.startsWith "c" then
            forallTelescope ci.type fun xs _ => do
              let mut us := []
              for x in xs do us := (← inferType x).getUsedConstants.toList ++ us
              let l := (collect env us {}).toList.map fun c => toString (privateToUserName c)
              IO.println s!"{s} {" ".intercalate l}"

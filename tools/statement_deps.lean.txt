import Verif
import Lean
open Lean
partial def collect (env : Environment) : List Name → NameSet → NameSet
  | [], s => s
  | n :: ns, s =>
    if s.contains n then collect env ns s else
    match env.getModuleIdxFor? n with
    | none => collect env ns s
    | some i =>
      let m := env.header.moduleNames[i.toNat]!
      if !(`Verif).isPrefixOf m then collect env ns s else
      let s := s.insert n
      match env.find? n with
      | none => collect env ns s
      | some ci =>
        let us := ci.type.getUsedConstants.toList ++ (match ci with | .thmInfo _ => [] | _ => match ci.value? (allowOpaque := true) with | some v => v.getUsedConstants.toList | none => [])
        collect env (us ++ ns) s
run_meta do
  let env ← getEnv
  let mut out := #[]
  for (n, ci) in env.constants.map₁.toList do
    if (`Ethabi.Props).isPrefixOf n && (match ci with | .thmInfo _ => true | _ => false) then
      if let .str _ s := n then
        if s.startsWith "C" then
          let cs := (collect env [n] {}).toList
          let mut l := #[]
          for c in cs do
            if let some i := env.getModuleIdxFor? c then
              l := l.push (s!"{env.header.moduleNames[i.toNat]!}:{privateToUserName c}")
          out := out.push (s!"{s}\t" ++ " ".intercalate l.toList)
  IO.FS.writeFile "/tmp/mut/stm13.tsv" ("\n".intercalate out.toList)

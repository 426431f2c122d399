import Lean
open Lean
/- args: modules.  For each property theorem (Scrypt.Props.C##_*) of these modules, OK or BAD (depends on sorryAx);
   DIRECT: declarations whose own proof failed. -/
partial def visit (env : Environment) (c : Name) (memo : IO.Ref (NameMap Bool)) : IO Bool := do
  if let some b := (← memo.get).find? c then return b
  if c == ``sorryAx then return true
  let some mi := env.getModuleIdxFor? c | return (env.find? c).isNone  -- a declaration that was lost: its proof failed
  unless (`Verif).isPrefixOf (env.header.moduleNames[mi.toNat]!) do return false
  memo.modify (·.insert c false)
  let some ci := env.find? c | return true
  if let .axiomInfo _ := ci then  -- a theorem the kernel rejected is kept as an axiom
    memo.modify (·.insert c true)
    return true
  let mut es := ci.type.getUsedConstants
  if let some v := ci.value? (allowOpaque := true) then es := es ++ v.getUsedConstants
  if let .inductInfo v := ci then es := es ++ v.ctors.toArray
  let mut bad := false
  if es.contains ``sorryAx then IO.println s!"DIRECT {c}"
  for e in es do
    if (← visit env e memo) then bad := true
  memo.modify (·.insert c bad)
  return bad

unsafe def main (args : List String) : IO UInt32 := do
  initSearchPath (← findSysroot)
  let mods := args.map String.toName
  let env ← importModules (mods.map fun m => { module := m }).toArray {} 0
  let memo ← IO.mkRef ({} : NameMap Bool)
  for (n, ci) in env.constants.map₁.toList do
    let s := n.toString
    if s.startsWith "Scrypt.Props.C" && !n.isInternal then
      if let .thmInfo _ := ci then
        if let some mi := env.getModuleIdxFor? n then
          if mods.contains (env.header.moduleNames[mi.toNat]!) then
            let b ← visit env n memo
            IO.println s!"{if b then "BAD" else "OK"} {s}"
  return 0

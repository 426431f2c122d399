import Lean
open Lean Elab
/- Compile one module, reporting errors, and write its .olean even if there are errors
   (declarations whose proof failed are then present with sorryAx). -/
unsafe def main (args : List String) : IO UInt32 := do
  enableInitializersExecution
  initSearchPath (← findSysroot)
  let [modName, src, out] := args | return 2
  let input ← IO.FS.readFile src
  let opts : Options := {}
  let opts := Lean.internal.cmdlineSnapshots.setIfNotSet opts true
  let opts := Elab.async.setIfNotSet opts true
  let opts := opts.setBool `autoImplicit true
  let ictx := Parser.mkInputContext input src
  let name := modName.toName
  let setup (stx : HeaderSyntax) := do
    return .ok { imports := stx.imports, isModule := stx.isModule, mainModuleName := name, opts, trustLevel := 0, plugins := #[] }
  let snap ← Language.Lean.process setup none { ictx with }
  let snaps := Language.toSnapshotTree snap
  let hasErrors ← snaps.runAndReport opts false {}
  let some st := Language.Lean.waitForFinalCmdState? snap | return 3
  writeModule st.env out
  return if hasErrors then 1 else 0

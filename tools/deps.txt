import Verif
import Lean
/- Prints, for every declaration of the project: name, module, first and last line, and the project declarations it uses. -/
open Lean Elab Command
run_cmd do
  let env ← getEnv
  let mods := env.header.moduleNames
  for (n, c) in env.constants.map₁.toList do
    let some i := env.getModuleIdxFor? n | continue
    let m := mods[i.toNat]!
    unless (`Verif).isPrefixOf m do continue
    let used := c.getUsedConstantsAsSet.toList.filter fun u =>
      match env.getModuleIdxFor? u with
      | some j => (`Verif).isPrefixOf mods[j.toNat]!
      | none => false
    let r ← liftTermElabM (findDeclarationRanges? n)
    let (a, b) := match r with | some r => (r.range.pos.line, r.range.endPos.line) | none => (0, 0)
    IO.println s!"DEP\t{n}\t{m}\t{a}\t{b}\t{" ".intercalate (used.map toString)}"

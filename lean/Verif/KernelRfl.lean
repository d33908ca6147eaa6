import Lean.Elab.Tactic.Basic
import Lean.Meta.AppBuilder
/-!
# `kernel_rfl`

Closes an equation by reflexivity and leaves the check that both sides compute to the same value to the kernel alone: `rfl` makes the
elaborator compute them first, which is slow.
-/
namespace Verif
open Lean Elab Tactic Meta in
elab "kernel_rfl" : tactic => do
  let g ← getMainGoal
  let t ← instantiateMVars (← g.getType)
  let some (_, a, _) := t.consumeMData.eq? | throwError "kernel_rfl: not an equation"
  g.assign (← mkEqRefl a)
end Verif

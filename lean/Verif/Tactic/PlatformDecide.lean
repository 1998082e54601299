import Verif.Tactic.KernelDecide
import Verif.Model.Value
import Lean.Meta.Tactic.Cases

/-! # `kernel_decide` for both widths of `usize` -/

open Lean Meta Elab Tactic

/-- Splits the goal by the width of `usize` of the platform in the context. -/
elab "each_platform" : tactic => do
  let goal ← getMainGoal
  goal.withContext do
    for d in ← getLCtx do
      if d.type.isConstOf ``Nrbf.Platform then
        let gs ← goal.cases d.fvarId
        let mut out := []
        for g in gs do
          if let some e := g.fields[0]? then
            out := out ++ ((← g.mvarId.cases e.fvarId!).toList.map (·.mvarId))
        replaceMainGoal out
        return
    throwError "no platform"

/-- `kernel_decide`, once for each width of `usize`. -/
macro "platform_decide" : tactic => `(tactic| (each_platform <;> kernel_decide))

import Lean.Elab.Tactic.Basic
import Lean.Meta.AppBuilder

/-! # `decide +kernel` for goals with free variables

`kernel_decide` closes `P` with the proof term `of_decide_eq_true (Eq.refl true)` and leaves checking
it to the kernel, as `decide +kernel` does, but without insisting on a closed goal: the free variables
(here: the platform) must simply not be needed by the evaluation.  Nothing is trusted: if
the evaluation gets stuck or yields `false` the kernel rejects the theorem. -/

open Lean Meta Elab Tactic

elab "kernel_decide" : tactic => do
  let goal ← getMainGoal
  goal.withContext do
    let p ← instantiateMVars (← goal.getType)
    let inst ← synthInstance (mkApp (mkConst ``Decidable) p)
    let refl := mkApp2 (mkConst ``Eq.refl [1]) (mkConst ``Bool) (mkConst ``Bool.true)
    goal.assign (mkApp3 (mkConst ``of_decide_eq_true) p inst refl)

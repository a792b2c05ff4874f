import Lean.Elab.Tactic.Basic
import Lean.Meta.AppBuilder

/-! # Closing an equation by evaluation in the kernel

`decide +kernel` refuses statements with variables.  `kernel_rfl` closes `a = b` with the term
`Eq.refl a`; the elaborator does not look at it, the kernel evaluates both sides and compares them.
Nothing is added to the trusted base. -/

open Lean Elab Tactic Meta in
elab "kernel_rfl" : tactic => do
  let g ← getMainGoal
  let some (_, l, _) := (← instantiateMVars (← g.getType)).eq? | throwError "not an equation"
  g.assign (← mkEqRefl l)

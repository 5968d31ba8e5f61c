import Lean.Elab.Tactic.Basic

/-!
# Closing an equation by computation in the kernel

`kernel_rfl` closes `a = b` with `Eq.refl b` and leaves the check to the kernel, which evaluates both
sides by its own reduction rules. It adds no axiom and trusts nothing but the kernel; `rfl` does the
same after a (much slower) check by the elaborator.
-/

open Lean Elab Tactic Meta in
/-- Close `a = b` by kernel computation. -/
elab "kernel_rfl" : tactic => do
  let g ← getMainGoal
  g.withContext do
    let t ← instantiateMVars (← g.getType)
    match t.eq? with
    | some (α, _, b) =>
      let u ← getLevel α
      g.assign (mkApp2 (mkConst ``Eq.refl [u]) α b)
    | none => throwError "kernel_rfl: the goal is not an equation"

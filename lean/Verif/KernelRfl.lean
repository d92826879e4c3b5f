import Lean
/-!
A tactic closing `a = b` by `Eq.refl a`, leaving the check that both sides are definitionally equal
to the kernel (the elaborator's own unifier is too slow for large symbolic evaluations).  It adds
nothing to the trusted base: the term produced is an ordinary proof term `Eq.refl a`, type-checked by
the kernel when the theorem is added.
-/
open Lean Meta Elab Tactic in
/-- close an equation by kernel computation -/
elab "kernel_rfl" : tactic => do
  let g ← getMainGoal
  g.withContext do
    let t ← instantiateMVars (← g.getType)
    let some (_, a, _) := t.eq? | throwError "kernel_rfl: not an equation"
    g.assign (← mkEqRefl a)
    replaceMainGoal []

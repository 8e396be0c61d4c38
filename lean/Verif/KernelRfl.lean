import Lean.Elab.Tactic.Basic
/-!
# `kernel_rfl`

`kernel_rfl` closes a goal `a = b` with `Eq.refl a` and leaves it to the kernel to check that
`a` and `b` are definitionally equal, as `decide +kernel` does for decidable closed goals.  It
is used for concrete witnesses (runs of the model on literals) that mention a variable, such as
the abstract library `L`, which `decide` does not accept.  If the two sides are not equal the
kernel rejects the declaration.
-/

open Lean Elab Tactic Meta

elab "kernel_rfl" : tactic => do
  let g ← getMainGoal
  let t ← instantiateMVars (← g.getType)
  match t.eq? with
  | some (ty, a, _) =>
    let u ← getLevel ty
    g.assign (mkApp2 (mkConst ``Eq.refl [u]) ty a)
  | none => throwError "kernel_rfl: the goal is not an equality"

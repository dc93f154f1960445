import Lean.Elab.Tactic.Basic

/-!
A tactic that closes `a = b` by `Eq.refl a` and leaves the check that `a` and `b` are the same to the kernel.
The elaborator would try the same check first, which takes too long for runs of the client model.
-/
namespace Mqtt

open Lean Elab Tactic Meta in
elab "kernel_rfl" : tactic => liftMetaTactic fun g => do
  let some (_, lhs, _) := (← g.getType).eq? | throwError "not an equation"
  g.assign (← mkEqRefl lhs)
  return []

end Mqtt

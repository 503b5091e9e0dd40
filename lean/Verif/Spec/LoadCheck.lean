import Verif.Spec.Convergence
import Verif.Spec.Combi

/-!
# When a criterion is met by a manager which has not been started
-/

namespace Glompo.Spec

open Glompo

/-- One of the bundled criteria is met by the counters and times in `v`. The one about shut downs after convergence remembers, from earlier
calls, whether enough optimizers had converged and how many had been shut down then; if not, it counts from now on. -/
def MetBy (v : CView) (mem : Latch) : Checker → Prop
  | .killsAfterConvergence nKilled nConverged =>
    if mem.enough = true then nKilled ≤ (v.kills : Int) - mem.killCount else nConverged ≤ v.convCounter ∧ nKilled ≤ 0
  | c => Meaning v c

/-- The same for a combination of criteria. -/
def MetAllBy (chk : Nat → Checker) (v : CView) (mem : Nat → Latch) : Cond → Prop
  | .leaf i => MetBy v (mem i) (chk i)
  | .or _ a b => MetAllBy chk v mem a ∨ MetAllBy chk v mem b
  | .and _ a b => MetAllBy chk v mem a ∧ MetAllBy chk v mem b

end Glompo.Spec

import Verif.Spec.Manager

/-!
# How far the number of optimizers overshoots

Vocabulary of C136: how many optimizers were created since the criterion was last asked, and a limit on their number.
-/

namespace Glompo.Spec

open Glompo.Manager

/-- Number of optimizers created since the convergence criterion was last asked. -/
def createdSince (ev : List Ev) : Nat :=
  ev.foldl (fun n x => match x with | .checked _ => 0 | .newId _ => n + 1 | _ => n) 0

/-- The convergence criterion answers `True` whenever at least `n` optimizers have been created (`MaxOptsStarted(n)`, alone or with others combined
by or), in the events `ev` after the events `old`. -/
def StopsAtCreated (n : Nat) (old ev : List Ev) : Prop :=
  ∀ pre b post, ev = pre ++ .checked b :: post → n ≤ (newIdsOf (old ++ pre)).length → b = true

end Glompo.Spec

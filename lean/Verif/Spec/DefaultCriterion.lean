import Verif.Spec.Criterion

/-!
# What `KillsAfterConvergence`, the criterion used if none is given, makes of a history
-/

namespace Glompo.Spec

open Glompo.Manager (Ev)

/-- The answers of the criterion so far. -/
def checksOf (ev : List Ev) : List Bool := ev.filterMap fun x => match x with | .checked b => some b | _ => none

/-- The events at which the manager calls the criterion: its checks, and the loading of a checkpoint (manager.py:805-808), where the answer
decides about a warning only. -/
def IsLook : Ev → Bool
  | .checked _ => true
  | .resumed _ _ => true
  | _ => false

/-- How often the criterion has been called. -/
def looks (ev : List Ev) : Nat := ev.countP IsLook

/-- All checks in the history are answered by one object `KillsAfterConvergence(nk, nc)`, new when the manager was set up, which
sees the manager as it is whenever it is called. -/
def AnsweredInTurn (nk nc : Int) (ev : List Ev) : Prop :=
  ∃ vs : List CView, ∀ pre x post, ev = pre ++ x :: post → IsLook x = true → ∃ v, vs[looks pre]? = some v ∧ Shows pre v ∧
    ∀ b, x = .checked b → (kacSeq nk nc Latch.init vs)[looks pre]? = some b

/-- `p` is the part of the history `ev` before the first call of the criterion, one made at the present moment included, at which `nc`
optimizers had converged. -/
structure FirstSeen (nc : Int) (ev p : List Ev) : Prop where
  check : p = ev ∨ ∃ x q, IsLook x = true ∧ ev = p ++ x :: q
  enough : nc ≤ (finishedOf p).length
  first : ∀ p' x q, IsLook x = true → p = p' ++ x :: q → ((finishedOf p').length : Int) < nc

end Glompo.Spec

import Verif.Spec.Criterion

/-!
# When a criterion counting the optimizers shut down since others converged is met by what has happened
-/

namespace Glompo.Spec

open Glompo.Manager (Ev)

/-- The checks in a history `run` which follows `old`: what had happened before each of them, and its answer. -/
def checksIn (old : List Ev) : List Ev → List (List Ev × Bool)
  | [] => []
  | .checked b :: t => (old, b) :: checksIn (old ++ [.checked b]) t
  | x :: t => checksIn (old ++ [x]) t

/-- Of the histories `hs`, in order of time, `p` is the first with at least `n` optimizers converged. -/
def FirstEnough (n : Int) (hs : List (List Ev)) (p : List Ev) : Prop :=
  ∃ l r, hs = l ++ p :: r ∧ n ≤ (finishedOf p).length ∧ ∀ q ∈ l, ((finishedOf q).length : Int) < n

/-- What `Meets` says; for `KillsAfterConvergence`: since the first check at which enough optimizers had converged enough others
were shut down. `before` are the histories at the earlier checks. -/
def MeetsSince (before : List (List Ev)) (ev : List Ev) : Checker → Prop
  | .killsAfterConvergence nk nc =>
    ∃ p, FirstEnough nc (before ++ [ev]) p ∧ nk ≤ ((killedOf ev).length : Int) - (killedOf p).length
  | c => Meets ev c

/-- The same for a combination of criteria. -/
def MeetsAllSince (chk : Nat → Checker) (before : List (List Ev)) (ev : List Ev) : Cond → Prop
  | .leaf i => MeetsSince before ev (chk i)
  | .or _ a b => MeetsAllSince chk before ev a ∨ MeetsAllSince chk before ev b
  | .and _ a b => MeetsAllSince chk before ev a ∧ MeetsAllSince chk before ev b

/-- The condition of a combination which is looked at first. -/
def firstLeaf : Cond → Nat
  | .leaf i => i
  | .or _ a _ => firstLeaf a
  | .and _ a _ => firstLeaf a

/-- The answers to the checks in `run` are those of the criterion `c`, one and the same object at all of them, new at the first. -/
def AnsweredBySame (chk : Nat → Checker) (c : Cond) (run : List Ev) : Prop :=
  ∃ vs st, List.Forall₂ (fun q v => Shows q.1 v) (checksIn [] run) vs ∧
    evalSeq chk c st (fun _ => Latch.init) vs = (checksIn [] run).map fun q => .ok q.2

end Glompo.Spec

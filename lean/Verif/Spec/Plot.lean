import Verif.Spec.Logger
import Verif.Model.Plot
import Verif.Model.Checkpoint

/-! The ways an optimizer ends, and their texts in the log (C92). -/

namespace Glompo.Spec.Plot
open Glompo.Plot

/-- How an optimizer ended. -/
inductive Ending where
  /-- it signalled its convergence; the bundled optimizers (except Nevergrad) add a detail -/
  | converged (detail : List Char)
  /-- it ended normally without a signal -/
  | silent
  /-- it ended with an error -/
  | failed (code : Nat)
  /-- it was stopped by a hunt or by hand -/
  | killed (detail : List Char)
  /-- it was terminated because it did not answer -/
  | forced
  /-- it was running when the optimization ended -/
  | running

/-- What the manager records (manager.py:1370, 1409, 1417, 1610, 1430, 1665). -/
def text : Ending → List Char
  | .converged d => "Optimizer convergence".toList ++ d
  | .silent => "Normal termination (Reason unknown)".toList
  | .failed n => "Error termination (exitcode ".toList ++ Checkpoint.dec n ++ ").".toList
  | .killed d => "GloMPO Termination\nHunter: ".toList ++ d
  | .forced => "Forced GloMPO Termination".toList
  | .running => "GloMPO Convergence".toList

/-- What the legend of the plot promises. -/
def legend : Ending → Marker
  | .converged _ => .converged
  | .silent => .converged
  | .failed _ => .crashed
  | .killed _ => .killed
  | .forced => .killed
  | .running => .blank

/-- The points of one optimizer: its evaluations with their numbers, counted over all optimizers from 1. -/
def pointsOf (es : List IterRes) (i : Nat) : List (Cell × Cell) :=
  ((es.zipIdx 1).filter fun p => p.1.optId == i).map fun p => (Cell.nat p.2, Cell.num p.1.fx)

end Glompo.Spec.Plot

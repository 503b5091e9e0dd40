import Verif.Model.Float
import Verif.Model.Logger

/-!
# `glompo/hunters/`: bundled hunting criteria (the ones needing no roots or exponentials)

A hunter sees the log and the ids of hunter and victim. Random numbers are arguments.
-/

namespace Glompo

/-- The function values in a history column. Belongs to the model of `bestunmoving.py:31-46`. -/
def cellFx : Cell → PyF
  | .num f => f
  | _ => .nan

/-- `log.get_history(opt_id, "fx")`. Belongs to the model of `bestunmoving.py:31-46`. -/
def fxHist (log : Logger) (optId : Nat) : Except Err (List PyF) :=
  match log.getHistory optId "fx" with
  | .error e => .error e
  | .ok cs => .ok (cs.map cellFx)

/-- Python's `l[:-k]` for `k ≥ 0` (`l[:-0]` is empty). Belongs to the model of `bestunmoving.py:31-46`. -/
def dropLastN {α : Type} (l : List α) (k : Nat) : List α := if k = 0 then [] else l.take (l.length - k)

/-- Python's `l[-k:]` for `k ≥ 0` (`l[-0:]` is all of `l`). Belongs to the model of `lastptsinvalid.py:30-36`. -/
def lastN {α : Type} (l : List α) (k : Nat) : List α := if k = 0 then l else l.drop (l.length - k)

/-- Python's `min(l)`; the empty list raises `ValueError`. Belongs to the model of `bestunmoving.py:31-46`. -/
def pyMin : List PyF → Except Err PyF
  | [] => .error .valueError
  | a :: t => .ok (PyF.minList a t)

/-- `MinFuncCalls.__init__` (min_fcalls.py:21-26), for integers. -/
def minFuncCallsInit (minPts : Int) : Except Err Nat :=
  if minPts > 0 then .ok minPts.toNat else .error .valueError

/-- `MinFuncCalls.__call__` (min_fcalls.py:28-33). -/
def minFuncCalls (minPts : Nat) (log : Logger) (victim : Nat) : Bool := decide (log.lenOpt victim ≥ minPts)

/-- `BestUnmoving.__call__` (bestunmoving.py:31-46); `calls` is a natural number. -/
def bestUnmoving (calls : Nat) (tol : PyF) (log : Logger) (victim : Nat) : Except Err Bool :=
  match fxHist log victim with
  | .error e => .error e
  | .ok vals =>
    if log.lenOpt victim ≤ calls then .ok false
    else
      match pyMin (dropLastN vals calls), pyMin vals with
      | .error e, _ => .error e
      | _, .error e => .error e
      | .ok bestAtCalls, .ok bestAtEnd =>
        .ok (PyF.le (PyF.abs (PyF.sub bestAtEnd bestAtCalls)) (PyF.abs (PyF.mul bestAtCalls tol)))

/-- `LastPointsInvalid.__call__` (lastptsinvalid.py:30-36); `nIters` is a natural number. -/
def lastPointsInvalid (nIters : Nat) (log : Logger) (victim : Nat) : Except Err Bool :=
  match fxHist log victim with
  | .error e => .error e
  | .ok vals =>
    let fcalls := lastN vals nIters
    .ok (decide (fcalls.length ≥ nIters) && !(fcalls.any PyF.isFinite))

/-- `TypeHunter.__call__` (type.py:38-44); `optToKill` is the class name stored by `__init__`. -/
def typeHunter (optToKill : String) (log : Logger) (victim : Nat) : Except Err Bool :=
  match log.getMetadata victim "opt_type" with
  | .error e => .error e
  | .ok t => .ok (optToKill == t)

/-- `TimeAnnealing.__init__` (timeannealing.py:36-41) accepts positive numbers only. -/
def timeAnnealingInit (critRatio : Rat) : Except Err Rat :=
  if critRatio > 0 then .ok critRatio else .error .valueError

/-- `TimeAnnealing.__call__` (timeannealing.py:43-54); `u` is the random number in `[0, 1]` from which
`random.uniform(0, crit_ratio)` is made. -/
def timeAnnealing (critRatio u : Rat) (log : Logger) (hunter victim : Nat) : Except Err Bool :=
  let nHunter := log.lenOpt hunter
  let nVictim := log.lenOpt victim
  if nVictim = 0 then .error .zeroDivision
  else
    let ratio : Rat := (nHunter : Rat) / (nVictim : Rat)
    let testNum := 0 + (critRatio - 0) * u
    .ok (decide (testNum > ratio))

end Glompo

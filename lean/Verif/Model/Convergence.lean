import Verif.Model.Float
import Verif.Model.Combi

/-!
# `glompo/convergence/`: bundled convergence criteria
-/

namespace Glompo

/-- What the bundled criteria read of the manager and of the clock. `best` is `manager.result.fx`; `tStart` is
`manager.t_start` (`none` before the start). Belongs to the model of `tmax.py:35-44`. -/
structure CView where
  fCounter : Nat
  oCounter : Nat
  convCounter : Nat
  kills : Nat
  best : Option PyF
  now : Rat
  tStart : Option Rat
  tUsed : Rat
  deriving DecidableEq, Repr

/-- The bundled criteria with their settings. Belongs to the model of `tmax.py:30`. -/
inductive Checker where
  | maxFuncCalls (fmax : Int)
  | maxOptsStarted (omax : Int)
  | nOptConverged (nconv : Int)
  | maxKills (killsMax : Int)
  | targetCost (target atol : PyF)
  | maxSeconds (sessionMax overallMax : Option Rat)
  | killsAfterConvergence (nKilled nConverged : Int)
  deriving DecidableEq, Repr

/-- Python truth value of `Optional[float]`. Belongs to the model of `tmax.py:30`. -/
def optTruthy : Option Rat → Bool
  | none => false
  | some q => decide (q ≠ 0)

/-- The assertion of `MaxSeconds.__init__` (tmax.py:30): exactly one of the two limits is truthy. -/
def Checker.constructible : Checker → Bool
  | .maxSeconds s o => optTruthy s ^^ optTruthy o
  | _ => true

/-- Memory of `KillsAfterConvergence` (nkillsafterconv.py:14-15). -/
structure Latch where
  enough : Bool
  killCount : Nat
  deriving DecidableEq, Repr

/-- `KillsAfterConvergence.__init__` (nkillsafterconv.py:14-15). -/
def Latch.init : Latch := { enough := false, killCount := 0 }

/-- Lines 20-22 of nkillsafterconv.py. -/
def Latch.update (l : Latch) (nConverged : Int) (v : CView) : Latch :=
  if (v.convCounter : Int) ≥ nConverged ∧ l.enough = false then { enough := true, killCount := v.kills } else l

/-- `MaxSeconds.__call__` (tmax.py:35-44). -/
def maxSecondsCall (s o : Option Rat) (v : CView) : Bool :=
  let tTotal : Rat := if optTruthy v.tStart then v.now - v.tStart.getD 0 else 0
  if optTruthy o then decide (tTotal + v.tUsed ≥ o.getD 0)
  else decide (tTotal ≥ s.getD 0)

/-- `__call__` of the criteria: fmax.py:13-15, omax.py:13-15, nconv.py:16-18, nkills.py:13-15, ftarget.py:14-20,
tmax.py:35-44, nkillsafterconv.py:19-25. -/
def Checker.ask (c : Checker) (v : CView) (l : Latch) : Latch × Bool :=
  match c with
  | .maxFuncCalls n => (l, decide ((v.fCounter : Int) ≥ n))
  | .maxOptsStarted n => (l, decide ((v.oCounter : Int) ≥ n))
  | .nOptConverged n => (l, decide ((v.convCounter : Int) ≥ n))
  | .maxKills n => (l, decide ((v.kills : Int) ≥ n))
  | .targetCost t a =>
    (l, match v.best with
      | none => false
      | some f => PyF.le f (PyF.add t a))
  | .maxSeconds s o => (l, maxSecondsCall s o v)
  | .killsAfterConvergence nk nc =>
    let l' := l.update nc v
    (l', l'.enough && decide ((v.kills : Int) - (l'.killCount : Int) ≥ nk))

/-- Successive evaluations of one `KillsAfterConvergence` object
(nkillsafterconv.py:19-25). -/
def kacSeq (nk nc : Int) (l : Latch) : List CView → List Bool
  | [] => []
  | v :: vs => let r := Checker.ask (.killsAfterConvergence nk nc) v l; r.2 :: kacSeq nk nc r.1 vs

/-- The memories of all criteria objects. Belongs to the model of `nkillsafterconv.py:14-15`. -/
abbrev Latches := Nat → Latch

/-- Evaluation of one of the criteria objects, for use with `Cond.call`. Belongs to the model of `tmax.py:35-44`, `tmax.py:30`, `fmax.py:13-15`, `nkillsafterconv.py:14-15`. -/
def askChecker (chk : Nat → Checker) (v : CView) (i : Nat) (w : Latches) : Latches × Except Err Bool :=
  let r := (chk i).ask v (w i)
  (fun j => if j = i then r.1 else w j, .ok r.2)

/-- Successive evaluations of a (combined) criterion at the given manager states, with the answers. Belongs to the model of `tmax.py:35-44`, `tmax.py:30`, `nkillsafterconv.py:14-15`. -/
def evalSeq (chk : Nat → Checker) (c : Cond) (st : Cond.Last) (w : Latches) : List CView → List (Except Err Bool)
  | [] => []
  | v :: vs =>
    let r := c.call (askChecker chk v) st w
    r.ans :: evalSeq chk c r.last r.world vs

end Glompo

import Verif.Model.Setup

/-!
# Time stamps of sessions: `glompo/core/manager.py` (`start_manager`, `checkpoint`, `load_checkpoint`) and
`glompo/convergence/tmax.py`

Times are rationals; rounding of floats to microseconds is left out. `time()` is assumed not to be 0, so that the truth value of a
time is whether it was set.
-/

namespace Glompo.Sessions

open Glompo

/-- `datetime.fromtimestamp` and `datetime.now` give local time without a zone: the argument is the offset of local time at a moment. Belongs to the model of `manager.py:266-270`. -/
abbrev Zone := Rat → Rat

/-- The time stamps of a manager (manager.py:266-270). -/
structure Clock where
  tStart : Option Rat := none
  tEnd : Option Rat := none
  tUsed : Rat := 0
  starts : List Rat := []
  ends : List Rat := []
  deriving DecidableEq, Repr, Inhabited

/-- What `datetime.fromtimestamp(t)` shows. Belongs to the model of `manager.py:266-270`. -/
def stamp (z : Zone) (t : Rat) : Rat := t + z t

/-- Lines 982 and 985. -/
def begin_ (z : Zone) (t : Rat) (c : Clock) : Clock := { c with tStart := some t, starts := c.starts ++ [stamp z t] }

/-- Line 1023. -/
def converge (t : Rat) (c : Clock) : Clock := { c with tEnd := some t }

/-- `l[-1] = d`. Used in `manager.py:1069-1075`. -/
def setLast : List Rat → Rat → Except Err (List Rat)
  | [], _ => .error .indexError
  | l, d => .ok (l.dropLast ++ [d])

/-- Lines 1069-1075. -/
def finish (z : Zone) (t : Rat) (c : Clock) : Except Err Clock :=
  let e := c.tEnd.getD t
  let c' := { c with tEnd := some e }
  if c'.starts.length = c'.ends.length then
    match setLast c'.ends (stamp z e) with
    | .error x => .error x
    | .ok l => .ok { c' with ends := l }
  else .ok { c' with ends := c'.ends ++ [stamp z e] }

/-- Lines 1134-1138. -/
def mark (z : Zone) (t : Rat) (c : Clock) : Except Err Clock :=
  if 0 < c.starts.length then
    if c.starts.length = c.ends.length then
      match setLast c.ends (stamp z t) with
      | .error x => .error x
      | .ok l => .ok { c with ends := l }
    else .ok { c with ends := c.ends ++ [stamp z t] }
  else .ok c

/-- Lines 711-720 and 798-802: time stamps of a manager loaded from a checkpoint. -/
def restore (saved : Clock) : Except Err Clock :=
  if saved.starts.length ≠ saved.ends.length then .error .assertionError
  else .ok { saved with tUsed := Init.usedTime saved.starts saved.ends, tStart := none, tEnd := none }

/-- `MaxSeconds.__call__` (tmax.py:35-45) at time `now`; exactly one limit is set (tmax.py:30). -/
inductive Limit where
  | session (s : Rat)
  | overall (s : Rat)
  deriving DecidableEq, Repr

/-- See `Limit`. Belongs to the model of `manager.py:266-270`, `tmax.py:35-45`. -/
def maxSeconds (l : Limit) (now : Rat) (c : Clock) : Bool :=
  let t := match c.tStart with
    | some s => now - s
    | none => 0
  match l with
  | .session s => decide (s ≤ t)
  | .overall s => decide (s ≤ t + c.tUsed)

/-- What happens to manager objects and checkpoints in the course of an optimization. `interrupted` is a `KeyboardInterrupt` after
line 979 and before line 985; `kill` is the loss of the process at any point; `load i` loads checkpoint `i` in a new process. -/
inductive Event where
  | fresh
  | start (t : Rat)
  | interrupted (t : Rat)
  | converge (t : Rat)
  | checkpoint (t : Rat)
  | finish (t : Rat)
  | kill
  | load (i : Nat)
  deriving DecidableEq, Repr

/-- The living manager with whether `start_manager` is running, the checkpoints, and whether an exception has escaped from one of these
methods. Belongs to the model of `manager.py:266-270`. -/
structure World where
  mgr : Option (Clock × Bool) := none
  saved : List Clock := []
  raised : Option Err := none
  deriving DecidableEq, Repr, Inhabited

/-- The session is over, normally or with an exception. Belongs to the model of `manager.py:266-270`. -/
def finished (w : World) (c : Clock) : Except Err Clock → World
  | .ok c' => { w with mgr := some (c', false) }
  | .error e => { w with mgr := some (c, false), raised := some e }

/-- The checkpoint is written, or not. Belongs to the model of `manager.py:266-270`. -/
def marked (w : World) (c : Clock) (running : Bool) : Except Err Clock → World
  | .ok c' => { w with mgr := some (c', running), saved := w.saved ++ [c'] }
  | .error e => { w with mgr := some (c, running), raised := some e }

/-- The checkpoint is loaded, or not. Belongs to the model of `manager.py:266-270`. -/
def restored (w : World) : Except Err Clock → World
  | .ok c' => { w with mgr := some (c', false) }
  | .error e => { w with mgr := none, raised := some e }

/-- One event; what is impossible (starting a running manager, ending a session that does not run) changes nothing. Belongs to the model of `manager.py:266-270`. -/
def step (z : Zone) (w : World) (e : Event) : World :=
  match e, w.mgr with
  | .fresh, _ => { w with mgr := some (default, false) }
  | .start t, some (c, false) => { w with mgr := some (begin_ z t c, true) }
  | .interrupted t, some (c, false) => finished w { c with tStart := some t } (finish z t { c with tStart := some t })
  | .converge t, some (c, true) => { w with mgr := some (converge t c, true) }
  | .checkpoint t, some (c, r) => marked w c r (mark z t c)
  | .finish t, some (c, true) => finished w c (finish z t c)
  | .kill, _ => { w with mgr := none }
  | .load i, _ =>
    match w.saved[i]? with
    | some s => restored w (restore s)
    | none => w
  | _, _ => w

/-- A history from nothing. Belongs to the model of `manager.py:266-270`. -/
def run (z : Zone) (es : List Event) : World := es.foldl (step z) default

end Glompo.Sessions

import Verif.Model.Manager
import Verif.Model.FileLogger

/-!
# Status messages

`_build_status_message` (`glompo/core/manager.py:1994-2017`), called from the main loop every `status_frequency` seconds (1030-1031). The
lines about processor and memory (2019-2035) are in `Model/Resources`.

Simplified: the numbers of the message in place of its text, but for the number of evaluations; the time elapsed is left out; what the
processes are doing does not change while the message is built.
-/

namespace Glompo.Status


/-- The digits of a number from the right, with a blank after every third unless it is the last. Belongs to the model of `manager.py:2010`. -/
def group : List Char → List Char
  | a :: b :: c :: d :: t => a :: b :: c :: ' ' :: group (d :: t)
  | l => l

/-- `f"{n:,}".replace(',', ' ')` (manager.py:2010). -/
def grouped (n : Nat) : List Char := (group (Nat.toDigits 10 n).reverse).reverse

/-- The numbers in a status message (manager.py:2011-2017). -/
structure Message where
  alive : Nat
  slots : Int
  maxJobs : Int
  evals : List Char
  values : List (Nat × PyF)
  best : Option PyF
  deriving DecidableEq, Repr

/-- `sorted` of the items of a dictionary with numbers as keys (manager.py:2002), by insertion. -/
def insertKey (p : Nat × Int) : List (Nat × Int) → List (Nat × Int)
  | [] => [p]
  | q :: t => if p.1 < q.1 then p :: q :: t else q :: insertKey p t

/-- Belongs to the model of `manager.py:1994-2017`. -/
def sortKeys : List (Nat × Int) → List (Nat × Int)
  | [] => []
  | p :: t => insertKey p (sortKeys t)

/-- `hist[-1]` of a column of numbers (manager.py:2006-2008), if there is any. -/
def lastNum (l : List Cell) : Option PyF :=
  match l.getLast? with
  | some (.num f) => some f
  | _ => none

/-- The loop over the optimizers (manager.py:2002-2008): workers of the living ones, and their last values. `hist` is
`opt_log.get_history(_, 'fx')`. -/
def loop (alive : Nat → Bool) (hist : Nat → Except Err (List Cell)) :
    List (Nat × Int) → Except Err (List Int × List (Nat × PyF))
  | [] => .ok ([], [])
  | (i, w) :: t =>
    if alive i = true then
      match hist i with
      | .error e => .error e
      | .ok h =>
        match loop alive hist t with
        | .error e => .error e
        | .ok (ws, vs) =>
          match lastNum h with
          | none => .ok (w :: ws, vs)
          | some f => .ok (w :: ws, (i, f) :: vs)
    else loop alive hist t

/-- `_build_status_message` (manager.py:1994-2017) with the log `hist`. -/
def message (cfg : Manager.Cfg) (s : Manager.State) (hist : Nat → Except Err (List Cell)) : Except Err Message :=
  match loop s.alive hist (sortKeys s.packs) with
  | .error e => .error e
  | .ok (ws, vs) =>
    .ok { alive := ws.length, slots := ws.sum, maxJobs := cfg.maxJobs, evals := grouped s.fCounter, values := vs
          best := s.result.fx }

/-- With the log in memory. Belongs to the model of `manager.py:2011-2017`, `manager.py:1994-2017`. -/
def inMemory (cfg : Manager.Cfg) (s : Manager.State) : Except Err Message := message cfg s (s.log.getHistory · "fx")

/-- With the log `f`, which writes to a file; reading flushes, which does not change what is read. Belongs to the model of `manager.py:2011-2017`, `manager.py:1994-2017`. -/
def onFile (cfg : Manager.Cfg) (s : Manager.State) (f : FileLogger) : Except Err Message :=
  message cfg s fun i => (f.getHistory i "fx").2

end Glompo.Status

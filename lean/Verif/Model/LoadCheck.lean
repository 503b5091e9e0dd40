import Verif.Model.Criterion

/-!
# The check of the criterion when a checkpoint is loaded and when the manager is started
-/

namespace Glompo.Manager

/-- The criterion and what it keeps: the stored results and memories of its parts. Belongs to the model of `manager.py:804-808`. -/
structure Memory where
  last : Cond.Last
  mem : Latches

/-- What `try: self.convergence_checker(self) except Exception` (manager.py:804-808, 909-923) makes of a call: the criterion afterwards and
the answer, if there is one. -/
def consult (chk : Nat → Checker) (c : Cond) (v : CView) (k : Memory) : Memory × Option Bool :=
  let r := c.call (askChecker chk v) k.last k.mem
  (⟨r.last, r.world⟩, r.ans.toOption)

/-- `load_checkpoint`, lines 804-816 of manager.py: the criterion afterwards, and whether the user is warned that the optimization cannot
be resumed. `t_start` is `None` (line 801). Simplification: that texts of the warning can be made is not modelled. -/
def loadCheck (chk : Nat → Checker) (c : Cond) (s : State) (now tUsed : Rat) (k : Memory) : Memory × Bool :=
  let r := consult chk c (s.view now none tUsed) k
  (r.1, r.2 = some true)

/-- `start_manager`, lines 907-923 of manager.py, of a manager just loaded or set up, whose `t_start` is still `None`; then the rest of it. A
call which raised an exception is an exception in the check. -/
def startWith (chk : Nat → Checker) (c : Cond) (cfg : Cfg) (fuel : Nat) (s : State) (now tUsed : Rat) (k : Memory) (e : Env) :
    Option Reason × State × Env :=
  match (consult chk c (s.view now none tUsed) k).2 with
  | some b => startManager cfg fuel s (⟨[], .bool b⟩ :: e)
  | none => startManager cfg fuel s (⟨[], .raise .typeError⟩ :: e)

end Glompo.Manager

import Verif.Model.CMA

/-! # What a user of the CMA optimizer is told (C83-C85) -/

namespace Glompo.Spec.CMA

open Glompo Glompo.CMA

/-- The function gives one value for every vector of a population, and populations are not empty. -/
def Evaluated (g : Gen) : Prop := g.vals.length = g.xs.length ∧ g.xs ≠ []

/-- The vectors of some populations with their own values. -/
def points (gs : List Gen) : List (Vec × PyF) := gs.flatMap fun g => g.xs.zip g.vals

/-- The reasons of the stop instructions of a list. -/
def reasonsOf (ms : List Msg) : List String := ms.filterMap fun m => match m with | .stop r => some r | _ => none

/-- The stop instructions which arrive while the population is evaluated: read between the evaluations, until the first. -/
def stopsDuring (c : Cfg) (g : Gen) : List String :=
  if c.pool ∧ c.managed then ((g.during.map reasonsOf).find? (· ≠ [])).getD [] else []

/-- The stop instructions after it: that of the callbacks, then those of the manager. -/
def stopsAfter (c : Cfg) (g : Gen) : List String :=
  (if g.callback then ["Callbacks termination."] else []) ++ if c.managed then reasonsOf g.after else []

/-- Whether some evaluations were cancelled after a stop. -/
def BrokenOff (c : Cfg) (g : Gen) : Prop := stopsDuring c g ≠ [] ∧ (remaining g.vals g.cancels).length ≠ g.xs.length

instance (c : Cfg) (g : Gen) : Decidable (BrokenOff c g) := by unfold BrokenOff; infer_instance

/-- All stop instructions which the optimizer receives in an iteration, in order. -/
def stopsIn (c : Cfg) (g : Gen) : List String := stopsDuring c g ++ if BrokenOff c g then [] else stopsAfter c g

/-- The iterations of a run: one after the other, until the strategy wishes to stop, or in the last one a stop was received. -/
def iterations (c : Cfg) : List Gen → List Gen
  | [] => []
  | g :: t => if g.wantsStop then [] else g :: if stopsIn c g = [] then iterations c t else []

/-- The iterations whose population was evaluated completely. -/
def whole (c : Cfg) (env : List Gen) : List Gen := (iterations c env).filter fun g => ¬ BrokenOff c g

/-- All stop instructions of a run, in order. -/
def received (c : Cfg) (env : List Gen) : List String := (iterations c env).flatMap (stopsIn c)

/-- A stop is a success unless its reason is a crash or the manager's termination. -/
def Good (reason : String) : Prop := reason ≠ "GloMPO Crash" ∧ reason ≠ "Manager termination signal"

/-- The incumbents the manager sends in an iteration. -/
def offered (g : Gen) : List Vec :=
  (g.during.flatten ++ g.after).filterMap fun m => match m with | .inject x _ => some x | _ => none

end Glompo.Spec.CMA

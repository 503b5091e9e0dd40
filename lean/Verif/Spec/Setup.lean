import Verif.Model.Setup

/-!
# What a user may give to `setup`, and what they get
-/

namespace Glompo.Spec.Setup

open Glompo Glompo.Init

/-- Bounds are finite with minimum < maximum. -/
def GoodBounds (bs : List (PyF × PyF)) : Prop := ∀ b ∈ bs, ∃ lo hi : Rat, b = (.fin lo, .fin hi) ∧ lo < hi

/-- `max_jobs` is absent or a positive integer. -/
def GoodJobs (j : Jobs) : Prop := j = .none ∨ ∃ n : Int, 0 < n ∧ j = .int n

/-- An optional plug-in is absent (or falsy) or of the right class. -/
def GoodPlug (p : Plug) : Prop := p = .instance_ ∨ p = .other false

/-- The arguments the documentation allows. -/
structure Acceptable (a : Args) : Prop where
  task : a.task.callable = true
  selector : a.selector = true
  bounds : GoodBounds a.bounds
  jobs : GoodJobs a.maxJobs
  checker : GoodPlug a.checker
  generator : GoodPlug a.generator
  hunter : GoodPlug a.hunter

/-- The exception the documentation of the argument promises for the first fault of the arguments, looking at task, selector, bounds,
`max_jobs`, convergence checker, generator and hunter in this order: `ValueError` for bounds or a number of jobs out of range, `TypeError` for
anything of the wrong type. -/
inductive FirstFault (a : Args) : Err → Prop
  | task : a.task.callable = false → FirstFault a .typeError
  | selector : a.task.callable = true → a.selector = false → FirstFault a .typeError
  | bounds : a.task.callable = true → a.selector = true → ¬ GoodBounds a.bounds → FirstFault a .valueError
  | jobsRange (n : Int) : a.task.callable = true → a.selector = true → GoodBounds a.bounds → a.maxJobs = .int n → n < 0 →
      FirstFault a .valueError
  | jobsType : a.task.callable = true → a.selector = true → GoodBounds a.bounds → a.maxJobs ≠ .none → (∀ n, a.maxJobs ≠ .int n) →
      FirstFault a .typeError
  | plug : a.task.callable = true → a.selector = true → GoodBounds a.bounds → GoodJobs a.maxJobs →
      ¬ (GoodPlug a.checker ∧ GoodPlug a.generator ∧ GoodPlug a.hunter) → FirstFault a .typeError

/-- The configuration the documentation promises for arguments `a`. -/
structure Configured (a : Args) (m : Mgr) : Prop where
  task : m.task = some a.task
  bounds : m.bounds = some a.bounds
  jobsGiven : ∀ n, a.maxJobs = .int n → n ≠ 0 → m.maxJobs = n
  jobsAbsent : a.maxJobs = .none → m.maxJobs = a.cpus - 1
  checker : m.checker = if a.checker = .instance_ then .given else .default
  generator : m.generator = if a.generator = .instance_ then .given else .default
  hunter : m.hunter = if a.hunter = .instance_ then .given else .nothing
  forced : m.allowForced = true ↔ 0 < a.forceAfter
  tooLong : m.tooLong = a.forceAfter
  checkpointing : m.checkpointing = true ↔ a.checkpointControl = true ∧ a.dill = true
  fileLog : m.fileLog = true ↔ 3 ≤ a.summaryFiles
  trajectories : m.trajectories = true ↔ 2 ≤ a.summaryFiles
  threads : m.procBackend = false ↔ a.backend = "threads"
  daemonic : m.daemonic = false ↔ a.backend = "processes_forced"
  timeoutGiven : ∀ t, a.endTimeout = some t → t ≠ 0 → m.endTimeout = some t
  timeoutAbsent : a.endTimeout = none → m.endTimeout = if a.backend = "threads" then none else some 10

end Glompo.Spec.Setup

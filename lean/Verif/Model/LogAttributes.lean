import Verif.Model.Summary
import Verif.Model.FileLogger

/-!
# What the manager and the log write into the log file when a session ends: attributes of its root
-/

namespace Glompo.LogAttributes

open Summary Helpers

/-- Values of attributes. Belongs to the model of `optimizerlogger.py:427-434`. -/
inductive AVal where
  | num (n : Nat)
  | text (s : List Char)
  | bounds (l : List Bound)
  | best (b : BestIter)
  | bests (l : List (Nat × BestIter))
  | float (f : PyF)
  deriving DecidableEq, Repr

/-- The attributes of the root of the file. Belongs to the model of `optimizerlogger.py:427-434`. -/
abbrev Attrs := List (String × AVal)

/-- `FileLogger.put_manager_metadata` (optimizerlogger.py:427-434): what HDF5 cannot store (attributes are limited to 64 kB) is left out
with a warning; `fits` tells what it can. -/
def put (fits : String → AVal → Bool) (a : Attrs) (p : String × AVal) : Attrs :=
  if fits p.1 p.2 then dictSet a p.1 p.2 else a

/-- Lines 1779-1793 of manager.py. `reason` is the text of line 1695. Simplification: the version is a text. -/
def runEntries (m : Facts) (c : Counters) (reason : List Char) : Attrs :=
  [("task", .text m.task.typeName), ("glompo_version", .text m.version), ("working_dir", .text m.cwd), ("username", .text m.user),
   ("hostname", .text m.host),
   ("total_time", .text (m.duration ((m.clock.starts.zip m.clock.ends).map fun p => p.2 - p.1).sum)), ("bounds", .bounds m.bounds),
   ("n_evals", .num c.evals), ("n_hunts", .num c.hunts), ("n_opts_started", .num c.started), ("n_opts_killed", .num c.killed),
   ("n_opts_conv", .num c.converged), ("exit_reason", .text reason)]

/-- Lines 521-525 of optimizerlogger.py. -/
def closeEntries (s : FileLogger) : Attrs :=
  [("opts_started", .num s.oCounter), ("f_counter", .num s.base.fCounter), ("best_iter", .best s.base.best),
   ("best_iters", .bests s.base.bestIters), ("max_eval", .float s.base.maxEval)]

/-- The log file: attributes, the log which is connected with it, and whether it was closed. Belongs to the model of `manager.py:1071-1096`. -/
structure H5 where
  attrs : Attrs
  log : FileLogger
  closed : Bool
  deriving DecidableEq, Repr

/-- Lines 1071-1072 of manager.py: the time of the end is set if it is not. -/
def stamp (now : Rat) (m : Facts) : Facts := { m with clock := { m.clock with tEnd := m.clock.tEnd.or (some now) } }

/-- The end of `start_manager` with `summary_files` = 3 (manager.py:1071-1096, 1678-1795): the summary, the plot, which may raise `plot`, the
attributes, and the closing of the log (optimizerlogger.py:519-530). An exception on the way leaves the log open. -/
def endRun (fits : String → AVal → Bool) (now : Rat) (plot : Option Err) (old : File) (m : Facts) (c : Counters) (r : Solution)
    (reason : List Char) (caught : Option (List Char)) (h : H5) : File × H5 × Except Err (Solution × List Char) :=
  match saveSummary old (stamp now m) c r reason caught with
  | (f, some e) => (f, h, .error e)
  | (f, none) =>
    match plot with
    | some e => (f, h, .error e)
    | none =>
      let a1 := (runEntries (stamp now m) c (reasonText reason caught)).foldl (put fits) h.attrs
      match h.log.flush none with
      | (l1, some e) => (f, ⟨a1, l1, false⟩, .error e)
      | (l1, none) =>
        let a2 := (closeEntries l1).foldl (put fits) a1
        match l1.close with
        | (l2, some e) => (f, ⟨a2, l2, false⟩, .error e)
        | (l2, none) => (f, ⟨a2, l2, true⟩, .ok (r, reason))

end Glompo.LogAttributes

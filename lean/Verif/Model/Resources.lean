import Verif.Model.Helpers

/-!
# Measurements of memory, processor and load

`_build_status_message` (`glompo/core/manager.py:2019-2035`) measures, loading a checkpoint leaves a mark between sessions (819-821), and
`_summarise_resource_usage` (2039-2085) makes the numbers of the summary file (1697-1717). Simplifications: exact arithmetic; rounding (`rnd`, digits and
number) and the square root are parameters; the warnings of numpy are left out.
-/

namespace Glompo.Resources

open Glompo

/-- What psutil says at one moment: the processor usage of the manager, the memory of the manager and of its children (`none` for a child which
has ended meanwhile), and the three load averages. Belongs to the model of `manager.py:2020-2034`. -/
structure Sample where
  cpu : Rat
  mem : Rat
  children : List (Option Rat)
  load : Rat × Rat × Rat
  deriving DecidableEq, Repr

/-- The three histories. Belongs to the model of `manager.py:286-288`. -/
structure Hist where
  cpu : List PyF
  mem : List PyF
  load : List (PyF × PyF × PyF)
  deriving DecidableEq, Repr

/-- A new manager (manager.py:286-288). -/
def Hist.new : Hist := ⟨[], [], []⟩

/-- The memory of all processes (manager.py:2024-2029). -/
def total : Rat → List (Option Rat) → Rat
  | m, [] => m
  | m, some c :: t => total (m + c) t
  | m, none :: t => total m t

/-- A status message (manager.py:2020-2034). -/
def record (h : Hist) (s : Sample) : Hist :=
  { cpu := h.cpu ++ [.fin s.cpu]
    mem := h.mem ++ [.fin (total s.mem s.children)]
    load := h.load ++ [(.fin s.load.1, .fin s.load.2.1, .fin s.load.2.2)] }

/-- Loading a checkpoint (manager.py:819-821). -/
def mark (h : Hist) : Hist := ⟨h.cpu ++ [.nan], h.mem ++ [.nan], h.load ++ [(.nan, .nan, .nan)]⟩

/-- What happens to the histories in a sequence of sessions. Belongs to the model of `manager.py:2020-2034`. -/
inductive Op where
  | status (s : Sample)
  | loaded
  deriving DecidableEq, Repr

/-- The histories after a sequence. Belongs to the model of `manager.py:286-288`, `manager.py:2020-2034`, `manager.py:819-821`. -/
def run (h : Hist) : List Op → Hist
  | [] => h
  | .status s :: t => run (record h s) t
  | .loaded :: t => run (mark h) t

/-- The entries numpy's `nan` functions look at. Belongs to the model of `manager.py:2045-2085`. -/
def valid : List PyF → List Rat
  | [] => []
  | .fin q :: t => q :: valid t
  | _ :: t => valid t

/-- `len(l) > 0 and not np.all(np.isnan(l))`. Belongs to the model of `manager.py:2045-2085`. -/
def anyValid (l : List PyF) : Bool := decide (l.length > 0) && !(l.all PyF.isNan)

/-- `np.nanmean`. Belongs to the model of `manager.py:2045-2085`. -/
def nanmean (l : List PyF) : Rat := (valid l).sum / (valid l).length

/-- `np.nanstd`, before the root. Belongs to the model of `manager.py:2045-2085`. -/
def nanvar (l : List PyF) : Rat := ((valid l).map fun q => (q - nanmean l) ^ 2).sum / (valid l).length

/-- `np.nanmax`. Belongs to the model of `manager.py:2045-2085`. -/
def nanmax (l : List PyF) : Rat :=
  match valid l with
  | [] => 0
  | q :: t => t.foldl max q

/-- The result; `none` stands for `'--'`. Belongs to the model of `manager.py:2045-2085`. -/
structure Summary where
  loadAve : List Rat
  loadStd : List Rat
  memAve : Option (Rat × Nat × String)
  memMax : Option (Rat × Nat × String)
  cpuAve : Rat
  cpuStd : Rat
  deriving DecidableEq, Repr

/-- The columns of the load history; `np.reshape(..., (-1, 3))` and `axis=0`. Belongs to the model of `manager.py:2045-2085`. -/
def columns (l : List (PyF × PyF × PyF)) : List (List PyF) := [l.map (·.1), l.map (·.2.1), l.map (·.2.2)]

/-- `present_memory(float(v))` with two digits. Belongs to the model of `manager.py:2045-2085`. -/
def shown (v : Rat) : Except Err (Rat × Nat × String) := Helpers.presentMemory v 2

/-- `_summarise_resource_usage` (manager.py:2045-2085). -/
def summarise (rnd : Nat → Rat → Rat) (sqrt : Rat → Rat) (h : Hist) : Except Err Summary :=
  let flat := h.load.flatMap fun t => [t.1, t.2.1, t.2.2]
  let loadAve := if anyValid flat then (columns h.load).map fun c => rnd 3 (nanmean c) else [0]
  let loadStd := if anyValid flat then (columns h.load).map fun c => rnd 3 (sqrt (nanvar c)) else [0]
  let cpuAve := if anyValid h.cpu then rnd 2 (nanmean h.cpu) else 0
  let cpuStd := if anyValid h.cpu then rnd 2 (sqrt (nanvar h.cpu)) else 0
  if anyValid h.mem then
    match shown (nanmax h.mem) with
    | .error e => .error e
    | .ok memMax =>
      match shown (nanmean h.mem) with
      | .error e => .error e
      | .ok memAve => .ok ⟨loadAve, loadStd, some memAve, some memMax, cpuAve, cpuStd⟩
  else .ok ⟨loadAve, loadStd, none, none, cpuAve, cpuStd⟩

end Glompo.Resources

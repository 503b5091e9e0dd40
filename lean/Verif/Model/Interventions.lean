import Verif.Model.Checkpoint

/-!
# User interventions

Files the user puts into the working directory of a run to stop an optimizer or to ask for a checkpoint:
`_is_manual_shutdowns` and `_is_manual_checkpoints` (`/repo/glompo/core/manager.py:1555-1595`). The directory belongs to
the user and to the manager; runs come after one another in the same directory. Names are lists of characters. What the
stop message leads to inside the optimizer is the subject of `Model/Manager` and `Model/Optimizer`.
-/

namespace Glompo.Interventions

open Checkpoint (Name undec isDigit)

/-! ### Names -/

/-- `text.split('_')` (manager.py:1563). -/
def split : Name → List Name
  | [] => [[]]
  | c :: t =>
    if c = '_' then [] :: split t
    else match split t with
      | [] => [[c]]
      | h :: r => (c :: h) :: r

/-- What `int` skips at both ends of its argument (manager.py:1564). Simplification: ASCII only. -/
def blank (c : Char) : Bool :=
  c = ' ' || c = '\t' || c = '\n' || c = '\r' || c = Char.ofNat 11 || c = Char.ofNat 12

/-- `text.strip()`. Belongs to the model of `manager.py:1564`. -/
def strip (s : Name) : Name := ((s.dropWhile blank).reverse.dropWhile blank).reverse

/-- A number without sign; `none` is `ValueError`. Belongs to the model of `manager.py:1564`. -/
def digits (s : Name) : Option Int := if s ≠ [] ∧ s.all isDigit = true then some (undec s : Int) else none

/-- `int(text)` (manager.py:1564); `none` is `ValueError`. Simplification: ASCII digits only. The underscores which Python
allows between digits cannot occur after the split. -/
def pyInt (s : Name) : Option Int :=
  match strip s with
  | '+' :: t => digits t
  | '-' :: t => (digits t).map fun i => -i
  | t => digits t

/-- The optimizer a file asks to stop (manager.py:1563-1564); `none` is `ValueError`, of the unpacking or of `int`. -/
def named (f : Name) : Option Int :=
  match split f with
  | [_, x] => pyInt x
  | _ => none

/-- `STOP_`. Belongs to the model of `manager.py:1560`. -/
def stopPrefix : Name := ['S', 'T', 'O', 'P', '_']

/-- Matches `glob('STOP_*')` (manager.py:1560). -/
def isStop (f : Name) : Bool := stopPrefix.isPrefixOf f

/-- `CHKPT` (manager.py:1581). -/
def chkpt : Name := ['C', 'H', 'K', 'P', 'T']

/-! ### The working directory and the run -/

/-- An entry of a directory: a file or a directory. Belongs to the model of `manager.py:1561-1574`. -/
structure Entry where
  name : Name
  dir : Bool
  deriving DecidableEq, Repr

/-- A path, as its components. Belongs to the model of `checkpointing.py:93-101`. -/
abbrev Path := List Name

/-- A `CheckpointingControl` as far as it matters here: where it puts checkpoints (checkpointing.py:93-101). -/
structure Control where
  dir : Path
  deriving DecidableEq, Repr

/-- `CheckpointingControl()` (checkpointing.py:86-101): the relative path `checkpoints` is resolved in the directory the
program runs in. Simplification: no symbolic links. -/
def defaults (cwd : Path) : Control := ⟨cwd ++ ["checkpoints".toList]⟩

/-- The working directory and the manager running in it: ids of `_optimizer_packs`, `_graveyard` and `hunt_victims`,
the next id, the entries of the directory, `checkpoint_control`, and the exception which ended the run. `runs` counts the
runs, `stopped` and `made` record the stop messages sent because of files, with the run, and the checkpoints made because
of files. Belongs to the model of `manager.py:1561-1574`. -/
structure World where
  workingDir : Path
  cwd : Path
  next : Int
  packs : List Int
  graveyard : List Int
  victims : List Int
  files : List Entry
  control : Option Control
  raised : Option Err
  runs : Nat
  stopped : List (Nat × Int)
  made : List Control
  deriving DecidableEq, Repr

/-- `set.add`, and setting a key of a dictionary. Belongs to the model of `manager.py:1561-1574`. -/
def addTo (l : List Int) (i : Int) : List Int := if i ∈ l then l else l ++ [i]

/-- What the surroundings do during a look at the stop files: the order in which `glob` lists the directory, files which
disappear before they can be unlinked, and how sending the stop message (or terminating the process, lines 1603-1607)
fails, if it does. -/
structure Pass where
  order : List Entry → List Entry
  perm : ∀ l, (order l).Perm l
  lost : Name → Bool
  send : Int → Option Err

/-- The loop body of `_is_manual_shutdowns` with `_shutdown_job` (manager.py:1561-1574, 1597-1607). Unlinking a directory
or a file which is gone raises an `OSError`. Simplification: what follows the message in `_shutdown_job` (the
metadata and the plot, lines 1609-1616) is in `Model/Manager`. -/
def stopOne (p : Pass) (w : World) (e : Entry) : World :=
  if w.raised.isSome = true then w
  else match named e.name with
    | none => w
    | some i =>
      if i ∉ w.packs ∨ i ∈ w.graveyard then w
      else if e.dir = true ∨ p.lost e.name = true then { w with raised := some .osError }
      else
        let w1 := { w with
          files := w.files.filter fun f => f.name ≠ e.name
          victims := addTo w.victims i
          graveyard := addTo w.graveyard i }
        match p.send i with
        | none => { w1 with stopped := w1.stopped ++ [(w.runs, i)] }
        | some .valueError => w1
        | some x => { w1 with raised := some x }

/-- `_is_manual_shutdowns` (manager.py:1555-1574). -/
def lookForStops (p : Pass) (w : World) : World := ((p.order w.files).filter fun e => isStop e.name).foldl (stopOne p) w

/-- `_is_manual_checkpoints` (manager.py:1576-1595); `fails` is the exception `checkpoint()` ends with, if it does. A
`CheckpointingControl` is truthy (line 1585). -/
def lookForCheckpoint (fails : Option Err) (w : World) : World :=
  match w.files.find? fun f => f.name = chkpt with
  | none => w
  | some e =>
    if e.dir = true then { w with raised := some .osError }
    else
      let w1 := { w with
        files := w.files.filter fun f => f.name ≠ chkpt
        control := some (w.control.getD (defaults w.cwd)) }
      match fails with
      | some x => { w1 with raised := some x }
      | none => { w1 with
          made := w1.made ++ [w.control.getD (defaults w.cwd)]
          control := if w.control.isSome = true then w1.control else none }

/-- What can happen in and around a run, in any order. Belongs to the model of `manager.py:1561-1574`, `checkpointing.py:93-101`. -/
inductive Act where
  | put (e : Entry)              -- the user makes a file or a directory, unless there is one of this name
  | remove (f : Name)            -- the user removes one
  | start                        -- the manager starts an optimizer (manager.py:1290-1291, 1327)
  | ends (i : Int)               -- an optimizer ends, or is stopped for another reason: `_graveyard.add`
  | purge (i : Int)              -- lines 1015-1017
  | stops (p : Pass)             -- line 1010
  | checkpoints (fails : Option Err)  -- line 1011
  | newRun (c : Option Control)  -- another manager is set up and started in the same directory (lines 253-317, 1974-1992)

/-- One of these. A run which has raised does nothing more. Belongs to the model of `manager.py:1561-1574`, `manager.py:1555-1574`, `manager.py:1576-1595`. -/
def act (w : World) : Act → World
  | .put e => if w.files.any (fun f => f.name = e.name) = true then w else { w with files := w.files ++ [e] }
  | .remove n => { w with files := w.files.filter fun f => f.name ≠ n }
  | .start => if w.raised.isSome = true then w else { w with packs := w.packs ++ [w.next], next := w.next + 1 }
  | .ends i =>
    if w.raised.isSome = true ∨ i ∉ w.packs then w else { w with graveyard := addTo w.graveyard i }
  | .purge i =>
    if w.raised.isSome = true ∨ i ∉ w.graveyard then w else { w with packs := w.packs.filter fun j => j ≠ i }
  | .stops p => if w.raised.isSome = true then w else lookForStops p w
  | .checkpoints fails => if w.raised.isSome = true then w else lookForCheckpoint fails w
  | .newRun c => { w with
      next := 1, packs := [], graveyard := [], victims := [], control := c, raised := none
      runs := w.runs + 1 }

/-- A sequence of them. Belongs to the model of `manager.py:1561-1574`. -/
def run (w : World) (l : List Act) : World := l.foldl act w

/-- A working directory before the first run in it (manager.py:253-317: no optimizers; the first id is 1, lines
274 and 1327). -/
def empty (workingDir cwd : Path) (c : Option Control) : World :=
  { workingDir := workingDir, cwd := cwd, next := 1, packs := [], graveyard := [], victims := [], files := [], control := c
    raised := none, runs := 0, stopped := [], made := [] }

end Glompo.Interventions

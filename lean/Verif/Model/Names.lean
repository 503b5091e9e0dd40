import Verif.Model.Interventions

/-!
# Names by which optimizers are kept apart

Threads, processes, files and groups carry the number of an optimizer in their names; some of the names are read back. The names are formatted in
several places of `/repo/glompo`; names are lists of characters.
-/

namespace Glompo.Names

open Checkpoint (Name dec pad)
open Interventions (pyInt)

/-- Name of the thread or process of an optimizer, `f"Opt{opt_id}"` (manager.py:870, manager.py:1283). -/
def thread (i : Nat) : Name := "Opt".toList ++ dec i

/-- `name.replace("Opt", "")` (_backends.py:31). -/
def dropOpt : Name → Name
  | 'O' :: 'p' :: 't' :: r => dropOpt r
  | c :: r => c :: dropOpt r
  | [] => []

/-- The number which a thread finds in its name (_backends.py:31); `none` is `ValueError`. -/
def ofThread (n : Name) : Option Int := pyInt (dropOpt n)

/-- File of what an optimizer prints, `f"printstream_{opt_id:04}.{ext}"` (_backends.py:78, wrappers.py:16-17). -/
def stream (i : Nat) (ext : Name) : Name := "printstream_".toList ++ pad 4 i ++ '.' :: ext

/-- File or directory of the state of an optimizer in a checkpoint, `f'{opt_id:04}'` (manager.py:848, manager.py:1867, manager.py:1880). -/
def restart (i : Nat) : Name := pad 4 i

/-- `int(opt.name)` (manager.py:824); `none` is `ValueError`. Simplification: underscores between digits, which Python accepts, are not. -/
def ofRestart (n : Name) : Option Int := pyInt n

/-- The optimizers of a checkpoint, from the names in its directory (manager.py:824-825); `none` is `ValueError`. -/
def ofRestarts : List Name → Option (List Int)
  | [] => some []
  | n :: r => match ofRestart n, ofRestarts r with
    | some i, some l => some (i :: l)
    | _, _ => none

/-- Are the files of all optimizers which were to write one in the directory? (manager.py:1880-1883) -/
def allFound (dir : List Name) (ids : List Nat) : Bool := ids.all fun i => dir.contains (restart i)

/-- Group of an optimizer in the log file, `f'optimizer_{opt_id}'` (optimizerlogger.py:352, optimizerlogger.py:369-370, optimizerlogger.py:462). -/
def group (i : Nat) : Name := "optimizer_".toList ++ dec i

/-- Path of the table of an optimizer in the log file (optimizerlogger.py:395, optimizerlogger.py:468). -/
def table (i : Nat) : Name := '/' :: group i ++ "/iter_hist".toList

/-- `text.split(d)`. Belongs to the model of `manager.py:954`, `optimizerlogger.py:515-516`. -/
def splitOn (d : Char) : Name → List Name
  | [] => [[]]
  | c :: t =>
    if c = d then [] :: splitOn d t
    else match splitOn d t with
      | [] => [[c]]
      | h :: r => (c :: h) :: r

/-- `int(name.split('_')[1])` (manager.py:954, optimizerlogger.py:515); `none` is `IndexError` or `ValueError`. -/
def ofGroup (n : Name) : Option Int := ((splitOn '_' n)[1]?).bind pyInt

/-- `int(path.split('/')[1].split('_')[1])` (optimizerlogger.py:516); `none` is `IndexError` or `ValueError`. -/
def ofTable (n : Name) : Option Int := ((splitOn '/' n)[1]?).bind ofGroup

/-- The groups left when a log file is opened for a resumed run (manager.py:953-955); `none` is an exception. -/
def pruned (counter : Nat) : List Name → Option (List Name)
  | [] => some []
  | n :: r => match ofGroup n, pruned counter r with
    | some i, some l => some (if i > (counter : Int) then l else n :: l)
    | _, _ => none

/-- File of the log messages of an optimizer, `f"optimizer_{opt_id}.log"` (helpers.py:103, helpers.py:106). -/
def messages (i : Nat) : Name := group i ++ ".log".toList

/-- File of the results of a CMA optimizer (cmawrapper.py:229-233). -/
def cma (i : Nat) : Name :=
  "cma_".toList ++ (if i ≠ 0 then "opt".toList ++ dec i ++ "_".toList else []) ++ "results.pkl".toList

/-! ### What processes print -/

/-- The two streams of a process (wrappers.py:16-17). -/
inductive Std where
  | out
  | err
  deriving DecidableEq, Repr

/-- The ending of the name of a file (wrappers.py:16-17). -/
def Std.ext : Std → Name
  | .out => "out".toList
  | .err => "err".toList

/-- What happens: the process of an optimizer begins, or it prints; those of different optimizers in any order. Belongs to the model of
`wrappers.py:11-22`. -/
inductive Op where
  | start (i : Nat)
  | print (i : Nat) (s : Std) (text : List Char)
  deriving DecidableEq, Repr

/-- The directory `glompo_optimizer_printstreams`; files which are not there are empty (wrappers.py:16-17). -/
abbrev Disk := Name → List Char

/-- A file becomes `t`. Belongs to the model of `wrappers.py:16-17`. -/
def put (d : Disk) (n : Name) (t : List Char) : Disk := fun m => if m = n then t else d m

/-- `process_print_redirect` (wrappers.py:11-22): opening with mode `w` empties a file; printing adds to it. Simplification: text reaches the file
at once, not when the buffer is full, at the latest when the file is closed. -/
def step (d : Disk) : Op → Disk
  | .start i => put (put d (stream i Std.out.ext) []) (stream i Std.err.ext) []
  | .print i s t => put d (stream i s.ext) (d (stream i s.ext) ++ t)

/-- The files after a history, the earliest first. Belongs to the model of `wrappers.py:11-22`. -/
def run (d : Disk) (l : List Op) : Disk := l.foldl step d

end Glompo.Names

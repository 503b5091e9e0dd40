import Verif.Model.Checkpoint

/-!
# Files of a session in the working directory

`GloMPOManager._purge_old_results` (`/repo/glompo/core/manager.py:1974-1992`), and the files `start_manager`
(manager.py:922-965, 1077-1096) and `_save_log` (manager.py:1678-1795) write. A directory is a list of paths, relative to the
working directory, with what they are.
-/

namespace Glompo.OldResults
open Glompo.Checkpoint (Name)

/-- `file n`: content `n` from before; `fresh`: written by this session, nothing of an older content is left;
`extended n`: the old content `n` with something appended. Belongs to the model of `manager.py:1977-1981`. -/
inductive Node where
  | file (content : Nat)
  | fresh
  | extended (content : Nat)
  | folder
deriving Repr, DecidableEq

/-- Belongs to the model of `manager.py:1977-1981`. -/
abbrev Dir := List (Name × Node)

/-- manager.py:1977, 1764. -/
def managerLog : Name := "glompo_manager_log.yml".toList
/-- manager.py:1981, 925. -/
def logFile : Name := "glompo_log.h5".toList
/-- manager.py:1988, 965. -/
def streamsDir : Name := "glompo_optimizer_printstreams".toList

/-- `Path.glob('pre*suf')`: entries of the directory itself. Belongs to the model of `manager.py:1977-1981`. -/
def globbed (pre suf name : Name) : Bool :=
  pre.isPrefixOf name && suf.isSuffixOf name && decide (pre.length + suf.length ≤ name.length) && decide ('/' ∉ name)

/-- manager.py:1977-1981: `to_remove`, in this order. -/
def toRemove (restart : Bool) (d : Dir) : List Name :=
  let names := d.map (·.1)
  names.filter (fun n => decide (n = managerLog)) ++ names.filter (globbed "trajectories".toList ".png".toList) ++
    names.filter (globbed "opt".toList "_parms.png".toList) ++
    (if restart then [] else names.filter fun n => decide (n = logFile))

/-- manager.py:1986-1987: `unlink` one after the other; a directory cannot be unlinked. -/
def unlinkAll : List Name → Dir → Dir × Except Err Unit
  | [], d => (d, .ok ())
  | n :: t, d =>
    match dictGet d n with
    | some .folder => (d, .error .osError)
    | _ => unlinkAll t (dictDel d n)

/-- Whether a path lies in the folder with the print streams, or is this folder. Belongs to the model of `manager.py:1988`. -/
def inStreams (n : Name) : Bool := decide (n = streamsDir) || (streamsDir ++ ['/']).isPrefixOf n

/-- manager.py:1988: `shutil.rmtree(…, ignore_errors=True)`. Simplification: it succeeds for a folder. -/
def dropStreams (d : Dir) : Dir :=
  match dictGet d streamsDir with
  | some .folder => d.filter fun p => !inStreams p.1
  | _ => d

/-- manager.py:1974-1992: `_purge_old_results`. -/
def purge (restart overwrite : Bool) (d : Dir) : Dir × Except Err Unit :=
  let old := toRemove restart d
  if old = [] then (d, .ok ())
  else if overwrite then
    match unlinkAll old d with
    | (d, .error e) => (d, .error e)
    | (d, .ok _) => (dropStreams d, .ok ())
  else (d, .error .fileExists)

/-- Settings and events of a session. Belongs to the model of `manager.py:924-926`. -/
structure Cfg where
  /-- `_is_restart` -/
  restart : Bool
  /-- `overwrite_existing` -/
  overwrite : Bool
  /-- `summary_files` -/
  level : Int
  /-- `split_printstreams`: the optimizers whose streams are opened -/
  printing : List Nat
  /-- name of the movie (scope.py:208), if one is recorded -/
  movie : Option Name
  /-- whether the values are plotted logarithmically (manager.py:1769-1771) -/
  logScale : Bool

/-- wrappers.py:16-17, _backends.py:78-79: both files are opened for (re)writing. -/
def streamFiles (opt : Nat) : List Name :=
  [streamsDir ++ "/printstream_".toList ++ Checkpoint.pad 4 opt ++ ".out".toList,
   streamsDir ++ "/printstream_".toList ++ Checkpoint.pad 4 opt ++ ".err".toList]

/-- manager.py:1772-1776. -/
def plotName (logScale : Bool) : Name := if logScale then "trajectories_log.png".toList else "trajectories.png".toList

/-- manager.py:924-926, 956, 959; `FileLogger` is used for `summary_files > 2` only (manager.py:594). For a restart the existing
file is opened for appending (its rows are the subject of `Model/Rollback`). -/
def openLog (c : Cfg) (d : Dir) : Dir :=
  if c.level > 2 then
    match c.restart, dictGet d logFile with
    | true, some (.file n) => dictSet d logFile (.extended n)
    | _, _ => dictSet d logFile .fresh
  else d

/-- Files written from scratch, in the order of the code: movie (manager.py:961-962), print streams (manager.py:964-965 and the
optimizers), summary and plot (manager.py:1763-1777). -/
def rewritten (c : Cfg) : List Name :=
  c.movie.toList ++ c.printing.flatMap streamFiles ++ (if c.level > 0 then [managerLog] else []) ++
    (if c.level > 1 then [plotName c.logScale] else [])

/-- Writing of files. Belongs to the model of `manager.py:922-1096`. -/
def writeAll : List Name → Dir → Dir
  | [], d => d
  | n :: t, d => writeAll t (dictSet d n .fresh)

/-- manager.py:964-965: `mkdir(exist_ok=True)`. Simplification: an existing entry is a folder. -/
def makeStreams (c : Cfg) (d : Dir) : Dir :=
  if c.printing = [] then d
  else match dictGet d streamsDir with
    | none => dictSet d streamsDir .folder
    | some _ => d

/-- The working directory over a whole session (manager.py:922-1096). Simplification: every file can be written. -/
def session (c : Cfg) (d : Dir) : Dir × Except Err Unit :=
  match purge c.restart c.overwrite d with
  | (d, .error e) => (d, .error e)
  | (d, .ok _) => (writeAll (rewritten c) (makeStreams c (openLog c d)), .ok ())

end Glompo.OldResults

import Verif.Model.Setup
import Verif.Model.Checkpoint

/-!
# Saving the task: `_checkpoint_task` (`glompo/core/manager.py:1910-1936`)

What a checkpoint holds of the task afterwards is the `TaskFile` of `Model/Setup` and the files made by the task itself.
-/

namespace Glompo.TaskSave

open Glompo.Init

/-- How `dill.dump(self.task, file)` ends (manager.py:1919). `other`: an exception which is no `PickleError`, for example the `TypeError` of locks and
generators. -/
inductive Dumping where
  | ok
  | pickleError
  | other (e : Err)
  deriving DecidableEq, Repr

/-- How `self.task.checkpoint_save(path)` ends (manager.py:1929): there is no such method, it returns having made some files, or it raises
having made some. -/
inductive Saving where
  | missing
  | done (files : List String)
  | fails (files : List String)
  deriving DecidableEq, Repr

/-- What is in the directory of the checkpoint, and whether "Checkpointing without task" was logged as a warning. Belongs to the model of `manager.py:1910-1936`. -/
structure Saved where
  file : TaskFile
  files : List String
  warned : Bool
  deriving DecidableEq, Repr

/-- Lines 1916-1924: the file `task`, whether the task is persisted, and the exception raised. An unexpected exception leaves the file
half written. -/
def pickleTask (force : Bool) (t : Task) (d : Dumping) : TaskFile × Bool × Option Err :=
  if force = true then (.absent, false, none)
  else
    match d with
    | .ok => (.holds (some t), true, none)
    | .pickleError => (.absent, false, none)
    | .other e => (.broken, false, some e)

/-- Lines 1926-1936. Simplification: `checkpoint_save` makes no file of the name `task`. -/
def customTask (f : TaskFile) (s : Saving) : Saved :=
  match s with
  | .missing => ⟨f, [], true⟩
  | .done files => ⟨f, files, false⟩
  | .fails files => ⟨f, files, true⟩

/-- `_checkpoint_task` (manager.py:1910-1936). -/
def saveTask (force : Bool) (t : Task) (d : Dumping) (s : Saving) : Saved × Option Err :=
  match pickleTask force t d with
  | (f, _, some e) => (⟨f, [], false⟩, some e)
  | (f, true, none) => (⟨f, [], false⟩, none)
  | (f, false, none) => (customTask f s, none)

/-- What goes wrong in a checkpoint in which all but the task is saved (manager.py:1129-1149). -/
def faults (force : Bool) (t : Task) (d : Dumping) (s : Saving) : Checkpoint.Faults :=
  { build := (saveTask force t d s).2.map fun e => (e, false), tar := none, unlink := none, rmtree := false }

end Glompo.TaskSave

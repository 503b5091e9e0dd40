import Verif.Model.FileLogger

/-!
# Resuming with a log file: `glompo/core/manager.py:924-959`, `glompo/core/optimizerlogger.py:500-533`

The file on disk outlives the process. Writes which were made are assumed to be on disk.
-/

namespace Glompo.Rollback

open Glompo FileLogger

/-- `glompo_log.h5`: the attributes `checksum` and `f_counter` of the root, the groups `optimizer_<id>` and their tables. Belongs to the model of `optimizerlogger.py:519-530`. -/
structure LogFile where
  checksum : String
  fCounter : Option Nat
  groups : List Nat
  tables : List (Nat × Table)
  deriving DecidableEq, Repr

/-- The file after `FileLogger.close` (optimizerlogger.py:519-530), the only place where `f_counter` is written. -/
def closedFile (checksum : String) (s : FileLogger) : LogFile :=
  { checksum := checksum, fCounter := some s.base.fCounter, groups := s.close.1.groups, tables := s.close.1.tables }

/-- The file when the process is lost without `close`: what was flushed; `f_counter` is that of the previous session's `close`, if there
was one. Belongs to the model of `optimizerlogger.py:519-530`. -/
def lostFile (checksum : String) (previous : Option Nat) (s : FileLogger) : LogFile :=
  { checksum := checksum, fCounter := previous, groups := s.groups, tables := s.tables }

/-- `np.searchsorted(l, n, 'right')` for ascending `l`. Used in `manager.py:950`. -/
def searchRight (l : List Nat) (n : Nat) : Nat := (l.takeWhile fun c => decide (c ≤ n)).length

/-- Lines 949-951: `remove_rows(k)` removes row `k` and all after it. -/
def cut (n : Nat) (t : Table) : Table := { t with rows := t.rows.take (searchRight (t.rows.map (·.callId)) n) }

/-- Lines 926-956 with the checksum, `f_counter` and `o_counter` of the manager loaded from the checkpoint: the file and the exception, if
any. A missing attribute raises `AttributeError`. -/
def rollback (checksum : String) (n o : Nat) (f : LogFile) : LogFile × Option Err :=
  if f.checksum ≠ checksum then (f, some .keyError)
  else
    match f.fCounter with
    | none => (f, some .other)
    | some c =>
      if c > n then
        ({ f with
           groups := f.groups.filter fun i => decide (i ≤ o)
           tables := (f.tables.filter fun p => decide (p.1 ≤ o)).map fun p => (p.1, cut n p.2) }, none)
      else (f, none)

/-- `FileLogger.checkpoint_load` and `open(.., 'a', ..)` (optimizerlogger.py:512-517): the logger of the checkpoint with groups and tables
of the file. -/
def reopen (saved : FileLogger) (f : LogFile) : FileLogger := { saved with groups := f.groups, tables := f.tables }

/-- `FileLogger.len` (optimizerlogger.py:358-364, 77-81): the length of the `fx` column in memory; if the optimizer or the column is not in
memory the number of rows of the table. -/
def lenOf (s : FileLogger) (i : Nat) : Nat :=
  match dictGet s.tables i with
  | none => 0
  | some t =>
    match dictGet s.base.storage i with
    | none => t.rows.length
    | some st =>
      match dictGet st.cols "fx" with
      | none => t.rows.length
      | some c => c.length

/-- The manager before it records an evaluation (manager.py:1493-1503): the table is only made if there is none. -/
def record (s : FileLogger) (r : IterRes) (size : Nat) : FileLogger × Option Err :=
  if s.hasIterHistory r.optId then s.putIteration r size
  else
    match s.addIterHistory r.optId [] with
    | (s', some e) => (s', some e)
    | (s', none) => s'.putIteration r size

/-- The rows of an optimizer in the file. Belongs to the model of `optimizerlogger.py:519-530`. -/
def LogFile.rowsFor (f : LogFile) (i : Nat) : List Row :=
  match dictGet f.tables i with
  | some t => t.rows
  | none => []

end Glompo.Rollback

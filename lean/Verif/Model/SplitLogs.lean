/-!
# Separate log files for the optimizers

Model of `SplitOptimizerLogs` (glompo/common/helpers.py:42-114) on a handler of the logger `glompo.optimizers`, together with
what Python's `logging` does with a record of one of the loggers `glompo.optimizers.opt<N>`: the handlers of that logger
first, then those of `glompo.optimizers`.
-/

namespace Glompo.SplitLogs

/-- A message. `opt` is the number in the name of the logger, `none` for the logger `glompo.optimizers` itself; `trace` is the
traceback which comes with it, if any. Belongs to the model of `helpers.py:91-114`. -/
structure Record where
  opt : Option Nat
  level : Nat
  msg : String
  trace : Option String
  deriving DecidableEq, Repr

/-- How the user set things up: level of the logger, level of the handler with the filter, `propagate`, and whether a
formatter was given. Belongs to the model of `helpers.py:91-114`. -/
structure Setup where
  logLevel : Nat
  handlerLevel : Nat
  propagate : Bool
  formatter : Bool
  deriving DecidableEq, Repr

/-- What a handler writes for a record: the formatter (given or the default one) adds the traceback. A given formatter may
add more; that is left out. Belongs to the model of `helpers.py:91-114`. -/
def fullText (r : Record) : String := match r.trace with | none => r.msg | some t => r.msg ++ "\n" ++ t

/-- `SplitOptimizerLogs.filter`, lines 97-100: what is written for the first record. -/
def firstText (su : Setup) (r : Record) : String := if su.formatter then fullText r else r.msg

/-- The state: `opened` of the filter (line 86); the file handlers of the loggers, one entry for each; the files (lines); what
the handler with the filter has emitted. -/
structure Logs where
  opened : List Nat
  handlers : List Nat
  file : Nat → List String
  out : List String

/-- Nothing logged yet; `file` are files which exist already. The state after `helpers.py:80-89`. -/
def fresh (file : Nat → List String) : Logs := ⟨[], [], file, []⟩

/-- The handlers of the logger of optimizer `i` write (a `FileHandler` appends, line 105). -/
def appendAll (i : Nat) (line : String) (l : Logs) : Logs :=
  { l with file := fun j => if j = i then l.file j ++ List.replicate (l.handlers.count i) line else l.file j }

/-- `SplitOptimizerLogs.filter` (helpers.py:91-114); `none`: `ValueError` of line 93. -/
def filter (su : Setup) (r : Record) (l : Logs) : Option (Logs × Bool) :=
  match r.opt with
  | none => none
  | some i =>
    if i ∉ l.opened then
      some ({ l with opened := l.opened ++ [i], handlers := l.handlers ++ [i]
                     file := fun j => if j = i then [firstText su r] else l.file j }, su.propagate)
    else some (l, su.propagate)

/-- `logger.log(...)`: the level of the logger, its own handlers, then the handler with the filter. Belongs to the model of `helpers.py:91-114`. -/
def log (su : Setup) (r : Record) (l : Logs) : Option Logs :=
  if r.level < su.logLevel then some l
  else
    let l1 := match r.opt with | some i => appendAll i (fullText r) l | none => l
    if r.level < su.handlerLevel then some l1
    else
      match filter su r l1 with
      | none => none
      | some (l2, pass) => some (if pass then { l2 with out := l2.out ++ [fullText r] } else l2)

/-- A sequence of messages. Belongs to the model of `helpers.py:91-114`. -/
def logAll (su : Setup) : List Record → Logs → Option Logs
  | [], l => some l
  | r :: t, l => match log su r l with | none => none | some l' => logAll su t l'

/-- Another manager is set up in the same process with a new filter (`__init__`, lines 82-89) in place of the old one; the
file handlers stay where they are. -/
def renew (l : Logs) : Logs := { l with opened := [] }

end Glompo.SplitLogs

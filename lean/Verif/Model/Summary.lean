import Verif.Model.Helpers
import Verif.Model.Sessions
import Verif.Model.Manager

/-!
# The summary file: `_save_log` and `write_summary_file` (`glompo/core/manager.py:1202-1220, 1692-1765`), the YAML presenters
(`glompo/common/helpers.py:415-514`) and their registration (`glompo/core/manager.py:247-254`)

`yaml.dump` first represents the whole value as a tree of nodes with tags (PyYAML's `Representer`) and then writes the tree; loading
reads the tree back and constructs values by the tags (PyYAML's `SafeConstructor`). Both steps between tree and text are left out, so is
the sharing of objects which occur twice (anchors and aliases): objects are trees. Not modelled: bytes, sets, dates, complex numbers,
subclasses of built-in types other than those of helpers.py, arrays without dimension, and the resource information of psutil
(lines 1697-1720, 1751-1752).
-/

namespace Glompo.Summary

open Glompo Glompo.Helpers

/-- Plain Python values without parts. Belongs to the model of `manager.py:247-254`. -/
inductive Scal where
  | none
  | bool (b : Bool)
  | int (n : Int)
  | float (x : PyF)
  | str (s : List Char)
  deriving DecidableEq, Repr

/-- Keys of dictionaries. Belongs to the model of `helpers.py:438-439`. -/
inductive Key where
  | str (s : List Char)
  | int (n : Nat)
  deriving DecidableEq, Repr

/-- Objects which may be handed to `yaml.dump`. Belongs to the model of `manager.py:247-254`. -/
inductive Obj where
  | scal (v : Scal)
  /-- `LiteralWrapper` (helpers.py:418-419). -/
  | literal (s : List Char)
  /-- A list, or a `FlowList` (helpers.py:422-423), which only differs in how it is laid out. -/
  | list (l : List Obj)
  | dict (l : List (Key × Obj))
  | tuple (l : List Obj)
  /-- A numpy scalar with what its `item()` is. -/
  | npScalar (v : Scal)
  /-- A numpy array with its `tolist()`. -/
  | npArray (l : List Obj)
  /-- A function, defined by `def` or `lambda` or built in. -/
  | function (name : List Char)
  /-- A class. The flag says whether its own type is a metaclass other than `type`, as it is for subclasses of `ABC`. -/
  | cls (hasMeta : Bool) (name : List Char)
  /-- Any other object: the name of its class and its attributes, in the order of `dir`, which are neither callable nor begin with an
  underscore. -/
  | inst (name : List Char) (attrs : List (List Char × Obj))
  deriving Repr

/-- Tags of nodes. Belongs to the model of `manager.py:247-254`. -/
inductive Tag where
  /-- `tag:yaml.org,2002:null`, `bool`, `int`, `float`, `str`, `seq` or `map`. -/
  | core
  /-- A tag below `tag:yaml.org,2002:python/`. -/
  | python (what : List Char)
  deriving DecidableEq, Repr

/-- Nodes of a YAML document. Belongs to the model of `manager.py:247-254`. -/
inductive Node where
  | scalar (t : Tag) (v : Scal)
  | seq (t : Tag) (l : List Node)
  | map (l : List (Key × Node))
  deriving Repr

/-- Values of native Python types. Belongs to the model of `manager.py:247-254`, `helpers.py:438-439`. -/
inductive Val where
  | scal (v : Scal)
  | list (l : List Val)
  | dict (l : List (Key × Val))
  deriving Repr

/-- `data.replace(' \n', '\n')` (helpers.py:432). -/
def trim : List Char → List Char
  | ' ' :: '\n' :: t => '\n' :: trim t
  | c :: t => c :: trim t
  | [] => []

mutual
/-- `represent_data` of PyYAML with the presenters registered in manager.py:247-254. The representers of PyYAML for the exact types of
built-in values, among them tuples, functions and classes whose type is `type`, come before the one registered for `object`
(helpers.py:498-514). -/
def represent : Obj → Node
  | .scal v => .scalar .core v
  | .literal s => .scalar .core (.str (trim s))
  | .list l => .seq .core (representL l)
  | .dict l => .map (representD l)
  | .tuple l => .seq (.python "tuple".toList) (representL l)
  | .npScalar v => .scalar .core v
  | .npArray l => .seq .core (representL l)
  | .function n => .scalar (.python ("name:".toList ++ n)) (.str [])
  | .cls true n => .scalar .core (.str n)
  | .cls false n => .scalar (.python ("name:".toList ++ n)) (.str [])
  | .inst n [] => .map [(.str n, .scalar .core .none)]
  | .inst n (a :: t) => .map [(.str n, .map (representA (a :: t)))]
/-- The items of a sequence. Belongs to the model of `manager.py:247-254`. -/
def representL : List Obj → List Node
  | [] => []
  | o :: t => represent o :: representL t
/-- The entries of a dictionary. Belongs to the model of `manager.py:247-254`. -/
def representD : List (Key × Obj) → List (Key × Node)
  | [] => []
  | (k, o) :: t => (k, represent o) :: representD t
/-- The attributes of an object. Belongs to the model of `manager.py:247-254`. -/
def representA : List (List Char × Obj) → List (Key × Node)
  | [] => []
  | (k, o) :: t => (.str k, represent o) :: representA t
end

mutual
/-- `yaml.safe_load` of a node, `none` being a `ConstructorError`: nodes with a tag below `python/` have no constructor. Belongs to the model of `manager.py:247-254`. -/
def load : Node → Option Val
  | .scalar .core v => some (.scal v)
  | .scalar (.python _) _ => none
  | .seq .core l => (loadL l).map .list
  | .seq (.python _) _ => none
  | .map l => (loadD l).map .dict
/-- The items of a sequence. Belongs to the model of `manager.py:247-254`. -/
def loadL : List Node → Option (List Val)
  | [] => some []
  | n :: t => (load n).bind fun v => (loadL t).map (v :: ·)
/-- The entries of a mapping. The keys of one mapping are different, as they come from a dictionary. Belongs to the model of `manager.py:247-254`. -/
def loadD : List (Key × Node) → Option (List (Key × Val))
  | [] => some []
  | (k, n) :: t => (load n).bind fun v => (loadD t).map ((k, v) :: ·)
end

/-- A string as an object, and a key. Belongs to the model of `helpers.py:435-450`. -/
def str (s : String) : Obj := .scal (.str s.toList)
/-- Belongs to the model of `helpers.py:439`. -/
def key (s : String) : Key := .str s.toList
/-- Belongs to the model of `helpers.py:489-495`. -/
def nat (n : Nat) : Obj := .scal (.int n)

/-- A selector: its class, `allow_spawn` and, for each of its optimizers, the tuple of class, initialisation and call arguments. Belongs to the model of `helpers.py:435-450`. -/
structure Selector where
  cls : List Char
  allowSpawn : Obj
  avail : List (List Obj)

/-- `dict(zip(('type', 'init_kwargs', 'call_kwargs'), opt))` (helpers.py:439). -/
def optEntry (opt : List Obj) : Obj := .dict (["type", "init_kwargs", "call_kwargs"].map key |>.zip opt)

/-- The loop of helpers.py:438-439. -/
def optEntries : Nat → List (List Obj) → List (Key × Obj)
  | _, [] => []
  | i, o :: t => (.int i, optEntry o) :: optEntries (i + 1) t

/-- `optimizer_selector_presenter` (helpers.py:435-450), as the dictionary it represents. Everything is an instance of `object`, so that
the condition of line 441 always holds. -/
def presentSelector (s : Selector) : Obj :=
  .dict [(key "Selector", .scal (.str s.cls)), (key "Allow Spawn", s.allowSpawn),
    (key "Available Optimizers", .dict (optEntries 0 s.avail))]

/-- `generator_presenter` (helpers.py:453-463), as the dictionary it represents. `attrs` are the attributes as for `Obj.inst`. A
generator with an attribute called `Generator` is left out of account. -/
def presentGenerator (cls : List Char) (attrs : List (List Char × Obj)) : Obj :=
  .dict ((key "Generator", .scal (.str cls)) ::
    (attrs.filter fun a => decide (a.1 ≠ "logger".toList ∧ a.1 ≠ "bounds".toList)).map fun a => (.str a.1, a.2))

/-- `bound_group_presenter` (helpers.py:489-495), as the dictionary it represents; `text` is what `f"({min}, {max})"` gives. -/
def presentBounds (text : Bound → List Char) (bs : List Bound) : Except Err Obj :=
  match boundGroups bs with
  | .error e => .error e
  | .ok d => .ok (.dict (d.map fun p => (.str (text p.1), .list (p.2.map nat))))

/-- A task is a function with a name, or a callable object of a class with a name. Belongs to the model of `manager.py:1202-1220`. -/
inductive Task where
  | function (name : List Char)
  | object (cls : List Char)
  deriving DecidableEq, Repr

/-- `type(task).__name__`. Belongs to the model of `manager.py:1202-1220`. -/
def Task.typeName : Task → List Char
  | .function _ => "function".toList
  | .object c => c

/-- The name under which the user knows it: line 1729 was meant to take it. -/
def Task.ownName : Task → List Char
  | .function n => n
  | .object c => c

/-- Line 1729. A type is always an instance of `object`, so that the first alternative is always taken. -/
def taskEntry (t : Task) : Obj := .scal (.str t.typeName)

/-- What of a manager enters its summary, and some settings which do not. Texts of durations, times and bounds are functions. Belongs to the model of `manager.py:1202-1220`. -/
structure Facts where
  version : List Char
  task : Task
  /-- The directory of the process, and `working_dir`. -/
  cwd : List Char
  workingDir : List Char
  user : List Char
  host : List Char
  clock : Sessions.Clock
  duration : Rat → List Char
  moment : Rat → List Char
  /-- `x0_generator`: class and attributes. -/
  generator : List Char × List (List Char × Obj)
  /-- The formatted texts of `convergence_checker` and `killing_conditions`. -/
  checker : List Char
  hunters : Option (List Char)
  selector : Selector
  maxJobs : Nat
  bounds : List Bound
  boundText : Bound → List Char
  /-- `checkpointing_dir` and `checkpoint_history` if there is a `checkpoint_control`. -/
  checkpoints : Option (List Char × List (List Char))
  /-- `hunt_frequency`, `force_terminations_after` and whether print streams are split: settings of the manager. -/
  huntFrequency : Nat
  forceAfter : Int
  splitStreams : Bool

/-- The counters of a manager. Belongs to the model of `manager.py:1202-1220`. -/
structure Counters where
  evals : Nat
  hunts : Nat
  started : Nat
  killed : Nat
  converged : Nat
  deriving DecidableEq, Repr

/-- Lines 1745-1749: the counters of the manager. -/
def countersOf (s : Manager.State) : Counters :=
  ⟨s.fCounter, s.huntCounter, s.oCounter, s.victims.length, s.convCounter⟩

/-- A result: the value, the optimizer and its class, and the point. Belongs to the model of `manager.py:1628-1629`. -/
structure Solution where
  fx : Option PyF
  origin : Option (Nat × List Char)
  x : Option (List Rat)
  deriving DecidableEq, Repr

/-- Lines 1745-1749. -/
def counterEntry (c : Counters) : Obj :=
  .dict [(key "Function Evaluations", nat c.evals), (key "Hunts Started", nat c.hunts),
    (key "Optimizers", .dict [(key "Started", nat c.started), (key "Killed", nat c.killed), (key "Converged", nat c.converged)])]

/-- Lines 1758-1761. The text of the reason has been formatted; `origin` is the dictionary made in manager.py:1628-1629. -/
def solutionEntry (r : Solution) (reason : List Char) : Obj :=
  .dict [(key "fx", match r.fx with | none => .scal .none | some v => .scal (.float v)),
    (key "origin", match r.origin with
      | none => .scal .none
      | some (i, c) => .dict [(key "opt_id", nat i), (key "type", .scal (.str c))]),
    (key "exit cond.", .literal reason),
    (key "x", match r.x with | none => .scal .none | some x => .list (x.map fun v => .scal (.float (.fin v))))]

/-- Lines 1722-1725: the times. `self.t_end - self.t_start` raises `TypeError` while `t_end` is `None`. -/
def timeEntry (m : Facts) : Except Err Obj :=
  let total := ((m.clock.starts.zip m.clock.ends).map fun p => p.2 - p.1).sum
  let periods := (m.clock.starts.zip m.clock.ends).map fun p =>
    Obj.dict [(key "Start", .scal (.str (m.moment p.1))), (key "End", .scal (.str (m.moment p.2)))]
  let entry (session : Obj) : Obj := .dict [(key "Optimization Periods", .list periods),
    (key "Total", .scal (.str (m.duration total))), (key "Session", session)]
  match m.clock.tStart, m.clock.tEnd with
  | none, _ => .ok (entry (.scal .none))
  | some _, none => .error .typeError
  | some t0, some t => .ok (entry (.scal (.str (m.duration (t - t0)))))

/-- Lines 1736-1743, all but the bounds. -/
def settings (m : Facts) : List (Key × Obj) :=
  [(key "x0 Generator", presentGenerator m.generator.1 m.generator.2), (key "Convergence Checker", .literal m.checker),
    (key "Hunt Conditions", match m.hunters with | none => .scal .none | some h => .literal h),
    (key "Optimizer Selector", presentSelector m.selector), (key "Max Jobs", nat m.maxJobs)]

/-- Lines 1727-1735. -/
def assignment (m : Facts) (time : Obj) : Obj :=
  .dict [(key "GloMPO Version", .scal (.str m.version)), (key "Task", taskEntry m.task),
    (key "Working Dir", .scal (.str m.cwd)), (key "Username", .scal (.str m.user)), (key "Hostname", .scal (.str m.host)),
    (key "Time", time)]

/-- Lines 1754-1756. -/
def checkpointing (m : Facts) : List (Key × Obj) :=
  match m.checkpoints with
  | none => []
  | some (d, l) => [(key "Checkpointing", .dict [(key "Directory", .scal (.str d)),
      (key "Checkpoints", .list (l.map fun n => .scal (.str n)))])]

/-- Lines 1694-1695: the reason written. -/
def reasonText (reason : List Char) (caught : Option (List Char)) : List Char :=
  match caught with
  | none => reason
  | some e => "Process Crash: ".toList ++ e

/-- Lines 1726-1761: the dictionary, given the times and the bounds. -/
def dataDict (m : Facts) (c : Counters) (r : Solution) (reason : List Char) (time bounds : Obj) : Obj :=
  .dict ([(key "Assignment", assignment m time), (key "Settings", .dict (settings m ++ [(key "Bounds", bounds)])),
      (key "Counters", counterEntry c)] ++ checkpointing m ++ [(key "Solution", solutionEntry r reason)])

/-- What is in the place of the summary file: nothing, or a file which holds a document or nothing. Belongs to the model of `manager.py:1202-1220`. -/
abbrev File := Option (Option Node)

/-- `_save_log` with `summary_files` ≥ 1, up to line 1765. Times are computed before the file is opened, which empties it; the bounds are
grouped while `yaml.dump` represents the data, before anything is written. -/
def saveSummary (old : File) (m : Facts) (c : Counters) (r : Solution) (reason : List Char) (caught : Option (List Char)) :
    File × Option Err :=
  match timeEntry m with
  | .error e => (old, some e)
  | .ok time =>
    match presentBounds m.boundText m.bounds with
    | .error e => (some none, some e)
    | .ok bounds => (some (some (represent (dataDict m c r (reasonText reason caught) time bounds))), none)

/-- `write_summary_file` (manager.py:1202-1220), in a directory which exists. -/
def writeSummaryFile (old : File) (m : Facts) (c : Counters) (r : Solution) : File × Option Err :=
  saveSummary old m c r "Manual Save State".toList none

/-- The end of `start_manager` as far as it concerns the summary file (manager.py:1069-1088): the result is returned only if saving
does not raise. `now` is the time. Plots and the log file (`summary_files` ≥ 2) are left out. -/
def finish (summaryFiles : Nat) (now : Rat) (old : File) (m : Facts) (c : Counters) (r : Solution) (reason : List Char)
    (caught : Option (List Char)) : File × Except Err (Solution × List Char) :=
  let clock := { m.clock with tEnd := m.clock.tEnd.or (some now) }
  if summaryFiles = 0 then (old, .ok (r, reason))
  else
    match saveSummary old { m with clock := clock } c r reason caught with
    | (f, some e) => (f, .error e)
    | (f, none) => (f, .ok (r, reason))

end Glompo.Summary

import Verif.Model.Rollback

/-!
# What checkpoints keep of objects: attribute dumps

`glompo/optimizers/baseoptimizer.py:222-250, 360-395`, `glompo/core/optimizerlogger.py:46-58, 298-316, 532-533`,
`glompo/core/scope.py:426-463`, `glompo/core/manager.py:1886-1908, 709-720, 783-795, 841-884`, `glompo/common/wrappers.py:50-68`.

Optimizers, log, scope and manager are saved by dumping those of their attributes which pass a filter, and restored by setting
the attributes dumped on a new object.
-/

namespace Glompo.Attributes

/-- What can go wrong here. Belongs to the model of `manager.py:1886-1908`. -/
inductive Fault where
  | attributeError
  | importError
  | pickleError
  | checkpointingError
  | noSuchNode
  deriving DecidableEq, Repr

/-- A value: what it is, whether it can be called, whether it is a bound method (`hasattr(val, '__self__')`), whether `dill` can
dump it. Belongs to the model of `baseoptimizer.py:239-250`. -/
structure Val (V : Type) where
  val : V
  callable : Bool := false
  bound : Bool := false
  pickles : Bool := true
  deriving DecidableEq, Repr

/-- An entry of `dir(obj)`: its name, `getattr(obj, name)`, and whether it is a property without setter. Belongs to the model of `baseoptimizer.py:386-391`. -/
structure Attr (V : Type) where
  name : String
  val : Val V
  readonly : Bool := false
  deriving DecidableEq, Repr

/-- An object is the list of its entries. Belongs to the model of `manager.py:1886-1908`. -/
abbrev Obj (V : Type) := List (Attr V)

/-- A dictionary in a file. Belongs to the model of `manager.py:1886-1908`. -/
abbrev Dump (V : Type) := List (String × Val V)

variable {V : Type}

/-- `getattr(obj, name)`, `none` if it raises `AttributeError`. Belongs to the model of `optimizerlogger.py:402-403`. -/
def getA (o : Obj V) (n : String) : Option (Val V) := (o.find? fun a => a.name == n).map (·.val)

/-- `setattr(obj, name, value)`. Belongs to the model of `baseoptimizer.py:239-250`. -/
def setA : Obj V → String → Val V → Except Fault (Obj V)
  | [], n, v => .ok [⟨n, v, false⟩]
  | a :: t, n, v =>
    if a.name = n then
      if a.readonly = true then .error .attributeError else .ok ({ a with val := v } :: t)
    else
      match setA t n v with
      | .error e => .error e
      | .ok t' => .ok (a :: t')

/-- `for var, val in data.items(): setattr(obj, var, val)`. Belongs to the model of `baseoptimizer.py:239-250`. -/
def setAll : Obj V → Dump V → Except Fault (Obj V)
  | o, [] => .ok o
  | o, (n, v) :: t =>
    match setA o n v with
    | .error e => .error e
    | .ok o' => setAll o' t

/-- `'__' in name`. Belongs to the model of `optimizerlogger.py:308-313`. -/
def twoUnderscores : List Char → Bool
  | '_' :: '_' :: _ => true
  | _ :: t => twoUnderscores t
  | [] => false

/-- `name.startswith('_')`. Belongs to the model of `baseoptimizer.py:386-391`. -/
def isPrivate (n : String) : Bool :=
  match n.toList with
  | '_' :: _ => true
  | _ => false

/-- `BaseOptimizer.checkpoint_save` (baseoptimizer.py:386-391). -/
def keepOptimizer (force : List String) (a : Attr V) : Bool :=
  (!a.val.callable && !isPrivate a.name && !["logger", "is_restart", "opt_id", "n_iter"].contains a.name) || force.contains a.name

/-- `BaseLogger.checkpoint_save` (optimizerlogger.py:308-313). -/
def keepLog (block : List String) (a : Attr V) : Bool :=
  !twoUnderscores a.name.toList && !a.val.callable && !(block ++ ["n_optimizers", "largest_eval"]).contains a.name

/-- `FileLogger.checkpoint_save` (optimizerlogger.py:532-533). -/
def fileBlock : List String := ["pytab_file", "_tables", "_groups"]

/-- `GloMPOScope.checkpoint_save` (scope.py:434-438). -/
def keepScope (a : Attr V) : Bool :=
  !twoUnderscores a.name.toList && !a.val.callable && !["_writer", "logger", "is_setup"].contains a.name

/-- `_checkpoint_manager` (manager.py:1891-1897). -/
def keepManager (a : Attr V) : Bool :=
  !(a.val.callable && a.val.bound) && !twoUnderscores a.name.toList &&
    !["logger", "_process", "_mp_manager", "_optimizer_packs", "scope", "task", "optimizer_queue", "is_initialised",
      "opt_log"].contains a.name

/-- The dictionary of the attributes kept; `dill.dump` raises if one of them cannot be dumped. Belongs to the model of `manager.py:1886-1908`. -/
def dump (keep : Attr V → Bool) (o : Obj V) : Except Fault (Dump V) :=
  if ((o.filter keep).all fun a => a.val.pickles) = true then .ok ((o.filter keep).map fun a => (a.name, a.val))
  else .error .pickleError

/-- `_checkpoint_manager` (manager.py:1886-1908): what cannot be dumped is reported as `CheckpointingError`. -/
def dumpManager (o : Obj V) : Except Fault (Dump V) :=
  match dump keepManager o with
  | .ok d => .ok d
  | .error _ => .error .checkpointingError

/-- `needs_optional_package` (wrappers.py:50-68): an `ImportError`, be it of the package or within the function, becomes the answer `None`. -/
def needsPackage {α : Type} (r : Except Fault α) : Except Fault (Option α) :=
  match r with
  | .ok a => .ok (some a)
  | .error .importError => .ok none
  | .error e => .error e

/-- What `dill.load` gives for a file with dictionary `d`: `ok d`, or an exception, e.g. because the module of a class is missing. Belongs to the model of `baseoptimizer.py:239-250`. -/
abbrev Loaded (V : Type) := Except Fault (Dump V)

/-- `BaseOptimizer.checkpoint_load` (baseoptimizer.py:239-250); `fresh`: what `super(cls, opt).__init__(**kwargs)` makes. -/
def loadOptimizer (fresh : Obj V) (yes : Val V) (d : Loaded V) : Except Fault (Option (Obj V)) :=
  needsPackage (match d with
    | .error e => .error e
    | .ok d =>
      match setAll fresh d with
      | .error e => .error e
      | .ok o => setA o "_is_restart" yes)

/-- `load_checkpoint` for one optimizer (manager.py:846-857, 883-885): `none` if the optimizer is not continued (a warning). -/
def resumeOptimizer (fresh : Obj V) (yes workers backend : Val V) (d : Loaded V) : Option (Obj V) :=
  match loadOptimizer fresh yes d with
  | .error _ => none
  | .ok none => none                        -- None.workers = … raises AttributeError
  | .ok (some o) =>
    match setAll o [("workers", workers), ("_backend", backend)] with
    | .error _ => none
    | .ok o => some o

/-- `BaseLogger.checkpoint_load` (optimizerlogger.py:46-58); `bare`: what `cls.__new__(cls)` makes. `none`: `self.opt_log` becomes `None`. -/
def loadLog (bare : Obj V) (d : Loaded V) : Except Fault (Option (Obj V)) :=
  needsPackage (match d with
    | .error e => .error e
    | .ok d => setAll bare d)

/-! ### The attributes of the log -/

/-- The values of the attributes of a log. Belongs to the model of `optimizerlogger.py:25-316`. -/
inductive LogVal where
  | count (n : Nat)
  | bests (b : List (Nat × BestIter))
  | best (r : Option Nat)
  | value (v : PyF)
  | storage (s : List (Nat × Store))
  | flag (b : Bool)
  | chunk (c : List (Nat × List Row))
  | groups (g : List Nat)
  | tables (t : List (Nat × Table))
  | file
  | misc
  deriving DecidableEq, Repr

/-- A plain attribute. Belongs to the model of `optimizerlogger.py:60-67`. -/
def plain (n : String) (v : LogVal) : Attr LogVal := ⟨n, ⟨v, false, false, true⟩, false⟩

/-- A method. Belongs to the model of `optimizerlogger.py:25-316`. -/
def method (n : String) : Attr LogVal := ⟨n, ⟨.misc, true, true, true⟩, false⟩

/-- `cls.__new__(cls)`: methods and properties (optimizerlogger.py:25-316, 320-533). Simplification: asking a property of such an object
would raise; its value here is a dummy. Names with two underscores of `object` are left out. -/
def bareLog : Obj LogVal :=
  ["add_iter_history", "add_optimizer", "checkpoint_load", "checkpoint_save", "clear_cache", "close", "flush", "get_best_iter",
   "get_history", "get_metadata", "has_iter_history", "len", "open", "plot_optimizer_trials", "plot_trajectory",
   "put_iteration", "put_manager_metadata", "put_message", "put_metadata", "__len__", "__contains__", "__init__"].map method ++
  [⟨"n_optimizers", ⟨.misc, false, false, true⟩, true⟩, ⟨"largest_eval", ⟨.misc, false, false, true⟩, true⟩]

/-- The attributes of a `BaseLogger` (optimizerlogger.py:60-67). -/
def baseAttrs (s : Logger) : Obj LogVal :=
  [plain "_f_counter" (.count s.fCounter), plain "_best_iters" (.bests s.bestIters), plain "_best_iter" (.best s.bestRef),
   plain "_max_eval" (.value s.maxEval), plain "_storage" (.storage s.storage), plain "build_traj_plot" (.flag s.buildTrajPlot),
   plain "_figure_data" .misc]

/-- The attributes of an open `FileLogger` (optimizerlogger.py:335-349). The open file, its groups and tables cannot be dumped. -/
def fileAttrs (s : FileLogger) : Obj LogVal :=
  baseAttrs s.base ++
  [⟨"pytab_file", ⟨.file, false, false, false⟩, false⟩, plain "expected_rows" .misc, plain "n_task_dims" .misc,
   plain "_o_counter" (.count s.oCounter), plain "_writing_chunk" (.chunk s.chunk), plain "_est_iter_size" (.count s.est),
   ⟨"_groups", ⟨.groups s.groups, false, false, false⟩, false⟩, ⟨"_tables", ⟨.tables s.tables, false, false, false⟩, false⟩]

/-- `FileLogger.open(path, 'a', checksum)` (optimizerlogger.py:512-517). -/
def openAppend (o : Obj LogVal) (f : Rollback.LogFile) : Except Fault (Obj LogVal) :=
  setAll o [("pytab_file", ⟨.file, false, false, false⟩), ("_groups", ⟨.groups f.groups, false, false, false⟩),
    ("_tables", ⟨.tables f.tables, false, false, false⟩)]

/-- `FileLogger.open(path, 'w', checksum)` (optimizerlogger.py:512-514). -/
def openNew (o : Obj LogVal) : Except Fault (Obj LogVal) := setA o "pytab_file" ⟨.file, false, false, false⟩

/-- Lines 926, 956-959 of `start_manager` for a resumed manager: a log file there is appended to (after the rollback, `Model/Rollback`),
otherwise a new one is made. -/
def openResumed (o : Obj LogVal) (there : Option Rollback.LogFile) : Except Fault (Obj LogVal) :=
  match there with
  | some f => openAppend o f
  | none => openNew o

/-- The object read as a `FileLogger` again: each field from its attribute, `none` if one is missing. Belongs to the model of `manager.py:1886-1908`, `optimizerlogger.py:402-403`, `optimizerlogger.py:25-316`. -/
def asFileLogger (o : Obj LogVal) : Option FileLogger :=
  match getA o "_f_counter", getA o "_best_iters", getA o "_best_iter", getA o "_max_eval", getA o "_storage", getA o "build_traj_plot",
    getA o "_o_counter", getA o "_writing_chunk", getA o "_est_iter_size", getA o "_groups", getA o "_tables" with
  | some ⟨.count f, _, _, _⟩, some ⟨.bests bs, _, _, _⟩, some ⟨.best r, _, _, _⟩, some ⟨.value m, _, _, _⟩, some ⟨.storage st, _, _, _⟩,
    some ⟨.flag t, _, _, _⟩, some ⟨.count n, _, _, _⟩, some ⟨.chunk c, _, _, _⟩, some ⟨.count e, _, _, _⟩, some ⟨.groups g, _, _, _⟩,
    some ⟨.tables ts, _, _, _⟩ => some ⟨⟨f, bs, r, m, st, t⟩, n, c, e, g, ts⟩
  | _, _, _, _, _, _, _, _, _, _, _ => none

/-- `FileLogger.has_iter_history` (optimizerlogger.py:402-403), the first thing the manager does with an evaluation (manager.py:1493). -/
def hasHistory (o : Obj LogVal) (i : Nat) : Except Fault Bool :=
  match getA o "_tables" with
  | some ⟨.tables t, _, _, _⟩ => .ok (dictGet t i).isSome
  | some _ => .error .attributeError
  | none => .error .attributeError

/-- `FileLogger.add_optimizer` up to the entry in `_groups` (optimizerlogger.py:368-377): whether it raises. -/
def newOptimizer (o : Obj LogVal) : Except Fault Unit :=
  match getA o "_storage", getA o "_writing_chunk", getA o "_groups" with
  | some _, some _, some _ => .ok ()
  | _, _, _ => .error .attributeError

/-- `FileLogger.put_metadata` and `put_message` by way of `_get_group` (optimizerlogger.py:459-463): whether they find the group of optimizer `i`. -/
def groupOf (o : Obj LogVal) (i : Nat) : Except Fault Unit :=
  match getA o "_groups" with
  | some ⟨.groups g, _, _, _⟩ => if i ∈ g then .ok () else .error .noSuchNode
  | some _ => .error .attributeError
  | none => .error .attributeError

end Glompo.Attributes

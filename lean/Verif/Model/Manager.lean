import Verif.Model.Logger
import Verif.Model.Setup

/-!
# `glompo/core/manager.py`: the running manager

The manager is a program which, again and again, looks at something outside it: a process (`is_alive`), a pipe, the
results queue, the clock, the file system, or a user supplied object (selector, generator, hunter, checker). Each such
look is one *observation*; the environment is the list of what the manager will see, quantified over in every theorem.
An observation may instead raise any exception (a broken pipe, a failing plug-in, Ctrl-C), and processes may die at any
observation. When the list is used up the run is *pending*: its state is the state of the manager at that moment. So
all lists together give all moments of all runs, under all schedules.

`ev` and `ops` record what happened (ghost state, never read by the program). A manager may be continued from any
checkpoint it or an earlier manager wrote, with other settings; `ev` then goes on from the moment of the checkpoint, so
that it always tells the whole history of the manager's state.

Simplifications: the log is the in-memory one (`summary_files <= 2`); logging texts, drawing, resource monitoring
and summary files are left out (they may only raise, at the observations standing in for them); user supplied objects do
not change the manager.
-/

namespace Glompo.Manager

open Glompo

/-- Settings (manager.py:319-624). `hunting`: killing conditions were given. -/
structure Cfg where
  maxJobs : Int
  huntFrequency : Int
  hunting : Bool
  sharing : Bool
  forced : Bool
  procs : Bool
  aggressive : Bool
  checkpointing : Bool
  checkpointAtConv : Bool
  raiseCkptFail : Bool
  traj : Bool
  visual : Bool := false
  deriving DecidableEq, Repr

/-- Answer of `select_optimizer` (manager.py:1312-1320): `False`, `None`, or an optimizer with its `workers` entry. -/
inductive SelAns where
  | stop
  | nothing
  | chosen (workers : Int) (cls : String)
  deriving DecidableEq, Repr

/-- A message in a pipe from an optimizer (manager.py:1365-1381, 1830-1843). `eof`: the pipe was closed. -/
inductive Sig where
  | done (msg : String)
  | paused
  | note (msg : String) (traceback : Bool)
  | unknown
  | eof
  deriving DecidableEq, Repr

/-- An entry of a chunk in the results queue (manager.py:1480-1491): a result, or the id of an optimizer which will send
no more. -/
inductive Msg where
  | res (r : IterRes)
  | fin (i : Nat)
  deriving DecidableEq, Repr

/-- What an observation shows. Belongs to the model of `manager.py:979-1071`. -/
inductive Ans where
  | unit
  | bool (b : Bool)
  | sel (a : SelAns)
  | sig (m : Option Sig)
  | chunk (c : Option (List Msg))
  | names (l : List String)
  | files (l : List (Option Nat))
  | raise (e : Err)
  deriving DecidableEq, Repr

/-- An observation; `deaths` are the processes which terminated since the previous one. Belongs to the model of `manager.py:979-1071`. -/
structure Obs where
  deaths : List Nat
  ans : Ans
  deriving DecidableEq, Repr

/-- Belongs to the model of `manager.py:979-1071`. -/
abbrev Env := List Obs

/-- Exceptions: those raised by the manager's own code, and those of the surroundings. Belongs to the model of `manager.py:1224-1260`. -/
inductive Exc where
  | crashLoop                 -- RuntimeError, line 1233
  | notEnoughSlots            -- RuntimeError, line 1260
  | keyError                  -- KeyError of the log
  | unhandledMessage          -- RuntimeError, line 1843
  | queueNotEmpty             -- AssertionError, line 1857
  | ckpt                      -- CheckpointingError, line 1883
  | eofError                  -- EOFError of `recv` on a closed pipe, line 1830
  | env (e : Err)
  deriving DecidableEq, Repr

/-- The record of what happened. Belongs to the model of `manager.py:1886-1907`. -/
inductive Ev where
  | died (i : Nat)
  | asked (slots : Int) (a : SelAns)
  | newId (i : Nat)
  | started (i : Nat) (slots : Int)
  | took (n : Nat)
  | named (i : Nat) (names : List String)   -- the headings given for the extra results of an optimizer
  | received (m : Msg)
  | accepted (r : IterRes)
  | ignored (r : IterRes)
  | released (i : Nat)
  | hunt (hunter : Nat)
  | killed (i : Nat) (hunter : Option Nat)
  | stop (i : Nat)
  | exited (i : Nat) (ok : Bool)          -- the process was found dead, the exit code (0 or not) was read
  | overdue (i : Nat) (late : Bool)       -- the time since its last message was compared with the limit
  | said (i : Nat) (msg : String)         -- the text an optimizer sent with its end signal was read
  | finished (i : Nat)
  | failed (i : Nat)
  | forced (i : Nat)
  | crashReport (i : Nat) (traceback : Bool)
  | share (to_ : Nat) (x : Vec) (fx : PyF)
  | checked (b : Bool)
  | ckptBegin
  | pauseReq (i : Nat)
  | save (i : Nat)
  | pass (i : Nat)
  | resume (i : Nat)
  | ckptEnd                               -- the checkpoint is over, the manager goes on
  | updated (x : Vec) (fx : PyF) (optId : Nat)
  | loopEnd
  | resumed (cfg : Cfg) (kept : Nat)      -- loaded from a checkpoint, with these settings and so many logged evaluations
  | restarted (i : Nat) (slots : Int)
  deriving DecidableEq, Repr

/-- `Result` (namedtuples.py) with its statistics (manager.py:1628-1637). -/
structure Res where
  x : Option Vec
  fx : Option PyF
  origin : Option (Nat × String)
  fEvals : Nat
  optsStarted : Nat
  optsKilled : Nat
  optsConv : Nat
  deriving DecidableEq, Repr

/-- What a checkpoint holds: the attributes `_checkpoint_manager` pickles (manager.py:1886-1907) as far as they are
modelled and not set anew on loading, the log (line 1133, saved first), and the ids of the restart files. `ops`, `ev`,
`first` are ghosts: what led to the log, what had happened, and the settings at the very beginning. -/
structure Saved where
  spawning : Bool
  oCounter : Nat
  fCounter : Nat
  convCounter : Nat
  huntCounter : Nat
  lastHunt : Nat
  graveyard : List Nat
  victims : List Nat
  result : Res
  slotsOf : List (Nat × Int)
  log : Logger
  files : List Nat
  ops : List Logger.Op
  ev : List Ev
  first : Cfg

/-- The manager's attributes (manager.py:253-317). `slotsOf`: `_opt_checkpoints`, without the classes. `startedP`,
`dead`: the operating system's view of the processes. `saved`: the checkpoints on the disk. `first`: ghost, the settings
the history began with. -/
structure State where
  spawning : Bool
  oCounter : Nat
  fCounter : Nat
  convCounter : Nat
  huntCounter : Nat
  lastHunt : Nat
  lastSpawn : Nat × Nat
  crashed : Bool
  converged : Bool
  packs : List (Nat × Int)
  graveyard : List Nat
  victims : List Nat
  result : Res
  log : Logger
  visual : Bool
  startedP : List Nat
  dead : List Nat
  slotsOf : List (Nat × Int)
  saved : List Saved
  restart : Bool
  first : Cfg
  ev : List Ev
  ops : List Logger.Op

/-- State after `__init__` and `setup` (manager.py:253-317). -/
def init (cfg : Cfg) : State :=
  { spawning := true, oCounter := 0, fCounter := 0, convCounter := 0, huntCounter := 0, lastHunt := 0
    lastSpawn := (0, 0), crashed := false, converged := false, packs := [], graveyard := [], victims := []
    result := { x := none, fx := none, origin := none, fEvals := 0, optsStarted := 0, optsKilled := 0, optsConv := 0 }
    log := Logger.init cfg.traj, visual := cfg.visual, startedP := [], dead := [], slotsOf := [], saved := []
    restart := false, first := cfg, ev := [], ops := [] }

/-- How a piece of the program ends. Belongs to the model of `manager.py:1509-1510`. -/
inductive Out (α : Type) where
  | ok (a : α)
  | raised (e : Exc)
  | pending
  deriving DecidableEq, Repr

/-- A piece of the program: from a state and the observations to come, to how it ends, the state, and the observations
left. Belongs to the model of `manager.py:1509-1510`. -/
def M (α : Type) := State → Env → Out α × State × Env

namespace M

protected def pure {α : Type} (a : α) : M α := fun s e => (.ok a, s, e)

protected def bind {α β : Type} (m : M α) (f : α → M β) : M β := fun s e =>
  match m s e with
  | (.ok a, s', e') => f a s' e'
  | (.raised x, s', e') => (.raised x, s', e')
  | (.pending, s', e') => (.pending, s', e')

instance : Monad M where
  pure := M.pure
  bind := M.bind

/-- Raise an exception. Belongs to the model of `manager.py:1224-1260`. -/
def throw {α : Type} (x : Exc) : M α := fun s e => (.raised x, s, e)

/-- The run has not come further than this. Belongs to the model of `manager.py:1235-1244`. -/
def pend {α : Type} : M α := fun s e => (.pending, s, e)

/-- `try: m except <what h accepts>`. Belongs to the model of `manager.py:1509-1510`. -/
def tryCatch {α : Type} (m : M α) (h : Exc → Option (M α)) : M α := fun s e =>
  match m s e with
  | (.raised x, s', e') =>
    match h x with
    | some k => k s' e'
    | none => (.raised x, s', e')
  | r => r

protected def get : M State := fun s e => (.ok s, s, e)

/-- Belongs to the model of `manager.py:1297-1354`. -/
def modify (f : State → State) : M Unit := fun s e => (.ok (), f s, e)

/-- `for b in l: f(b)`. Belongs to the model of `manager.py:1555-1574`. -/
def forEach {β : Type} : List β → (β → M Unit) → M Unit
  | [], _ => M.pure ()
  | b :: t, f => M.bind (f b) fun _ => forEach t f

end M

open M

/-- A process is alive: started and not terminated. Belongs to the model of `manager.py:1227`. -/
def State.alive (s : State) (i : Nat) : Bool := decide (i ∈ s.startedP) && !decide (i ∈ s.dead)

/-- Processes terminate. Belongs to the model of `manager.py:1509-1510`. -/
def die : List Nat → State → State
  | [], s => s
  | i :: t, s => die t (if s.alive i then { s with dead := i :: s.dead, ev := s.ev ++ [.died i] } else s)

/-- Record an event. Belongs to the model of `manager.py:1297-1354`. -/
def emit (x : Ev) : M Unit := modify fun s => { s with ev := s.ev ++ [x] }

/-- The next observation. Belongs to the model of `manager.py:1509-1510`. -/
def observe : M Ans := fun s e =>
  match e with
  | [] => (.pending, s, [])
  | o :: t =>
    match o.ans with
    | .raise x => (.raised (.env x), die o.deaths s, t)
    | a => (.ok a, die o.deaths s, t)

/-- An action outside which may fail, e.g. `pipe.send`. Belongs to the model of `manager.py:1509-1510`. -/
def askUnit : M Unit := do
  match ← observe with
  | .unit => pure ()
  | _ => pend

/-- Belongs to the model of `manager.py:1525-1553`. -/
def askBool : M Bool := do
  match ← observe with
  | .bool b => pure b
  | _ => pend

/-- Belongs to the model of `manager.py:1297-1354`. -/
def askSel : M SelAns := do
  match ← observe with
  | .sel a => pure a
  | _ => pend

/-- Belongs to the model of `manager.py:1356-1386`. -/
def askSig : M (Option Sig) := do
  match ← observe with
  | .sig m => pure m
  | _ => pend

/-- Belongs to the model of `manager.py:1466-1523`. -/
def askChunk : M (Option (List Msg)) := do
  match ← observe with
  | .chunk c => pure c
  | _ => pend

/-- Belongs to the model of `manager.py:1509-1510`, `manager.py:1235-1244`. -/
def askNames : M (List String) := do
  match ← observe with
  | .names l => pure l
  | _ => pend

/-- Belongs to the model of `manager.py:1555-1574`. -/
def askFiles : M (List (Option Nat)) := do
  match ← observe with
  | .files l => pure l
  | _ => pend

/-- `process.is_alive()`; where a `pipe.send` to the same process follows, an exception of it shows here. Belongs to the model of `manager.py:1826-1848`. -/
def isAlive (i : Nat) : M Bool := do
  askUnit
  let s ← M.get
  pure (s.alive i)

/-- A call of a method of the scope, if there is one (e.g. manager.py:1509-1510). All its methods are decorated with
`catch_user_interrupt` (scope.py:33, wrappers.py:25-47): Ctrl-C while one is running is swallowed. Simplification: what is
drawn is the subject of `Model/Scope` and `Model/Plot`. -/
def draw : M Unit := do
  let s ← M.get
  if s.visual = true then tryCatch askUnit fun x => if x = .env .keyboardInterrupt then some (pure ()) else none
  else pure ()

/-- An operation on the log (optimizerlogger.py); its `KeyError` is passed on. -/
def logOp (op : Logger.Op) : M Unit := fun s e =>
  match s.log.step op with
  | (l, none) => (.ok (), { s with log := l, ops := s.ops ++ [op] }, e)
  | (l, some _) => (.raised .keyError, { s with log := l, ops := s.ops ++ [op] }, e)

/-- `set.add`. Belongs to the model of `manager.py:1369-1372`. -/
def addTo (l : List Nat) (i : Nat) : List Nat := if i ∈ l then l else l ++ [i]

/-- `put_metadata` of `t_stop` and `end_cond`, e.g. manager.py:1369-1370. -/
def putEnd (i : Nat) (why : String) : M Unit := do
  logOp (.putMeta i "t_stop" "now")
  logOp (.putMeta i "end_cond" why)

/-- Slots of the living (manager.py:1227, 1246). -/
def State.livingSlots (s : State) : List Int := (s.packs.filter fun p => s.alive p.1).map (·.2)

/-- `_setup_new_optimizer` (manager.py:1297-1354). The observation after the counter is the construction of pipe, event
and optimizer. -/
def setupNewOptimizer (slotsAvailable : Int) : M (Option (Nat × Int)) := do
  match ← askSel with
  | .stop =>
    modify fun s => { s with spawning := false, ev := s.ev ++ [.asked slotsAvailable .stop] }
    pure none
  | .nothing =>
    emit (.asked slotsAvailable .nothing)
    pure none
  | .chosen w cls =>
    emit (.asked slotsAvailable (.chosen w cls))
    modify fun s => { s with oCounter := s.oCounter + 1, ev := s.ev ++ [.newId (s.oCounter + 1)] }
    askUnit
    let s ← M.get
    logOp (.add s.oCounter cls)
    modify fun s => { s with slotsOf := dictSet s.slotsOf s.oCounter w }
    pure (some (s.oCounter, w))

/-- `_start_new_job` (manager.py:1262-1295): the generator may raise, and so may `process.start()`. -/
def startNewJob (i : Nat) (w : Int) : M Unit := do
  askUnit
  modify fun s => { s with packs := dictSet s.packs i w }
  askUnit
  modify fun s => { s with startedP := i :: s.startedP, ev := s.ev ++ [.started i w] }
  draw

/-- The loop of `_fill_optimizer_slots` (manager.py:1235-1244); answers `started_new`. -/
def fillLoop (cfg : Cfg) : Nat → Int → Bool → M Bool
  | 0, _, _ => pend
  | n + 1, count, startedNew => do
    let s ← M.get
    if count < cfg.maxJobs ∧ s.spawning = true then
      match ← setupNewOptimizer (cfg.maxJobs - count) with
      | some (i, w) =>
        startNewJob i w
        fillLoop cfg n (count + w) true
      | none => pure startedNew
    else pure startedNew

/-- `_fill_optimizer_slots` (manager.py:1224-1260). -/
def fillSlots (cfg : Cfg) (fuel : Nat) : M Unit := do
  askUnit
  let s ← M.get
  let count := s.livingSlots.sum
  if s.lastSpawn.1 = s.fCounter ∧ s.oCounter > s.lastSpawn.2 + 5 ∧ s.crashed = true then throw .crashLoop
  else
    let startedNew ← fillLoop cfg fuel count false
    askUnit
    let s ← M.get
    if startedNew = true then
      modify fun s => { s with
        lastSpawn := if s.lastSpawn.1 ≠ s.fCounter then (s.fCounter, s.oCounter) else s.lastSpawn }
    else if s.livingSlots.length = 0 then throw .notEnoughSlots
    else pure ()

/-- An optimizer's own end signal (manager.py:1369-1372, 1833-1836). -/
def finish (i : Nat) (msg : String) : M Unit := do
  emit (.said i msg)
  putEnd i msg
  modify fun s => { s with
    graveyard := addTo s.graveyard i, convCounter := s.convCounter + 1, ev := s.ev ++ [.finished i] }

/-- `_check_signals` (manager.py:1356-1386). -/
def checkSignals (i : Nat) : M Bool := do
  let s ← M.get
  if i ∈ s.graveyard then pure false
  else
    match ← askSig with
    | none => pure false
    | some .eof => pure false
    | some (.done msg) =>
      finish i msg
      draw
      pure true
    | some (.note msg tb) =>
      logOp (.putMsg i msg)
      modify fun s => { s with crashed := tb || s.crashed, ev := s.ev ++ [.crashReport i tb] }
      draw
      pure true
    | some .paused => pure true
    | some .unknown => pure true

/-- The ending recorded for an optimizer shut down (manager.py:1610-1613). -/
def killText (hunter : Option Nat) (reason : String) : String :=
  "GloMPO Termination\nHunter: " ++ (match hunter with | some h => toString h | none => "None") ++ "\nReason: \n" ++ reason

/-- `_shutdown_job` (manager.py:1597-1616). Simplified: a fixed text for the reason of a hunt. -/
def shutdownJob (i : Nat) (hunter : Option Nat) (reason : String) : M Unit := do
  modify fun s => { s with
    victims := addTo s.victims i, graveyard := addTo s.graveyard i, ev := s.ev ++ [.killed i hunter] }
  askUnit
  emit (.stop i)
  putEnd i (killText hunter reason)
  draw

/-- `_start_hunt` (manager.py:1525-1553); answers the ids shut down. -/
def huntLoop (hunter : Nat) : List Nat → List Nat → M (List Nat)
  | [], vs => pure vs
  | v :: t, vs => do
    let s ← M.get
    if v ∉ s.graveyard ∧ s.log.hasIterHistory v = true ∧ v ≠ hunter then
      let kill ← askBool
      let s ← M.get
      if kill = true ∧ v ∉ s.graveyard then
        shutdownJob v (some hunter) "hunt"
        huntLoop hunter t (vs ++ [v])
      else huntLoop hunter t vs
    else huntLoop hunter t vs

/-- Belongs to the model of `manager.py:1509-1510`, `manager.py:1297-1354`, `manager.py:1525-1553`. -/
def startHunt (hunter : Nat) : M (List Nat) := do
  modify fun s => { s with huntCounter := s.huntCounter + 1, lastHunt := s.fCounter, ev := s.ev ++ [.hunt hunter] }
  let s ← M.get
  huntLoop hunter (s.packs.map (·.1)) []

/-- Lines 1624-1626: the incumbent is sent to the living optimizers but its finder. -/
def shareLoop (b : BestIter) : List Nat → M Unit
  | [] => pure ()
  | i :: t => do
    if i ≠ b.optId then
      let al ← isAlive i
      if al = true then
        emit (.share i b.x b.fx)
        shareLoop b t
      else shareLoop b t
    else shareLoop b t

/-- The condition in line 1623 about the previous result. -/
def shouldShare (old : Option PyF) (new : PyF) : Bool :=
  match old with
  | none => true
  | some f => !f.truthy || PyF.lt new f

/-- `_update_best_result` (manager.py:1618-1637) and the assignment of its answer (line 1514). -/
def updateBestResult (cfg : Cfg) : M Unit := do
  let s ← M.get
  let b := s.log.best
  if cfg.sharing = true ∧ shouldShare s.result.fx b.fx = true then shareLoop b (s.packs.map (·.1)) else pure ()
  modify fun s => { s with
    result :=
      { x := some b.x, fx := some b.fx, origin := some (b.optId, b.type), fEvals := s.fCounter
        optsStarted := s.oCounter, optsKilled := s.victims.length, optsConv := s.convCounter }
    ev := s.ev ++ [.updated b.x b.fx b.optId] }

/-- Lines 1493-1501: the names of the extra columns, asked for at the first evaluation; they come from the task or are
inferred. -/
def extraNames (r : IterRes) : M (List String) := do
  let s ← M.get
  if s.log.hasIterHistory r.optId = false ∧ r.extras ≠ [] then
    let names ← askNames
    emit (.named r.optId names)
    pure names
  else pure []

/-- Lines 1501-1506: the history of the optimizer is opened at its first evaluation, then the evaluation is counted and
logged. A `KeyError` leaves what was done before it. -/
def record (r : IterRes) (names : List String) : M Unit := fun s e =>
  let o := if s.log.hasIterHistory r.optId then (s.log, none, []) else
    let a := s.log.step (.addHist r.optId names)
    (a.1, a.2, [Logger.Op.addHist r.optId names])
  match o with
  | (_, some _, _) => (.raised .keyError, s, e)
  | (l, none, new) =>
    match l.step (.put r) with
    | (l', none) =>
      (.ok (), { s with fCounter := s.fCounter + 1, log := l', ops := s.ops ++ new ++ [.put r],
                        ev := s.ev ++ [.accepted r] }, e)
    | (l', some _) => (.raised .keyError, { s with fCounter := s.fCounter + 1, log := l' }, e)

/-- Lines 1512-1521. -/
def huntIfDue (cfg : Cfg) : M (List Nat) := do
  updateBestResult cfg
  let s ← M.get
  match s.result.origin with
  | some (best, _) =>
    if best > 0 ∧ cfg.hunting = true ∧ (s.fCounter : Int) - s.lastHunt ≥ cfg.huntFrequency then startHunt best
    else pure []
  | none => pure []

/-- What `_process_results` keeps while it runs: number accepted, optimizers closed, optimizers killed. Belongs to the model of `manager.py:1480-1521`. -/
structure Tally where
  accepted : Nat
  closed : List Nat
  victims : List Nat
  deriving DecidableEq, Repr

/-- The loop over a chunk (manager.py:1480-1521). -/
def chunkLoop (cfg : Cfg) : List Msg → Tally → M Tally
  | [], t => pure t
  | m :: ms, t => do
    emit (.received m)
    match m with
    | .fin i =>
      let s ← M.get
      match s.result.origin with
      | some (best, _) =>
        if best ≠ i then
          logOp (.clear (some i))
          emit (.released i)
          chunkLoop cfg ms { t with closed := t.closed ++ [i] }
        else chunkLoop cfg ms t
      | none => chunkLoop cfg ms t
    | .res r =>
      let s ← M.get
      if r.optId ∈ s.victims then
        emit (.ignored r)
        chunkLoop cfg ms t
      else
        let names ← extraNames r
        record r names
        draw
        let vs ← huntIfDue cfg
        chunkLoop cfg ms { t with accepted := t.accepted + 1, victims := t.victims ++ vs }

/-- The loop of `_process_results` (manager.py:1466-1523). With a maximum it goes on until so many were accepted or the
queue gave nothing for a second; without, until the queue is empty. -/
def resultsLoop (cfg : Cfg) (maxResults : Option Nat) : Nat → Tally → M Tally
  | 0, _ => pend
  | n + 1, t => do
    let more ← match maxResults with
      | some k => pure (decide (t.accepted < k))
      | none => do
        let empty ← askBool
        pure (!empty)
    if more = true then
      match ← askChunk with
      | none => pure t
      | some c =>
        emit (.took c.length)
        let t' ← chunkLoop cfg c t
        resultsLoop cfg maxResults n t'
    else pure t

/-- `_process_results` (manager.py:1448-1523); a maximum of 0 means none (line 1466). -/
def processResults (cfg : Cfg) (fuel : Nat) (maxResults : Option Nat) : M Tally :=
  resultsLoop cfg (if maxResults = some 0 then none else maxResults) fuel ⟨0, [], []⟩

/-- One STOP file (manager.py:1561-1574); `none` is a file name which does not parse. `ValueError` is swallowed. -/
def stopFile (f : Option Nat) : M Unit :=
  match f with
  | none => pure ()
  | some i => do
    let s ← M.get
    if (dictGet s.packs i).isNone ∨ i ∈ s.graveyard then pure ()
    else
      tryCatch (do askUnit; shutdownJob i none "User STOP file intervention.") fun x =>
        if x = .env .valueError then some (pure ()) else none

/-- `_is_manual_shutdowns` (manager.py:1555-1574). -/
def manualShutdowns : M Unit := do
  let fs ← askFiles
  forEach fs stopFile

/-! ### Checkpoints -/

/-- What the hand-shake keeps: optimizers not to save, still to reply, and living. Belongs to the model of `manager.py:1826-1848`. -/
structure Shake where
  skip : List Nat
  wait : List Nat
  living : List Nat
  deriving DecidableEq, Repr

/-- Lines 1803-1807: every living optimizer is asked to pause. -/
def pauseLoop : List Nat → List Nat → M (List Nat)
  | [], acc => pure acc
  | i :: t, acc => do
    let al ← isAlive i
    if al = true then
      emit (.pauseReq i)
      pauseLoop t (acc ++ [i])
    else pauseLoop t acc

/-- One pass over the optimizers which have not replied (manager.py:1826-1848). -/
def replyLoop : List Nat → Shake → M Shake
  | [], h => pure h
  | i :: t, h => do
    let al ← isAlive i
    if al = true then
      match ← askSig with
      | none => replyLoop t h
      | some (.done msg) =>
        finish i msg
        replyLoop t { h with skip := h.skip ++ [i] }
      | some .paused =>
        draw
        replyLoop t { h with wait := h.wait.filter fun j => decide (j ≠ i) }
      | some .eof => throw .eofError
      | some (.note _ _) => throw .unhandledMessage
      | some .unknown => throw .unhandledMessage
    else
      replyLoop t { skip := h.skip ++ [i], wait := h.wait.filter fun j => decide (j ≠ i),
                    living := h.living.filter fun j => decide (j ≠ i) }

/-- The loop waiting for replies (manager.py:1814-1848). -/
def waitLoop (cfg : Cfg) (fuel nAlive : Nat) : Nat → Shake → M Shake
  | 0, _ => pend
  | n + 1, h => do
    if h.wait = [] then pure h
    else
      let full ← askBool
      let h' ← if full = true then do
          let t ← processResults cfg fuel (some nAlive)
          pure { h with skip := h.skip ++ t.closed ++ t.victims }
        else pure h
      let h'' ← replyLoop h'.wait h'
      waitLoop cfg fuel nAlive n h''

/-- Lines 1861-1870: save or pass on. -/
def saveLoop (skip : List Nat) : List Nat → M Unit
  | [] => pure ()
  | i :: t => do
    let al ← isAlive i
    if al = true then
      if i ∉ skip then
        draw
        emit (.save i)
        saveLoop skip t
      else
        emit (.pass i)
        saveLoop skip t
    else saveLoop skip t

/-- Lines 1873-1877: until the living optimizers have cleared their event. -/
def clearedLoop : Nat → List Nat → M Unit
  | _, [] => pure ()
  | 0, _ => pend
  | n + 1, i :: t => do
    let cleared ← askBool
    if cleared = true then clearedLoop n t else clearedLoop n (t ++ [i])

/-- Lines 1880-1883: every restart file exists. -/
def filesLoop : List Nat → M Unit
  | [] => pure ()
  | _ :: t => do
    let there ← askBool
    if there = true then filesLoop t else throw .ckpt

/-- `_checkpoint_optimizers` (manager.py:1799-1884); answers the ids of the restart files. -/
def checkpointOptimizers (cfg : Cfg) (fuel : Nat) : M (List Nat) := do
  let s ← M.get
  let messaged ← pauseLoop (s.packs.map (·.1)) []
  let h ← waitLoop cfg fuel messaged.length fuel ⟨[], messaged, messaged⟩
  let t ← processResults cfg fuel none
  let skip := h.skip ++ t.closed ++ t.victims
  let empty ← askBool
  if empty = false then throw .queueNotEmpty
  else
    askUnit
    saveLoop skip messaged
    clearedLoop fuel h.living
    filesLoop (messaged.filter fun i => decide (i ∉ skip))
    pure (messaged.filter fun i => decide (i ∉ skip))

/-- Lines 1197-1199 and `_toggle_optimizers(1)` (1948-1951). -/
def resumeLoop : List Nat → M Unit
  | [] => pure ()
  | i :: t => do
    let al ← isAlive i
    if al = true then
      emit (.resume i)
      resumeLoop t
    else resumeLoop t

/-- Line 1198 (and 1645): stop signals to all living optimizers. -/
def stopLoop : List Nat → M Unit
  | [] => pure ()
  | i :: t => do
    let al ← isAlive i
    if al = true then
      emit (.stop i)
      stopLoop t
    else stopLoop t

/-- What is written: the log as of `s1` (line 1133), everything else as of `s2` (line 1145). -/
def snapshot (s1 s2 : State) (files : List Nat) : Saved :=
  { spawning := s2.spawning, oCounter := s2.oCounter, fCounter := s2.fCounter, convCounter := s2.convCounter
    huntCounter := s2.huntCounter, lastHunt := s2.lastHunt, graveyard := s2.graveyard, victims := s2.victims
    result := s2.result, slotsOf := s2.slotsOf, log := s1.log, files := files, ops := s1.ops, ev := s2.ev
    first := s2.first }

/-- `checkpoint` (manager.py:1098-1200) as seen from the manager; the files are the subject of `Model/Checkpoint`. The
answer `false` stands for the `CheckpointingError`s of lines 1142-1170; plug-ins are taken not to raise that class. The
contents of the checkpoint are fixed when the optimizers have been saved; it is counted as written from then on, so that
what is proved of written checkpoints holds also of one which was compressed before a later step failed. -/
def checkpoint (cfg : Cfg) (fuel : Nat) : M Unit := do
  emit .ckptBegin
  askUnit
  tryCatch (do
      askUnit
      let s1 ← M.get
      let files ← checkpointOptimizers cfg fuel
      modify fun s2 => { s2 with saved := s2.saved ++ [snapshot s1 s2 files] }
      draw
      let built ← askBool
      if built = true then pure () else throw .ckpt) fun x =>
    if x = .ckpt ∧ cfg.raiseCkptFail = false then some (pure ()) else none
  let s ← M.get
  if s.converged = true then stopLoop (s.packs.map (·.1)) else pure ()
  resumeLoop (s.packs.map (·.1))
  emit .ckptEnd

/-- `_is_manual_checkpoints` (manager.py:1576-1595). -/
def manualCheckpoints (cfg : Cfg) (fuel : Nat) : M Unit := do
  let there ← askBool
  if there = true then checkpoint cfg fuel else pure ()

/-! ### Children -/

/-- First part of the loop body of `_inspect_children` (manager.py:1396-1417). -/
def inspectDead (i : Nat) : M Unit := do
  let s ← M.get
  if i ∉ s.graveyard then
    let al ← isAlive i
    if al = false then
      let exit0 ← askBool
      emit (.exited i exit0)
      if exit0 = true then
        let found ← checkSignals i
        if found = false then
          modify fun s => { s with
            convCounter := s.convCounter + 1, graveyard := addTo s.graveyard i, ev := s.ev ++ [.finished i] }
          logOp (.putMsg i "Terminated normally without sending a minimization complete signal to the manager.")
          putEnd i "Normal termination (Reason unknown)"
        else pure ()
      else
        modify fun s => { s with graveyard := addTo s.graveyard i, ev := s.ev ++ [.failed i] }
        logOp (.putMsg i "Terminated in error")
        putEnd i "Error termination"
    else pure ()
  else pure ()

/-- Second part (manager.py:1420-1431). -/
def inspectHanging (cfg : Cfg) (i : Nat) : M Unit := do
  let al ← isAlive i
  let late ← askBool
  emit (.overdue i late)
  let s ← M.get
  if al = true ∧ late = true ∧ cfg.forced = true ∧ i ∉ s.victims ∧ cfg.procs = true then
    modify fun s => { s with graveyard := addTo s.graveyard i, ev := s.ev ++ [.forced i] }
    logOp (.putMsg i "Force terminated due to no feedback timeout.")
    putEnd i "Forced GloMPO Termination"
    askUnit
    emit (.stop i)
  else pure ()

/-- Third part (manager.py:1434-1446). -/
def inspectZombie (cfg : Cfg) (i : Nat) : M Unit := do
  let s ← M.get
  if i ∈ s.victims ∧ cfg.forced = true then
    let al ← isAlive i
    let late ← askBool
    emit (.overdue i late)
    if al = true ∧ late = true ∧ cfg.procs = true then
      askUnit
      emit (.stop i)
      logOp (.putMsg i "Force terminated due to no feedback after kill signal timeout.")
      putEnd i "Forced GloMPO Termination"
    else pure ()
  else pure ()

/-- `_inspect_children` (manager.py:1388-1446). -/
def inspectChildren (cfg : Cfg) : M Unit := do
  let s ← M.get
  forEach (s.packs.map (·.1)) fun i => do
    inspectDead i
    inspectHanging cfg i
    inspectZombie cfg i

/-- Lines 1015-1017: forget optimizers which are gone. -/
def purge : M Unit := do
  let s ← M.get
  forEach (s.packs.map (·.1)) fun i => do
    let al ← isAlive i
    let s ← M.get
    if al = false ∧ i ∈ s.graveyard then modify fun s => { s with packs := dictDel s.packs i } else pure ()

/-- One pass of the main loop (manager.py:993-1039). Lines 1030-1031 are one observation. -/
def iteration (cfg : Cfg) (fuel : Nat) : M Unit := do
  fillSlots cfg fuel
  let s ← M.get
  forEach (s.packs.map (·.1)) fun i => do
    let _ ← checkSignals i
  let _ ← processResults cfg fuel (some 10)
  manualShutdowns
  manualCheckpoints cfg fuel
  inspectChildren cfg
  purge
  askUnit
  let s ← M.get
  let allDead := decide (s.livingSlots.length = 0)
  let checker ← askBool
  modify fun s => { s with
    converged := checker || (allDead && !s.spawning), ev := s.ev ++ [.checked checker] }
  askUnit
  if cfg.checkpointing = true then
    let due ← askBool
    if due = true then checkpoint cfg fuel else pure ()
  else pure ()

/-- The main loop (manager.py:993-1043). -/
def mainLoop (cfg : Cfg) (fuel : Nat) : Nat → M Unit
  | 0 => pend
  | n + 1 => do
    let s ← M.get
    if s.converged = true then emit .loopEnd
    else
      iteration cfg fuel
      mainLoop cfg fuel n

/-- Last part of `_stop_all_children` (manager.py:1657-1676). -/
def stopRecord (why : String) (i : Nat) : M Unit := do
  let s ← M.get
  match s.log.getMetadata i "end_cond", s.log.getMetadata i "t_stop" with
  | .ok _, .ok _ => pure ()
  | _, _ =>
    modify fun s => { s with graveyard := addTo s.graveyard i }
    putEnd i why
  let al ← isAlive i
  if al = true then askUnit else pure ()

/-- `except Exception`: everything but Ctrl-C. Belongs to the model of `manager.py:1639-1676`. -/
def Exc.isException : Exc → Bool
  | .env .keyboardInterrupt => false
  | _ => true

/-- `_stop_all_children` (manager.py:1639-1676). The observation between is the purge of the queue. -/
def stopAllChildren (why : String) : M Unit := do
  let s ← M.get
  tryCatch (stopLoop (s.packs.map (·.1))) fun x => if x.isException = true then some (pure ()) else none
  tryCatch askUnit fun x => if x.isException = true then some (pure ()) else none
  forEach (s.packs.map (·.1)) (stopRecord why)

/-- What `start_manager` ends with: the text of the end condition; `escaped`: it does not return, Ctrl-C is passed on to the
caller. Belongs to the model of `manager.py:979-1071`. -/
inductive Reason where
  | notStarted
  | escaped
  | metBefore
  | regular
  | userInterrupt
  | crash (x : Exc)
  deriving DecidableEq, Repr

/-- Lines 987-991: the optimizers loaded from a checkpoint are started. -/
def restartLoop : List (Nat × Int) → M Unit
  | [] => pure ()
  | (i, w) :: t => do
    askUnit
    modify fun s => { s with startedP := i :: s.startedP, ev := s.ev ++ [.restarted i w] }
    restartLoop t

/-- The `try` block of `start_manager` (manager.py:979-1049). -/
def tryBlock (cfg : Cfg) (fuel : Nat) : M Unit := do
  askUnit
  let s ← M.get
  if s.restart = true then restartLoop s.packs else pure ()
  mainLoop cfg fuel fuel
  if cfg.checkpointing = true ∧ cfg.checkpointAtConv = true then checkpoint cfg fuel else pure ()
  stopAllChildren "GloMPO Convergence"

/-- The `try` statement of `start_manager` (manager.py:979-1071) with its handlers. -/
def afterCheck (cfg : Cfg) (fuel : Nat) (s1 : State) (e1 : Env) : Option Reason × State × Env :=
  match tryBlock cfg fuel s1 e1 with
  | (.ok _, s2, e2) => (some .regular, s2, e2)
  | (.pending, s2, e2) => (none, s2, e2)
  | (.raised x, s2, e2) =>
    if x.isException = true then
      match stopAllChildren "GloMPO Crash" s2 e2 with
      | (.pending, s3, e3) => (none, s3, e3)
      | (_, s3, e3) => (some (.crash x), s3, e3)
    else
      match stopAllChildren "User Interrupt" s2 e2 with
      | (.pending, s3, e3) => (none, s3, e3)
      | (_, s3, e3) => (some .userInterrupt, s3, e3)

/-- `start_manager` of a manager set up or loaded (manager.py:895-1096), from the check before the start on. `return` in
`finally` (line 1096) swallows whatever the handlers raise. What precedes and follows the `try` statement (files) is
left out. The check before the start (lines 907-920) is one observation, an exception of it counts as `False`, but Ctrl-C is
not caught there. -/
def startManager (cfg : Cfg) (fuel : Nat) (s : State) (e : Env) : Option Reason × State × Env :=
  match askBool s e with
  | (.pending, s1, e1) => (none, s1, e1)
  | (.raised x, s0, e1) =>
    if x.isException = true then afterCheck cfg fuel { s0 with converged := false } e1 else (some .escaped, s0, e1)
  | (.ok b, s0, e1) =>
    if b || (s0.packs.isEmpty && !s0.spawning) then
      (some .metBefore, { s0 with converged := true, ev := s0.ev ++ [.checked b] }, e1)
    else afterCheck cfg fuel { s0 with converged := false, ev := s0.ev ++ [.checked b] } e1

/-! ### Continuing from a checkpoint -/

/-- The manager built from checkpoint `k` with settings `cfg` and optimizers `packs` (manager.py:708-720, 794-823, 892):
the attributes of the file, but `opt_crashed`, `last_opt_spawn` and `converged` (which the check before the start sets
anew) start afresh. Processes which belonged to the manager of the checkpoint are no concern of this one. -/
def resumeState (cfg : Cfg) (k : Saved) (packs : List (Nat × Int)) (saved : List Saved) : State :=
  { spawning := k.spawning, oCounter := k.oCounter, fCounter := k.fCounter, convCounter := k.convCounter
    huntCounter := k.huntCounter, lastHunt := k.lastHunt, lastSpawn := (0, 0), crashed := false, converged := false
    packs := packs, graveyard := k.graveyard, victims := k.victims, result := k.result, log := k.log
    visual := cfg.visual, startedP := [], dead := [], slotsOf := k.slotsOf, saved := saved, restart := true, first := k.first
    ev := k.ev ++ [.resumed cfg k.log.fCounter], ops := k.ops }

/-- `load_checkpoint` (manager.py:824-893), when the task and the log could be loaded (see `Model/Setup`); `found`: the
restart files in the order in which the directory lists them, with whether the optimizer could be rebuilt. -/
def loadCheckpoint (cfg : Cfg) (k : Saved) (found : List (Nat × Bool)) (saved : List Saved) : Except Err State :=
  match Init.demand k.slotsOf found with
  | .error e => .error e
  | .ok want =>
    match Init.apportion cfg.maxJobs want with
    | .error e => .error e
    | .ok slots =>
      if (Init.rebuild found slots).length = 0 ∧ 0 < slots.length then .error .checkpointingError
      else .ok (resumeState cfg k (Init.rebuild found slots) saved)

/-- `Startable cfg s`: a user may call `start_manager` of a manager with settings `cfg` in state `s`. It was set up afresh
(writing a checkpoint at once, if so asked, manager.py:620-621), or loaded from a checkpoint which was written by the time
some moment of the run of such a manager, or of its setup, was reached. -/
inductive Startable : Cfg → State → Prop where
  | fresh (cfg : Cfg) : Startable cfg (init cfg)
  | setup (cfg : Cfg) (fuel : Nat) (e e' : Env) (s : State) :
      checkpoint cfg fuel (init cfg) e = (.ok (), s, e') → Startable cfg s
  | loaded (cfg₀ cfg : Cfg) (s₀ s : State) (fuel : Nat) (e : Env) (k : Saved) (found : List (Nat × Bool)) :
      Startable cfg₀ s₀ → k ∈ (startManager cfg₀ fuel s₀ e).2.1.saved → (found.map (·.1)).Perm k.files →
      loadCheckpoint cfg k found (startManager cfg₀ fuel s₀ e).2.1.saved = .ok s → Startable cfg s
  | loadedSetup (cfg₀ cfg : Cfg) (s : State) (fuel : Nat) (e : Env) (k : Saved) (found : List (Nat × Bool)) :
      k ∈ (checkpoint cfg₀ fuel (init cfg₀) e).2.1.saved → (found.map (·.1)).Perm k.files →
      loadCheckpoint cfg k found (checkpoint cfg₀ fuel (init cfg₀) e).2.1.saved = .ok s → Startable cfg s

end Glompo.Manager

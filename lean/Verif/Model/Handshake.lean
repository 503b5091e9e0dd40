import Verif.Model.Basic

/-!
# The checkpoint hand-shake between manager and optimizers

`_checkpoint_optimizers` (`glompo/core/manager.py:1799-1884`), the end of `checkpoint` (1195-1199), `_toggle_optimizers` (1938-1951) on the
one side, `check_messages` and `_prepare_checkpoint` (`glompo/optimizers/baseoptimizer.py:303-333, 409-428`) on the other, running
concurrently: any number of optimizers, each with its two pipes and its `allow_run_event`, and the common results queue. A run is any
interleaving of the actions below; processes may die at any moment.

Simplifications: a look at a process (`is_alive`) and what is done on the strength of it are one action (in between only death may
happen, which is caught by the next look, except that `send` to a dead process may raise). The order in which sets are traversed is
arbitrary. The results queue is unbounded. Between checkpoints the manager takes results and messages, kills, shares, and starts
optimizers in any order.
-/

namespace Glompo.Handshake

open Glompo

/-- Signals to optimizers (baseoptimizer.py:268-272). -/
inductive Sig where
  | pause | stop | save | pass | inject
  deriving DecidableEq, Repr

/-- Signals to the manager: keys 1, 0 and 9. Belongs to the model of `baseoptimizer.py:317-331`. -/
inductive Reply where
  | paused | done | note
  deriving DecidableEq, Repr

/-- Where an optimizer is: in its own code, waiting for an instruction in `_prepare_checkpoint` (420-424), past that loop, waiting for
the event (427), after its end signal, and after its end marker. Belongs to the model of `baseoptimizer.py:317-331`. -/
inductive Phase where
  | working | waiting | ready | paused | ended | gone
  deriving DecidableEq, Repr

/-- An optimizer with the pipes to and from it and its event. `file`: its restart file for the current checkpoint exists; `made`:
evaluations so far. Belongs to the model of `baseoptimizer.py:317-331`. -/
structure Opt where
  alive : Bool := true
  phase : Phase := .working
  inbox : List Sig := []
  outbox : List Reply := []
  event : Bool := true
  stopped : Bool := false
  file : Bool := false
  made : Nat := 0
  deriving DecidableEq, Repr, Inhabited

/-- An entry of the results queue: an evaluation, or the end marker of an optimizer. Belongs to the model of `manager.py:1826-1848`. -/
inductive Item where
  | eval (i : Nat)
  | fin (i : Nat)
  deriving DecidableEq, Repr

/-- Sets of the hand-shake (manager.py:1803-1813): asked, not to be saved, not found dead. -/
structure Sets where
  messaged : List Nat
  skip : List Nat
  living : List Nat
  deriving DecidableEq, Repr

/-- Where the manager is. Belongs to the model of `manager.py:1480-1503`. -/
inductive Pc where
  | idle
  | pausing (todo messaged : List Nat)        -- 1803-1807
  | waiting (wait : List Nat) (h : Sets)      -- 1814-1848
  | draining (h : Sets)                       -- 1852-1854
  | asserting (h : Sets)                      -- 1857
  | telling (todo : List Nat) (h : Sets)      -- 1860-1870
  | clearing (wait : List Nat) (h : Sets)     -- 1873-1877
  | filing (h : Sets)                         -- 1880-1883
  | snapshot (h : Sets)                       -- 1142-1170
  | releasing (todo : List Nat)               -- 1199
  | crashed
  deriving DecidableEq, Repr

/-- Everything. `packs` is `_optimizer_packs`; `logged`: evaluations of each optimizer taken from the queue. Belongs to the model of `manager.py:1826-1848`. -/
structure Sys where
  packs : List Nat := []
  opts : Nat → Opt := fun _ => {}
  queue : List Item := []
  logged : Nat → Nat := fun _ => 0
  pc : Pc := .idle

/-- Replace one entry. Belongs to the model of `manager.py:1826-1848`. -/
def upd {α : Type} (f : Nat → α) (i : Nat) (a : α) : Nat → α := fun j => if j = i then a else f j

/-- Actions of an optimizer. `read w`: it takes the next message; if that is `save`, `w` tells whether a file is written. Belongs to the model of `baseoptimizer.py:317-331`. -/
inductive OAct where
  | work | read (writes : Bool) | breakSave | clear | wake | finish | crash | mark | die
  deriving DecidableEq, Repr

/-- One message (baseoptimizer.py:317-331, 409-424): `pause` enters `_prepare_checkpoint`; `save` and `pass` end its loop. -/
def handle (o : Opt) (writes : Bool) : Sig → Opt
  | .pause => { o with outbox := o.outbox ++ [.paused], phase := .waiting }
  | .stop => { o with stopped := true }
  | .inject => o
  | .save => { o with file := writes, phase := if o.phase = .waiting then .ready else o.phase }
  | .pass => { o with phase := if o.phase = .waiting then .ready else o.phase }

/-- Phases in which messages are read. Belongs to the model of `baseoptimizer.py:317-331`. -/
def Phase.reads : Phase → Bool
  | .working | .waiting | .ready => true
  | _ => false

/-- What an optimizer does, with what it puts in the queue. Belongs to the model of `baseoptimizer.py:317-331`, `manager.py:1826-1848`. -/
def ostep (i : Nat) (a : OAct) (o : Opt) : Option (Opt × List Item) :=
  match o.alive, a with
  | false, _ => none
  | true, .work => if o.phase = .working then some ({ o with made := o.made + 1 }, [.eval i]) else none
  | true, .read w =>
    match o.phase.reads, o.inbox with
    | true, s :: r => some (handle { o with inbox := r } w s, [])
    | _, _ => none
  | true, .breakSave =>       -- `checkpoint_save` raises (baseoptimizer.py:458-462)
    match o.phase.reads, o.inbox with
    | true, .save :: r => some ({ o with inbox := r, outbox := o.outbox ++ [.note], phase := .ended }, [])
    | _, _ => none
  | true, .clear => if o.phase = .ready ∧ o.inbox = [] then some ({ o with phase := .paused, event := false }, []) else none
  | true, .wake => if o.phase = .paused ∧ o.event = true then some ({ o with phase := .working }, []) else none
  | true, .finish => if o.phase = .working then some ({ o with outbox := o.outbox ++ [.done], phase := .ended }, []) else none
  | true, .crash => if o.phase = .working then some ({ o with outbox := o.outbox ++ [.note], phase := .ended }, []) else none
  | true, .mark => if o.phase = .ended then some ({ o with phase := .gone }, [.fin i]) else none
  | true, .die => some ({ o with alive := false }, [])

/-- Actions of the manager. Belongs to the model of `manager.py:1826-1848`. -/
inductive MAct where
  | start (i : Nat) | begin_ | ask | asked | hear (i : Nat) | take | kill (i : Nat) | share (i : Nat) | synced | drained | assert
  | tell | told | cleared (i : Nat) | allCleared | files | saved | release | released
  deriving DecidableEq, Repr

/-- A message into the pipe of `i`. Belongs to the model of `baseoptimizer.py:268-272`, `manager.py:1826-1848`. -/
def send (σ : Sys) (i : Nat) (s : Sig) : Sys :=
  { σ with opts := upd σ.opts i { σ.opts i with inbox := (σ.opts i).inbox ++ [s] } }

/-- A look into the pipe from `i` (manager.py:1826-1848). -/
def hear (σ : Sys) (i : Nat) (wait : List Nat) (h : Sets) : Option Sys :=
  if (σ.opts i).alive then
    match (σ.opts i).outbox with
    | [] => none
    | .done :: r => some { σ with opts := upd σ.opts i { σ.opts i with outbox := r }, pc := .waiting wait { h with skip := h.skip ++ [i] } }
    | .paused :: r => some { σ with
        opts := upd σ.opts i { σ.opts i with outbox := r }, pc := .waiting (wait.filter (fun j => decide (j ≠ i))) h }
    | .note :: _ => some { σ with pc := .crashed }
  else some { σ with
      pc := .waiting (wait.filter (fun j => decide (j ≠ i)))
        { h with skip := h.skip ++ [i], living := h.living.filter (fun j => decide (j ≠ i)) } }

/-- A look into the pipe from `i` outside checkpoints (manager.py:1356-1383). -/
def listen (σ : Sys) (i : Nat) : Option Sys :=
  match (σ.opts i).outbox with
  | [] => none
  | _ :: r => some { σ with opts := upd σ.opts i { σ.opts i with outbox := r } }

/-- One entry of the queue is processed (manager.py:1480-1503); `pc` knows the end marker of whom, if any, was found. -/
def takeItem (σ : Sys) (pc : List Nat → Pc) : Option Sys :=
  match σ.queue with
  | [] => none
  | .eval i :: q => some { σ with queue := q, logged := upd σ.logged i (σ.logged i + 1), pc := pc [] }
  | .fin i :: q => some { σ with queue := q, pc := pc [i] }

/-- One action of the manager. Belongs to the model of `manager.py:1826-1848`, `baseoptimizer.py:268-272`, `manager.py:1356-1383`, `manager.py:1480-1503`. -/
def mstep (a : MAct) (σ : Sys) : Option Sys :=
  match a, σ.pc with
  | .start i, .idle => if i ∈ σ.packs then none else some { σ with
      packs := σ.packs ++ [i], opts := upd σ.opts i {}, queue := σ.queue, logged := upd σ.logged i 0 }
  | .take, .idle => takeItem σ fun _ => .idle
  | .hear i, .idle => listen σ i
  | .kill i, .idle => some (send σ i .stop)
  | .share i, .idle => some (send σ i .inject)
  | .begin_, .idle => some { σ with opts := fun j => { σ.opts j with file := false }, pc := .pausing σ.packs [] }
  | .ask, .pausing (i :: t) m =>
    if (σ.opts i).alive then some { send σ i .pause with pc := .pausing t (m ++ [i]) } else some { σ with pc := .pausing t m }
  | .asked, .pausing [] m => some { σ with pc := .waiting m ⟨m, [], m⟩ }
  | .hear i, .waiting w h => if i ∈ w then hear σ i w h else none
  | .take, .waiting w h => takeItem σ fun l => .waiting w { h with skip := h.skip ++ l }
  | .kill i, .waiting w h => some { send σ i .stop with pc := .waiting w { h with skip := h.skip ++ [i] } }
  | .share i, .waiting w h => some { send σ i .inject with pc := .waiting w h }
  | .synced, .waiting [] h => some { σ with pc := .draining h }
  | .take, .draining h => takeItem σ fun l => .draining { h with skip := h.skip ++ l }
  | .kill i, .draining h => some { send σ i .stop with pc := .draining { h with skip := h.skip ++ [i] } }
  | .share i, .draining h => some { send σ i .inject with pc := .draining h }
  | .drained, .draining h => if σ.queue = [] then some { σ with pc := .asserting h } else none
  | .assert, .asserting h => some { σ with pc := if σ.queue = [] then .telling h.messaged h else .crashed }
  | .tell, .telling (i :: t) h =>
    if (σ.opts i).alive then some { send σ i (if i ∈ h.skip then .pass else .save) with pc := .telling t h }
    else some { σ with pc := .telling t h }
  | .told, .telling [] h => some { σ with pc := .clearing h.living h }
  | .cleared i, .clearing w h =>
    if i ∈ w ∧ (σ.opts i).event = false then some { σ with pc := .clearing (w.filter (fun j => decide (j ≠ i))) h } else none
  | .allCleared, .clearing [] h => some { σ with pc := .filing h }
  | .files, .filing h =>
    if ∀ i ∈ h.messaged, i ∉ h.skip → (σ.opts i).file = true then some { σ with pc := .snapshot h }
    else some { σ with pc := .releasing σ.packs }
  | .saved, .snapshot _ => some { σ with pc := .releasing σ.packs }
  | .kill i, .releasing t => some { send σ i .stop with pc := .releasing t }   -- 1196-1198, if converged
  | .release, .releasing (i :: t) =>
    if (σ.opts i).alive then some { σ with opts := upd σ.opts i { σ.opts i with event := true }, pc := .releasing t }
    else some { σ with pc := .releasing t }
  | .released, .releasing [] => some { σ with pc := .idle }
  | .kill i, .crashed => some (send σ i .stop)           -- 1030-1063, 1640-1647
  | _, _ => none

/-- An action of somebody. Belongs to the model of `baseoptimizer.py:317-331`, `manager.py:1826-1848`. -/
inductive Act where
  | mgr (a : MAct)
  | opt (i : Nat) (a : OAct)
  deriving DecidableEq, Repr

/-- One action; `none` if it is not possible. Belongs to the model of `manager.py:1826-1848`, `baseoptimizer.py:317-331`. -/
def step (σ : Sys) : Act → Option Sys
  | .mgr a => mstep a σ
  | .opt i a =>
    if i ∈ σ.packs then
      match ostep i a (σ.opts i) with
      | none => none
      | some (o, items) => some { σ with opts := upd σ.opts i o, queue := σ.queue ++ items }
    else none

/-- A run. Belongs to the model of `manager.py:1826-1848`, `baseoptimizer.py:317-331`. -/
def run (σ : Sys) : List Act → Option Sys
  | [] => some σ
  | a :: as =>
    match step σ a with
    | none => none
    | some σ' => run σ' as

end Glompo.Handshake
